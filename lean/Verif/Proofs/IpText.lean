import Verif.Proofs.Struct

/-!
# Text of numbers and of IP addresses
-/

namespace NBC.Proto
open NBC.Spec NBC.Spec.Wire

theorem digitChar_val : ∀ d < 16, digitVal (Nat.digitChar d) = some d := by decide

theorem digitChar_facts : ∀ d < 16, isSpace (Nat.digitChar d) = false ∧ Nat.digitChar d ≠ '-' ∧
    Nat.digitChar d ≠ '+' ∧ Nat.digitChar d ≠ 'x' ∧ Nat.digitChar d ≠ 'X' ∧
    Nat.digitChar d ≠ '.' ∧ Nat.digitChar d ≠ ':' := by decide

theorem mem_numeral {base : Nat} (hb : 1 < base) (n : Nat) :
    ∀ c ∈ numeral base n, ∃ d < base, c = Nat.digitChar d := by
  unfold numeral
  induction n using Nat.strong_induction_on with
  | _ n ih =>
    intro c hc
    rw [Nat.toDigits_eq_if hb] at hc
    split_ifs at hc with h
    · exact ⟨n, h, by simpa using hc⟩
    · rw [List.mem_append] at hc
      rcases hc with hc | hc
      · exact ih (n / base) (Nat.div_lt_self (by omega) hb) c hc
      · exact ⟨n % base, Nat.mod_lt _ (by omega), by simpa using hc⟩

theorem digitsFrom_append (base : Nat) (l m : List Char) (acc v : Nat)
    (h : digitsFrom base l acc = some v) : digitsFrom base (l ++ m) acc = digitsFrom base m v := by
  induction l generalizing acc with
  | nil => simp only [digitsFrom] at h; injection h with h; subst h; rfl
  | cons c cs ih =>
    simp only [digitsFrom, List.cons_append] at h ⊢
    cases hd : digitVal c with
    | none => rw [hd] at h; cases h
    | some d =>
      rw [hd] at h
      simp only at h ⊢
      split_ifs at h ⊢ with hlt
      exact ih _ h

theorem digitsFrom_numeral {base : Nat} (hb : 1 < base) (h16 : base ≤ 16) (n : Nat) :
    digitsFrom base (numeral base n) 0 = some n := by
  unfold numeral
  induction n using Nat.strong_induction_on with
  | _ n ih =>
    rw [Nat.toDigits_eq_if hb]
    split_ifs with h
    · simp only [digitsFrom]
      rw [digitChar_val n (by omega)]
      simp [h]
    · rw [digitsFrom_append _ _ _ _ _ (ih (n / base) (Nat.div_lt_self (by omega) hb))]
      have hm := Nat.mod_lt n (show 0 < base by omega)
      simp only [digitsFrom]
      rw [digitChar_val _ (by omega)]
      simp only [hm, if_true]
      congr 1
      rw [Nat.mul_comm]
      exact Nat.div_add_mod n base

theorem numeral_ne_nil (base n : Nat) : numeral base n ≠ [] := Nat.toDigits_ne_nil

theorem strip_none (s : List Char) (h : ∀ c ∈ s, isSpace c = false) :
    ((s.dropWhile isSpace).reverse.dropWhile isSpace).reverse = s := by
  have key : ∀ t : List Char, (∀ c ∈ t, isSpace c = false) → t.dropWhile isSpace = t := by
    intro t ht
    cases t with
    | nil => rfl
    | cons c cs => simp [List.dropWhile, ht c (by simp)]
  rw [key s h, key s.reverse (fun c hc => h c (List.mem_reverse.1 hc)), List.reverse_reverse]

/-- `int` of a string of plain digits. -/
theorem pyIntParse_plain {base : Nat} {s : List Char} {n : Nat} (hne : s ≠ [])
    (hs : ∀ c ∈ s, isSpace c = false ∧ c ≠ '-' ∧ c ≠ '+' ∧ c ≠ 'x' ∧ c ≠ 'X')
    (hv : digitsFrom base s 0 = some n) : pyIntParse base s = .ok n := by
  unfold pyIntParse
  rw [strip_none s (fun c hc => (hs c hc).1)]
  cases s with
  | nil => exact absurd rfl hne
  | cons c cs =>
    have hc := hs c (by simp)
    have e1 : splitSign (c :: cs) = (false, c :: cs) := by
      unfold splitSign
      split
      · rename_i h; injection h with h; exact absurd h hc.2.1
      · rename_i h; injection h with h; exact absurd h hc.2.2.1
      · rfl
    have e2 : dropPrefix base (c :: cs) = c :: cs := by
      unfold dropPrefix
      split
      · rename_i h; injection h with _ h
        exact absurd rfl (hs 'x' (by rw [h]; simp)).2.2.2.1
      · rename_i h; injection h with _ h
        exact absurd rfl (hs 'X' (by rw [h]; simp)).2.2.2.2
      · rfl
    simp only [e1, e2]
    unfold digitsValue
    rw [if_neg (by simp), hv]
    rfl

theorem pyIntParse_numeral {base : Nat} (hb : 1 < base) (h16 : base ≤ 16) (n : Nat) :
    pyIntParse base (numeral base n) = .ok n := by
  refine pyIntParse_plain (numeral_ne_nil _ _) ?_ (digitsFrom_numeral hb h16 n)
  intro c hc
  obtain ⟨d, hd, rfl⟩ := mem_numeral hb n c hc
  obtain ⟨a, b, c, d, e, _⟩ := digitChar_facts d (by omega)
  exact ⟨a, b, c, d, e⟩

theorem joinCh_eq (c : Char) (ws : List (List Char)) : joinCh c ws = joined c ws := by
  unfold joined
  induction ws with
  | nil => rfl
  | cons w ws ih =>
    cases ws with
    | nil => simp [joinCh]
    | cons w' ws =>
      rw [joinCh, ih]
      · simp [List.intercalate, List.intersperse]
      · simp

theorem splitCh_noSep {c : Char} {w : List Char} (h : c ∉ w) : splitCh c w = [w] := by
  induction w with
  | nil => rfl
  | cons x xs ih =>
    simp only [List.mem_cons, not_or] at h
    rw [splitCh, if_neg (fun h' => h.1 h'.symm), ih h.2]

theorem splitCh_append {c : Char} {w t : List Char} (h : c ∉ w) :
    splitCh c (w ++ c :: t) = w :: splitCh c t := by
  induction w with
  | nil => simp [splitCh]
  | cons x xs ih =>
    simp only [List.mem_cons, not_or] at h
    rw [List.cons_append, splitCh, if_neg (fun h' => h.1 h'.symm), ih h.2]

theorem splitCh_joinCh {c : Char} (w : List Char) (ws : List (List Char)) (h : ∀ x ∈ w :: ws, c ∉ x) :
    splitCh c (joinCh c (w :: ws)) = w :: ws := by
  induction ws generalizing w with
  | nil => rw [joinCh, splitCh_noSep (h w (by simp))]
  | cons w' ws ih =>
    rw [joinCh, splitCh_append (h w (by simp)), ih w' (fun x hx => h x (by simp [hx]))]
    simp

theorem mapM_ok {α β : Type} {f : α → Py β} {g : α → β} (l : List α) (h : ∀ x ∈ l, f x = .ok (g x)) :
    l.mapM f = .ok (l.map g) := by
  induction l with
  | nil => rfl
  | cons x xs ih =>
    rw [List.mapM_cons, h x (by simp), ok_bind, ih (fun y hy => h y (by simp [hy])), ok_bind]
    rfl

/-! ### Parsing the canonical text -/

theorem ipv4Groups_quad (q : List Nat) (hq : q.length = 4) (h : ∀ x ∈ q, x < 256) :
    ipv4Groups (joined '.' (q.map (numeral 10))) = some (q.map Int.ofNat) := by
  unfold ipv4Groups
  have hsplit : splitCh '.' (joined '.' (q.map (numeral 10))) = q.map (numeral 10) := by
    rw [← joinCh_eq]
    match q, hq with
    | a :: t, _ =>
      rw [List.map_cons]
      refine splitCh_joinCh _ _ ?_
      intro x hx
      rw [← List.map_cons (f := numeral 10), List.mem_map] at hx
      obtain ⟨n, _, rfl⟩ := hx
      intro hc
      obtain ⟨d, hd, e⟩ := mem_numeral (by omega) n _ hc
      exact (digitChar_facts d (by omega)).2.2.2.2.2.1 e.symm
  have hm : (q.map (numeral 10)).mapM (pyIntParse 10) = .ok (q.map Int.ofNat) := by
    have : (q.map (numeral 10)).mapM (pyIntParse 10) = q.mapM (pyIntParse 10 ∘ numeral 10) := by
      rw [List.mapM_map]
    rw [this]
    exact mapM_ok q (fun x _ => pyIntParse_numeral (by omega) (by omega) x)
  rw [hsplit, hm]
  simp only
  rw [if_neg (by simp [hq]), if_pos]
  rw [List.all_eq_true]
  intro g hg
  obtain ⟨x, hx, rfl⟩ := List.mem_map.1 hg
  have := h x hx
  simp only [decide_eq_true_eq]
  show (0 : Int) ≤ (x : Int) ∧ (x : Int) ≤ 0xff
  omega

theorem ipv6Loop_plain (n : Nat) (q : List Nat) :
    ipv6Loop n (q.map (numeral 16)) = .ok (q.map Int.ofNat) := by
  induction q with
  | nil => rfl
  | cons x xs ih =>
    rw [List.map_cons, ipv6Loop, if_neg (numeral_ne_nil _ _),
      pyIntParse_numeral (by omega) (by omega), ok_bind, ih, ok_bind]
    rfl

theorem ipv6Trim_plain (ws : List (List Char)) (h : ∀ w ∈ ws, w ≠ []) : ipv6Trim ws = ws := by
  unfold ipv6Trim
  split
  · exact absurd rfl (h [] (by simp))
  · split
    · rename_i t ht
      have : ([] : List Char) ∈ ws := List.mem_reverse.1 (by rw [ht]; simp)
      exact absurd rfl (h _ this)
    · rfl

theorem ipv6_hex (q : List Nat) (hq : q.length = 8) (h : ∀ x ∈ q, x < 65536) :
    ipv4Groups (joined ':' (q.map (numeral 16))) = none ∧
    ipv6Groups (joined ':' (q.map (numeral 16))) = .ok (some (q.map Int.ofNat)) := by
  have hno : ∀ x ∈ q.map (numeral 16), ':' ∉ x ∧ '.' ∉ x := by
    intro x hx
    obtain ⟨n, _, rfl⟩ := List.mem_map.1 hx
    constructor
    · intro hc
      obtain ⟨d, hd, e⟩ := mem_numeral (by omega) n _ hc
      exact (digitChar_facts d (by omega)).2.2.2.2.2.2 e.symm
    · intro hc
      obtain ⟨d, hd, e⟩ := mem_numeral (by omega) n _ hc
      exact (digitChar_facts d (by omega)).2.2.2.2.2.1 e.symm
  have hsplit : splitCh ':' (joined ':' (q.map (numeral 16))) = q.map (numeral 16) := by
    rw [← joinCh_eq]
    match q, hq with
    | a :: t, _ =>
      rw [List.map_cons] at hno ⊢
      exact splitCh_joinCh _ _ (fun x hx => (hno x hx).1)
  have hdot : '.' ∉ joined ':' (q.map (numeral 16)) := by
    rw [← joinCh_eq]
    generalize q.map (numeral 16) = ws at hno
    induction ws with
    | nil => simp [joinCh]
    | cons w ws ih =>
      cases ws with
      | nil => exact (hno w (by simp)).2
      | cons w' ws =>
        rw [joinCh, List.mem_append, List.mem_cons]
        · rintro (hc | hc | hc)
          · exact (hno w (by simp)).2 hc
          · exact absurd hc (by decide)
          · exact ih (fun x hx => hno x (by simp [hx])) hc
        · simp
  constructor
  · unfold ipv4Groups
    rw [splitCh_noSep hdot]
    have : ∀ w, [w].mapM (pyIntParse 10) = (pyIntParse 10 w).map (fun v => [v]) := by
      intro w
      simp only [List.mapM_cons, List.mapM_nil]
      cases pyIntParse 10 w <;> rfl
    rw [this]
    cases pyIntParse 10 (joined ':' (q.map (numeral 16))) <;> rfl
  · have hne : ∀ w ∈ q.map (numeral 16), w ≠ [] := by
      intro x hx
      obtain ⟨n, _, rfl⟩ := List.mem_map.1 hx
      exact numeral_ne_nil _ _
    unfold ipv6Groups
    simp only [hsplit, ipv6Trim_plain _ hne]
    have hcount : (q.map (numeral 16)).count [] = 0 := by
      rw [List.count_eq_zero]
      exact fun hc => hne _ hc rfl
    rw [if_neg (by simp [hq]), if_neg (by simp [hcount, hq]), ipv6Loop_plain, ok_bind, if_pos]
    rw [List.all_eq_true]
    intro g hg
    obtain ⟨x, hx, rfl⟩ := List.mem_map.1 hg
    have := h x hx
    simp only [decide_eq_true_eq]
    show (0 : Int) ≤ (x : Int) ∧ (x : Int) ≤ 0xffff
    omega

theorem packAll_ok {f : Fmt} {n : Nat} (q : List Nat) (hq : q.length = n)
    (h : ∀ x ∈ q, inRange f x) :
    packAll f n (q.map Int.ofNat) = .ok (q.map (fun x : Nat => numBytes f true x)).flatten := by
  unfold packAll
  rw [if_neg (by simp [hq])]
  have : (q.map Int.ofNat).mapM (pack f true) = q.mapM (pack f true ∘ Int.ofNat) := by
    rw [List.mapM_map]
  rw [this, mapM_ok (f := pack f true ∘ Int.ofNat) (g := fun x : Nat => numBytes f true x) q (fun x hx => pack_ok (h x hx)),
    ok_bind]

theorem inRange_B {x : Nat} (h : x < 256) : inRange .B x := by
  unfold inRange lo hi
  simp only [twos, bits, Bool.false_eq_true, if_false]
  omega

theorem inRange_H {x : Nat} (h : x < 65536) : inRange .H x := by
  unfold inRange lo hi
  simp only [twos, bits, Bool.false_eq_true, if_false]
  omega

theorem ofNat_byte (x : UInt8) : numBytes .B true ((x.toNat : Nat) : Int) = [x] := by
  have hx := x.toNat_lt
  have hm : (((x.toNat : Nat) : Int) % 2 ^ 8).toNat = x.toNat := by omega
  have h := beBytes_bytesVal [x]
  have hv : bytesVal [x] = x.toNat := by simp [bytesVal, beVal]
  rw [hv] at h
  unfold numBytes
  simp only [bits, if_true, hm]
  exact h

theorem ip_bytes (t : Bytes) :
    ((t.map UInt8.toNat).map (fun x : Nat => numBytes .B true x)).flatten = t := by
  induction t with
  | nil => rfl
  | cons x xs ih =>
    simp only [List.map_cons, List.flatten_cons, ih, ofNat_byte]
    rfl

/-- The eight groups of an address. -/
def groups16 (a : Bytes) : List Nat := (List.range 8).map (fun i =>
  (a.getD (2 * i) 0).toNat * 256 + (a.getD (2 * i + 1) 0).toNat)

theorem exists16 {a : Bytes} (h : a.length = 16) : ∃ a0 a1 a2 a3 a4 a5 a6 a7 a8 a9 a10 a11 a12 a13 a14 a15,
    a = [a0, a1, a2, a3, a4, a5, a6, a7, a8, a9, a10, a11, a12, a13, a14, a15] := by
  match a, h with
  | [a0, a1, a2, a3, a4, a5, a6, a7, a8, a9, a10, a11, a12, a13, a14, a15], _ =>
    exact ⟨a0, a1, a2, a3, a4, a5, a6, a7, a8, a9, a10, a11, a12, a13, a14, a15, rfl⟩

theorem groups16_lt (a : Bytes) : ∀ x ∈ groups16 a, x < 65536 := by
  intro x hx
  obtain ⟨i, _, rfl⟩ := List.mem_map.1 hx
  have h1 := (a.getD (2 * i) 0).toNat_lt
  have h2 := (a.getD (2 * i + 1) 0).toNat_lt
  omega

theorem ofNat_pair (x y : UInt8) :
    numBytes .H true ((x.toNat * 256 + y.toNat : Nat) : Int) = [x, y] := by
  have hx := x.toNat_lt
  have hy := y.toNat_lt
  have hm : (((x.toNat * 256 + y.toNat : Nat) : Int) % 2 ^ 16).toNat = x.toNat * 256 + y.toNat := by
    omega
  have h := beBytes_bytesVal [x, y]
  have hv : bytesVal [x, y] = x.toNat * 256 + y.toNat := by simp [bytesVal, beVal]
  rw [hv] at h
  unfold numBytes
  simp only [bits, if_true, hm]
  exact h

theorem pairs_bytes : ∀ a : Bytes, a.length % 2 = 0 →
    ((pairs a).map (fun x : Nat => numBytes .H true x)).flatten = a
  | [], _ => rfl
  | [_], h => by simp at h
  | x :: y :: t, h => by
    rw [pairs, List.map_cons, List.flatten_cons, ofNat_pair, pairs_bytes t (by simp at h; omega)]
    rfl

theorem groups16_pairs {a : Bytes} (h : a.length = 16) : groups16 a = pairs a := by
  obtain ⟨a0, a1, a2, a3, a4, a5, a6, a7, a8, a9, a10, a11, a12, a13, a14, a15, rfl⟩ := exists16 h
  rfl

theorem groups_bytes {a : Bytes} (h : a.length = 16) :
    ((groups16 a).map (fun x : Nat => numBytes .H true x)).flatten = a := by
  rw [groups16_pairs h, pairs_bytes a (by omega)]

theorem ipBinary_v4 {s : List Char} {q : List Nat} (hg : ipv4Groups s = some (q.map Int.ofNat))
    (hq : q.length = 4) (hlt : ∀ x ∈ q, x < 256) :
    ipBinary s = .ok (ipHead ++ (q.map (fun x : Nat => numBytes .B true x)).flatten) ∧
      ipValidate s = .ok true := by
  unfold ipBinary ipValidate
  rw [hg]
  simp only
  rw [packAll_ok q hq (fun x hx => inRange_B (hlt x hx)), ok_bind]
  exact ⟨rfl, trivial⟩

theorem ipBinary_v6 {s : List Char} {q : List Nat} (h4 : ipv4Groups s = none)
    (h6 : ipv6Groups s = .ok (some (q.map Int.ofNat)))
    (hq : q.length = 8) (hlt : ∀ x ∈ q, x < 65536) :
    ipBinary s = .ok (q.map (fun x : Nat => numBytes .H true x)).flatten ∧
      ipValidate s = .ok true := by
  unfold ipBinary ipValidate
  rw [h4, h6]
  simp only [ok_bind]
  rw [packAll_ok q hq (fun x hx => inRange_H (hlt x hx))]
  exact ⟨rfl, rfl⟩

theorem ipText_v4 {a : Bytes} (hp : a.take 12 = v4Prefix) :
    ipText a = joined '.' (((a.drop 12).map UInt8.toNat).map (numeral 10)) := by
  unfold ipText
  rw [if_pos hp, List.map_map, Function.comp_def]

theorem ipText_v6 {a : Bytes} (hp : ¬ a.take 12 = v4Prefix) :
    ipText a = joined ':' ((groups16 a).map (numeral 16)) := by
  unfold ipText
  rw [if_neg hp, groups16, List.map_map, Function.comp_def]

/-- Writing the canonical text of an address gives the address. -/
theorem ipBinary_text {a : Bytes} (h : a.length = 16) :
    ipBinary (ipText a) = .ok a ∧ ipValidate (ipText a) = .ok true := by
  by_cases hp : a.take 12 = v4Prefix
  · rw [ipText_v4 hp]
    have hlen : ((a.drop 12).map UInt8.toNat).length = 4 := by
      rw [List.length_map, List.length_drop, h]
    have hlt := toNat_lt_256 (a.drop 12)
    have := ipBinary_v4 (ipv4Groups_quad _ hlen hlt) hlen hlt
    rw [ip_bytes, show ipHead = a.take 12 from by rw [hp]; decide, List.take_append_drop] at this
    exact this
  · rw [ipText_v6 hp]
    have hlen : (groups16 a).length = 8 := by simp [groups16]
    have hlt := groups16_lt a
    obtain ⟨h4, h6⟩ := ipv6_hex _ hlen hlt
    have := ipBinary_v6 h4 h6 hlen hlt
    rwa [groups_bytes h] at this

/-- Reading an address gives its canonical text. -/
theorem ipParse_text {a : Bytes} (h : a.length = 16) (rest : Bytes) :
    ipParse (a ++ rest) = .ok (16, ipText a) := by
  unfold ipParse ipText
  have e10 : (a ++ rest).take 10 = a.take 10 := List.take_append_of_le_length (by omega)
  have e12 : ((a ++ rest).drop 10).take 2 = (a.drop 10).take 2 := by
    rw [List.drop_append_of_le_length (by omega),
      List.take_append_of_le_length (by rw [List.length_drop]; omega)]
  have e16 : ((a ++ rest).drop 12).take 4 = a.drop 12 := by
    rw [List.drop_append_of_le_length (by omega), List.take_left' (by rw [List.length_drop]; omega)]
  have eall : (a ++ rest).take 16 = a := List.take_left' h
  rw [e10, e12, e16, eall]
  have hiff : (a.take 10 = List.replicate 10 0 ∧ (a.drop 10).take 2 = [0xff, 0xff]) ↔
      a.take 12 = v4Prefix := by
    have e : a.take 12 = a.take 10 ++ (a.drop 10).take 2 := by
      rw [show (12 : Nat) = 10 + 2 from rfl, List.take_add]
    rw [e]
    constructor
    · rintro ⟨h1, h2⟩; rw [h1, h2]; rfl
    · intro h1
      exact List.append_inj (t₁ := (a.drop 10).take 2) (s₂ := List.replicate 10 0)
        (t₂ := [0xff, 0xff]) h1 (by rw [List.length_take]; simp; omega)
  by_cases hp : a.take 12 = v4Prefix
  · rw [if_pos (hiff.2 hp), if_pos hp]
    simp only
    rw [if_neg (by simp [h]), joinCh_eq]
    rfl
  · rw [if_neg (fun h' => hp (hiff.1 h')), if_neg hp]
    simp only
    rw [if_neg (by simp [h]), joinCh_eq]
    congr 3
    obtain ⟨a0, a1, a2, a3, a4, a5, a6, a7, a8, a9, a10, a11, a12, a13, a14, a15, rfl⟩ := exists16 h
    rfl

end NBC.Proto
