import Mathlib.Data.Fintype.Pi
import Mathlib.Data.Fintype.BigOperators
import Verif.Model.SeedText
import Verif.Props.LogLine
import Verif.Props.Overshoot
import Verif.Props.Scalars

/-!
# Property C176: signing keys derived from a secret

"They are meant for deriving consistent signing keys from a secret [...].  You should use a uniformly-distributed
unguessable seed with about curve.baselen bytes of entropy.  [...] `seed = os.urandom(curve.baselen)`"
(`ecdsa/util.py:104-113`).
-/

namespace NBC.Props
open NBC NT EC Ecdsa Spec Key Der Secp Wallet Aes Proto

/-! ### What is hashed -/

theorem split_dash : ∀ {a b s t : Bytes}, (45 : UInt8) ∉ a → (45 : UInt8) ∉ b → a ++ 45 :: s = b ++ 45 :: t → a = b ∧ s = t
  | [], [], _, _, _, _, h => by simpa using h
  | [], y :: b, _, _, _, hb, h => by
    simp only [List.nil_append, List.cons_append, List.cons.injEq] at h
    exact absurd (by rw [← h.1]; simp) hb
  | x :: a, [], _, _, ha, _, h => by
    simp only [List.nil_append, List.cons_append, List.cons.injEq] at h
    exact absurd (by rw [h.1]; simp) ha
  | x :: a, y :: b, s, t, ha, hb, h => by
    simp only [List.cons_append, List.cons.injEq] at h
    obtain ⟨e, e'⟩ := split_dash (fun hc => ha (by simp [hc])) (fun hc => hb (by simp [hc])) h.2
    exact ⟨by rw [h.1, e], e'⟩

theorem fmt_no_dash (n : Nat) : (45 : UInt8) ∉ fmtDecNat n := by
  intro h
  have := (numText_fmt n).2.1 45 h
  revert this
  decide

theorem hashed_inj {c c' : Nat} {s s' : Bytes}
    (h : [112, 114, 110, 103, 45] ++ fmtDecNat c ++ [45] ++ s = [112, 114, 110, 103, 45] ++ fmtDecNat c' ++ [45] ++ s') :
    c = c' ∧ s = s' := by
  simp only [List.append_assoc] at h
  have h1 := List.append_cancel_left h
  simp only [List.singleton_append] at h1
  obtain ⟨e, e'⟩ := split_dash (fmt_no_dash c) (fmt_no_dash c') h1
  exact ⟨fmtDecNat_inj e, e'⟩

/-- C176: the blocks of two seeds, and two blocks of a seed, are the same only if SHA-256 has a collision. -/
theorem C176_separate (H : Hashes) (s s' : Bytes) (c c' : Nat) (hne : (s, c) ≠ (s', c'))
    (h : prngBlock H s c = prngBlock H s' c') : ∃ x y, x ≠ y ∧ H.sha256 x = H.sha256 y := by
  refine ⟨_, _, fun e => hne ?_, h⟩
  obtain ⟨rfl, rfl⟩ := hashed_inj e
  rfl

open Classical in
/-- A hash function whose generator of every seed gives the bytes wanted. -/
noncomputable def streams (out : Bytes → Nat → UInt8) : Hashes :=
  { Hashes.toy with
    sha256 := fun x =>
      if h : ∃ p : Nat × Bytes, x = [112, 114, 110, 103, 45] ++ fmtDecNat p.1 ++ [45] ++ p.2 then
        (List.range 32).map fun j => out h.choose.2 (32 * h.choose.1 + j)
      else List.replicate 32 0
    sha256_length := fun x => by
      split <;> simp }

theorem streams_byte (out : Bytes → Nat → UInt8) (seed : Bytes) (j : Nat) :
    prngByte (streams out) seed j = out seed j := by
  unfold prngByte prngBlock streams
  have h : ∃ p : Nat × Bytes, [112, 114, 110, 103, 45] ++ fmtDecNat (j / 32) ++ [45] ++ seed =
      [112, 114, 110, 103, 45] ++ fmtDecNat p.1 ++ [45] ++ p.2 := ⟨(j / 32, seed), rfl⟩
  have hc : h.choose.1 = j / 32 ∧ h.choose.2 = seed := by
    obtain ⟨e, e'⟩ := hashed_inj h.choose_spec
    exact ⟨e.symm, e'.symm⟩
  dsimp only
  rw [dif_pos h, hc.1, hc.2, List.getD_eq_getElem?_getD, List.getElem?_map,
    List.getElem?_range (Nat.mod_lt j (by norm_num))]
  simp only [Option.map_some, Option.getD_some]
  rw [Nat.div_add_mod]

theorem streams_prng (out : Bytes → Nat → UInt8) (seed : Bytes) (pos m : Nat) :
    prng (streams out) seed pos m = (List.range m).map fun j => out seed (pos + j) := by
  unfold prng
  exact List.map_congr_left fun j _ => streams_byte out seed (pos + j)

theorem range_getD (b : Bytes) (m : Nat) (h : b.length = m) : (List.range m).map (fun j => b.getD j 0) = b := by
  apply List.ext_getElem
  · simp [h]
  · intro i h1 h2
    rw [List.getElem_map, List.getElem_range, List.getD_eq_getElem?_getD, List.getElem?_eq_getElem h2, Option.getD_some]

/-- With some hash function the scalars of all seeds are those wanted. -/
theorem overshoot_any (order : Nat) (ho : 1 < order) (f : Bytes → Nat) (hf : ∀ s, 1 ≤ f s ∧ f s < order) :
    ∃ H : Hashes, ∀ s, overshootModulo H s order = .ok (f s) := by
  refine ⟨streams fun s i => (beBytes (2 * orderlen order) (f s - 1)).getD i 0, fun s => ?_⟩
  have hlt : f s - 1 < 256 ^ (2 * orderlen order) := by
    have h1 := hf s
    have h2 : order ≤ 256 ^ orderlen order := (lt_256_pow_orderlen order).le
    have h3 : 256 ^ orderlen order ≤ 256 ^ (2 * orderlen order) := Nat.pow_le_pow_right (by norm_num) (by omega)
    omega
  have e : prng (streams fun s i => (beBytes (2 * orderlen order) (f s - 1)).getD i 0) s 0 (2 * orderlen order) =
      beBytes (2 * orderlen order) (f s - 1) := by
    rw [streams_prng]
    simp only [Nat.zero_add]
    exact range_getD _ _ (beBytes_length _ _)
  have h1 := hf s
  have := (gives_iff ho hlt (k := f s)).2 (by rw [Nat.mod_eq_of_lt (by omega)]; omega)
  exact this _ _ e

/-- The same of `randrange_from_seed__trytryagain`, for every size of number the bits of the order may be taken for. -/
theorem tryTryAgain_any (order bytes extrabits fuel : Nat) (ho : 1 < order) (hne : bytes ≠ 0 ∨ extrabits ≠ 0)
    (he : extrabits < 8) (hb : order ≤ 2 ^ extrabits * 256 ^ bytes + 1) (hfu : 0 < fuel) (f : Bytes → Nat)
    (hf : ∀ s, 1 ≤ f s ∧ f s < order) :
    ∃ H : Hashes, ∀ s, tryTryAgain H s order bytes extrabits fuel = .ok (some (f s)) := by
  by_cases hx : extrabits = 0
  · refine ⟨streams fun s i => (beBytes bytes (f s - 1)).getD i 0, fun s => ?_⟩
    have h1 := hf s
    refine ((C87_first _ s order bytes extrabits fuel hne).2 ho _).2 ⟨0, hfu, ?_, h1.2, fun l hl => by omega⟩
    unfold tryNumber
    rw [if_pos hx, Nat.zero_mul, streams_prng]
    simp only [Nat.zero_add]
    rw [range_getD _ _ (beBytes_length _ _), bytesVal_beBytes_of_lt]
    · omega
    · subst hx
      rw [pow_zero, one_mul] at hb
      omega
  · refine ⟨streams fun s i => (UInt8.ofNat ((f s - 1) / 256 ^ bytes) :: beBytes bytes (f s - 1)).getD i 0, fun s => ?_⟩
    have h1 := hf s
    refine ((C87_first _ s order bytes extrabits fuel hne).2 ho _).2 ⟨0, hfu, ?_, h1.2, fun l hl => by omega⟩
    unfold tryNumber
    rw [if_neg hx, Nat.zero_mul, streams_prng, streams_byte]
    have hr : (List.range bytes).map (fun j => (UInt8.ofNat ((f s - 1) / 256 ^ bytes) :: beBytes bytes (f s - 1)).getD
        (0 + 1 + j) 0) = beBytes bytes (f s - 1) := by
      rw [← range_getD (beBytes bytes (f s - 1)) bytes (beBytes_length _ _)]
      apply List.map_congr_left
      intro j _
      rw [range_getD _ _ (beBytes_length _ _), show 0 + 1 + j = j + 1 by omega, List.getD_cons_succ]
    rw [hr, bytesVal_beBytes, List.getD_cons_zero]
    have hq : (f s - 1) / 256 ^ bytes < 2 ^ extrabits := by
      rw [Nat.div_lt_iff_lt_mul (Nat.pow_pos (by norm_num))]
      omega
    have h128 : 2 ^ extrabits ≤ 2 ^ 7 := Nat.pow_le_pow_right (by norm_num) (by omega)
    rw [UInt8.toNat_ofNat', Nat.mod_eq_of_lt (a := (f s - 1) / 256 ^ bytes) (b := 2 ^ 8) (by omega), Nat.mod_eq_of_lt hq]
    have := Nat.div_add_mod' (f s - 1) (256 ^ bytes)
    omega

/-! ### Bytes and texts -/

theorem utf8_inj {a b : List Char} (h : a.flatMap String.utf8EncodeChar = b.flatMap String.utf8EncodeChar) : a = b := by
  have e : a.utf8Encode = b.utf8Encode := by
    unfold List.utf8Encode
    rw [h]
  have : String.ofList a = String.ofList b := String.toByteArray_inj.1 (by simpa using e)
  simpa using congrArg String.toList this

theorem utf8_small {c : Char} (h : c.toNat < 128) : String.utf8EncodeChar c = [UInt8.ofNat c.toNat] := by
  unfold String.utf8EncodeChar
  have : c.val.toNat ≤ 127 := Nat.le_of_lt_succ h
  simp only [this, if_true]
  rfl

theorem utf8_ascii {t : List Char} (h : ∀ c ∈ t, c.toNat < 128) :
    t.flatMap String.utf8EncodeChar = t.map fun c => UInt8.ofNat c.toNat := by
  induction t with
  | nil => rfl
  | cons c t ih =>
    rw [List.flatMap_cons, ih fun x hx => h x (by simp [hx]), utf8_small (h c (by simp))]
    rfl

theorem digitChar_small {n : Nat} (h : n < 16) : (Nat.digitChar n).toNat < 128 := by
  revert n
  decide

theorem reprBytes_small (b : Bytes) : ∀ c ∈ reprBytes .py3 b, c.toNat < 128 := by
  have quote : (reprQuote (latin1Decode b)).toNat < 128 := by
    unfold reprQuote
    split <;> decide
  have key : ∀ (q c x : Char), q.toNat < 128 → x ∈ reprChar (fun _ => false) q c → x.toNat < 128 := by
    intro q c x hq hx
    have hh : ∀ n, x ∈ hexEscape n → x.toNat < 128 := by
      intro n hn
      simp only [hexEscape, List.mem_cons, List.not_mem_nil, or_false] at hn
      rcases hn with rfl | rfl | rfl | rfl
      · decide
      · decide
      · exact digitChar_small (Nat.mod_lt _ (by norm_num))
      · exact digitChar_small (Nat.mod_lt _ (by norm_num))
    unfold reprChar at hx
    split_ifs at hx with h1 h2 h3 h4 h5 h6 h7
    · simp only [List.mem_cons, List.not_mem_nil, or_false] at hx
      rcases hx with rfl | rfl
      · decide
      · rcases h1 with rfl | rfl
        · exact hq
        · decide
    · simp only [List.mem_cons, List.not_mem_nil, or_false] at hx
      rcases hx with rfl | rfl <;> decide
    · simp only [List.mem_cons, List.not_mem_nil, or_false] at hx
      rcases hx with rfl | rfl <;> decide
    · simp only [List.mem_cons, List.not_mem_nil, or_false] at hx
      rcases hx with rfl | rfl <;> decide
    · exact hh _ hx
    · simp only [List.mem_cons, List.not_mem_nil, or_false] at hx
      rw [hx]
      omega
    all_goals first
      | exact hh _ hx
      | simp at *
  intro c hc
  simp only [reprBytes, reprWith, List.mem_cons, List.mem_append, List.mem_flatMap, List.not_mem_nil, or_false] at hc
  rcases hc with rfl | rfl | ⟨d, -, hd⟩ | rfl
  · decide
  · exact quote
  · exact key _ _ _ quote hd
  · exact quote

theorem repr_longer (b : Bytes) : b.length + 3 ≤ (reprBytes .py3 b).length := by
  have key : ∀ (q : Char) (l : List Char), l.length ≤ (l.flatMap (reprChar (fun _ => false) q)).length := by
    intro q l
    induction l with
    | nil => simp
    | cons c l ih =>
      rw [List.flatMap_cons, List.length_append, List.length_cons]
      have : 1 ≤ (reprChar (fun _ => false) q c).length := by
        unfold reprChar hexEscape
        repeat' split
        all_goals simp
      omega
  have := key (reprQuote (latin1Decode b)) (latin1Decode b)
  have hl : (latin1Decode b).length = b.length := by simp [latin1Decode]
  simp only [reprBytes, reprWith, List.length_cons, List.length_append, List.length_nil]
  omega

/-- Whether a seed is text. -/
def IsText : Phrase → Prop
  | .bytes _ => False
  | .text _ => True

/-- Seeds of ASCII characters. -/
def AsciiSeed : Phrase → Prop
  | .bytes b => ∀ x ∈ b, x.toNat < 128
  | .text t => ∀ c ∈ t, c.toNat < 128

/-- The seeds that can be used: all of them in Python 3, ASCII in Python 2. -/
def Usable (ver : PyVer) (seed : Phrase) : Prop := ver = .py2 → AsciiSeed seed

theorem seedText_usable {ver : PyVer} {seed : Phrase} (h : Usable ver seed) : ∃ s, seedText ver seed = .ok s := by
  cases ver with
  | py3 => cases seed <;> exact ⟨_, rfl⟩
  | py2 =>
    have h := h rfl
    cases seed with
    | bytes b => exact ⟨b, if_pos (by simpa [AsciiSeed] using h)⟩
    | text t => exact ⟨_, if_pos (by simpa [AsciiSeed] using h)⟩

theorem seedText_unusable {ver : PyVer} {seed : Phrase} (h : ¬ Usable ver seed) : seedText ver seed = .error .valueError := by
  cases ver with
  | py3 => exact absurd (fun e => by cases e) h
  | py2 =>
    have h : ¬ AsciiSeed seed := fun h' => h fun _ => h'
    cases seed with
    | bytes b => exact if_neg (by simpa [AsciiSeed] using h)
    | text t => exact if_neg (by simpa [AsciiSeed] using h)

theorem char_ofNat_inj {a b : List Char} (ha : ∀ c ∈ a, c.toNat < 128) (hb : ∀ c ∈ b, c.toNat < 128)
    (h : a.map (fun c => UInt8.ofNat c.toNat) = b.map (fun c => UInt8.ofNat c.toNat)) : a = b := by
  rw [← utf8_ascii ha, ← utf8_ascii hb] at h
  exact utf8_inj h

theorem seedText_inj {ver : PyVer} {a b : Phrase} {s : Bytes} (hk : IsText a ↔ IsText b) (ha : seedText ver a = .ok s)
    (hb : seedText ver b = .ok s) : a = b := by
  cases a with
  | bytes a =>
    cases b with
    | text b => exact absurd (hk.2 trivial) (by simp [IsText])
    | bytes b =>
      cases ver with
      | py3 =>
        have := utf8_inj ((Except.ok.inj ha).trans (Except.ok.inj hb).symm)
        have e : a = b := reprBytes_inj (ver := .py3) (r := []) (s := []) (by rw [this])
        rw [e]
      | py2 =>
        simp only [seedText] at ha hb
        split_ifs at ha hb
        rw [Except.ok.inj ha, Except.ok.inj hb]
  | text a =>
    cases b with
    | bytes b => exact absurd (hk.1 trivial) (by simp [IsText])
    | text b =>
      cases ver with
      | py3 => rw [utf8_inj ((Except.ok.inj ha).trans (Except.ok.inj hb).symm)]
      | py2 =>
        simp only [seedText] at ha hb
        split_ifs at ha hb with h1 h2
        rw [char_ofNat_inj (by simpa using h1) (by simpa using h2) ((Except.ok.inj ha).trans (Except.ok.inj hb).symm)]

/-- A choice of scalars for seeds of one kind is one for what is hashed. -/
theorem pull (ver : PyVer) (text : Prop) (order : Nat) (ho : 1 < order) (f : Phrase → Nat)
    (hf : ∀ seed, 1 ≤ f seed ∧ f seed < order) :
    ∃ g : Bytes → Nat, (∀ s, 1 ≤ g s ∧ g s < order) ∧
      ∀ seed s, (IsText seed ↔ text) → seedText ver seed = .ok s → g s = f seed := by
  classical
  refine ⟨fun s => if h : ∃ seed, (IsText seed ↔ text) ∧ seedText ver seed = .ok s then f h.choose else 1, ?_, ?_⟩
  · intro s
    dsimp only
    split
    · exact hf _
    · omega
  · intro seed s hk hs
    have h : ∃ seed, (IsText seed ↔ text) ∧ seedText ver seed = .ok s := ⟨seed, hk, hs⟩
    dsimp only
    rw [dif_pos h, seedText_inj (h.choose_spec.1.trans hk.symm) h.choose_spec.2 hs]

/-! ### C176 -/

/-- C176: which seeds are accepted, and that each of these has a scalar. -/
theorem C176_accepted (ver : PyVer) (H : Hashes) (seed : Phrase) (order : Nat) (ho : 1 < order) :
    (Usable ver seed → ∃ k, overshootSeed ver H seed order = .ok k ∧ 1 ≤ k ∧ k < order) ∧
    (¬ Usable ver seed → overshootSeed ver H seed order = .error .valueError ∧ ∀ bytes extrabits fuel,
      tryTryAgainSeed ver H seed order bytes extrabits fuel = .error .valueError) := by
  constructor
  · intro h
    obtain ⟨s, hs⟩ := seedText_usable h
    obtain ⟨k, e, h1, h2, -⟩ := C87_overshoot H s order ho
    exact ⟨k, by rw [overshootSeed, hs, ok_bind, e], h1, h2⟩
  · intro h
    have hs := seedText_unusable h
    refine ⟨by rw [overshootSeed, hs, error_bind], fun bytes extrabits fuel => ?_⟩
    rw [tryTryAgainSeed, decide_eq_true ho, hs]
    rfl

/-- C176: seeds of one kind (bytes or text) have nothing to do with each other: whatever scalars one thinks of for all of
them at once, there is a hash function with which these are the ones derived. -/
theorem C176_unrelated (ver : PyVer) (text : Prop) (order : Nat) (ho : 1 < order) (f : Phrase → Nat)
    (hf : ∀ seed, 1 ≤ f seed ∧ f seed < order) :
    (∃ H : Hashes, ∀ seed, (IsText seed ↔ text) → Usable ver seed → overshootSeed ver H seed order = .ok (f seed)) ∧
    ∀ bytes extrabits fuel, (bytes ≠ 0 ∨ extrabits ≠ 0) → extrabits < 8 → order ≤ 2 ^ extrabits * 256 ^ bytes + 1 →
      0 < fuel → ∃ H : Hashes, ∀ seed, (IsText seed ↔ text) → Usable ver seed →
        tryTryAgainSeed ver H seed order bytes extrabits fuel = .ok (some (f seed)) := by
  obtain ⟨g, hg, hgf⟩ := pull ver text order ho f hf
  constructor
  · obtain ⟨H, hH⟩ := overshoot_any order ho g hg
    refine ⟨H, fun seed hk hu => ?_⟩
    obtain ⟨s, hs⟩ := seedText_usable hu
    rw [overshootSeed, hs, ok_bind, hH, hgf seed s hk hs]
  · intro bytes extrabits fuel hne he hb hfu
    obtain ⟨H, hH⟩ := tryTryAgain_any order bytes extrabits fuel ho hne he hb hfu g hg
    refine ⟨H, fun seed hk hu => ?_⟩
    obtain ⟨s, hs⟩ := seedText_usable hu
    rw [tryTryAgainSeed, decide_eq_true ho, hs, ← hgf seed s hk hs, ← hH s]
    rfl

/-- C176: an order without scalars is refused, before anything is said about the seed. -/
theorem C176_order (ver : PyVer) (H : Hashes) (seed : Phrase) (order bytes extrabits fuel : Nat) (ho : order ≤ 1) :
    tryTryAgainSeed ver H seed order bytes extrabits fuel = .error .assertionError := by
  rw [tryTryAgainSeed, decide_eq_false (by omega)]
  rfl

/-- C176: text stands in what Python 3 hashes as UTF-8 has it. -/
theorem C176_utf8 (H : Hashes) (t : String) (order : Nat) :
    overshootSeed .py3 H (.text t.toList) order = overshootModulo H t.toUTF8.data.toList order ∧
    ∀ bytes extrabits fuel, 1 < order → tryTryAgainSeed .py3 H (.text t.toList) order bytes extrabits fuel =
      tryTryAgain H t.toUTF8.data.toList order bytes extrabits fuel := by
  have e : t.toUTF8.data.toList = t.toList.flatMap String.utf8EncodeChar := by
    conv_lhs => rw [← String.ofList_toList (s := t)]
    simp [String.toUTF8, String.ofList, List.utf8Encode]
  refine ⟨by rw [e]; rfl, fun bytes extrabits fuel ho => ?_⟩
  rw [tryTryAgainSeed, decide_eq_true ho, e]
  rfl

/-- C176, for text of ASCII characters: the same scalar in both Pythons, and the one of the same bytes in Python 2. -/
theorem C176_text_partial (H : Hashes) (t : List Char) (ht : ∀ c ∈ t, c.toNat < 128) (order : Nat) :
    overshootSeed .py2 H (.text t) order = overshootSeed .py3 H (.text t) order ∧
    overshootSeed .py2 H (.bytes (t.map fun c => UInt8.ofNat c.toNat)) order = overshootSeed .py3 H (.text t) order ∧
    ∀ bytes extrabits fuel, tryTryAgainSeed .py2 H (.text t) order bytes extrabits fuel =
      tryTryAgainSeed .py3 H (.text t) order bytes extrabits fuel := by
  have e3 : seedText .py3 (.text t) = .ok (t.map fun c => UInt8.ofNat c.toNat) := by
    rw [← utf8_ascii ht]
    rfl
  have e2 : seedText .py2 (.text t) = .ok (t.map fun c => UInt8.ofNat c.toNat) := if_pos (by simpa using ht)
  have eb : seedText .py2 (.bytes (t.map fun c => UInt8.ofNat c.toNat)) = .ok (t.map fun c => UInt8.ofNat c.toNat) := by
    refine if_pos ?_
    simp only [List.all_map, List.all_eq_true, Function.comp, decide_eq_true_eq]
    intro c hc
    rw [UInt8.toNat_ofNat']
    exact lt_of_le_of_lt (Nat.mod_le _ _) (ht c hc)
  simp only [overshootSeed, tryTryAgainSeed, e2, e3, eb, implies_true, and_self]

/-- C176 is false of bytes in two Pythons: no seed of bytes has the same key in both; for each of them there is a hash
function with which the scalars are different. -/
theorem C176_pythons_false (b : Bytes) (hb : ∀ x ∈ b, x.toNat < 128) (order : Nat) (ho : 2 < order) :
    ∃ H k k', k ≠ k' ∧ overshootSeed .py2 H (.bytes b) order = .ok k ∧ overshootSeed .py3 H (.bytes b) order = .ok k' := by
  have e2 : seedText .py2 (.bytes b) = .ok b := if_pos (by simpa using hb)
  have e3 : seedText .py3 (.bytes b) = .ok ((reprBytes .py3 b).map fun c => UInt8.ofNat c.toNat) := by
    rw [← utf8_ascii (reprBytes_small b)]
    rfl
  have hne : (reprBytes .py3 b).map (fun c => UInt8.ofNat c.toNat) ≠ b := by
    intro h
    have := congrArg List.length h
    have := repr_longer b
    simp at *
    omega
  obtain ⟨H, hH⟩ := overshoot_any order (by omega) (fun s => if s = b then 1 else 2) (fun s => by
    split <;> omega)
  refine ⟨H, 1, 2, by decide, ?_, ?_⟩
  · rw [overshootSeed, e2, ok_bind, hH, if_pos rfl]
  · rw [overshootSeed, e3, ok_bind, hH, if_neg hne]

/-- C176 is false of bytes and text together: in Python 3 every seed of bytes has the key of a seed of text, its `repr`. -/
theorem C176_kinds_false (H : Hashes) (b : Bytes) (order : Nat) :
    overshootSeed .py3 H (.bytes b) order = overshootSeed .py3 H (.text (reprBytes .py3 b)) order ∧
    ∀ bytes extrabits fuel, tryTryAgainSeed .py3 H (.bytes b) order bytes extrabits fuel =
      tryTryAgainSeed .py3 H (.text (reprBytes .py3 b)) order bytes extrabits fuel := ⟨rfl, fun _ _ _ => rfl⟩

open Classical in
/-- C176 is false of `seed = os.urandom(n)` in Python 2: of the `256 ^ n` seeds only `128 ^ n` are accepted. -/
theorem C176_python2_false (H : Hashes) (order : Nat) (ho : 1 < order) (n : Nat) :
    (Finset.univ.filter fun v : Fin n → Fin 256 => ∃ k,
      overshootSeed .py2 H (.bytes (List.ofFn fun i => UInt8.ofNat (v i))) order = .ok k).card = 128 ^ n := by
  classical
  have e : (Finset.univ.filter fun v : Fin n → Fin 256 => ∃ k,
      overshootSeed .py2 H (.bytes (List.ofFn fun i => UInt8.ofNat (v i))) order = .ok k) =
      Fintype.piFinset fun _ => Finset.univ.filter fun x : Fin 256 => x.val < 128 := by
    ext v
    simp only [Finset.mem_filter, Finset.mem_univ, true_and, Fintype.mem_piFinset]
    have hv : ∀ i, (UInt8.ofNat (v i).val).toNat = (v i).val := fun i => by
      rw [UInt8.toNat_ofNat', Nat.mod_eq_of_lt (v i).isLt]
    have hu : Usable .py2 (.bytes (List.ofFn fun i => UInt8.ofNat (v i))) ↔ ∀ i, (v i).val < 128 := by
      unfold Usable AsciiSeed
      simp only [true_imp_iff, List.mem_ofFn]
      constructor
      · intro h i
        rw [← hv i]
        exact h _ ⟨i, rfl⟩
      · rintro h x ⟨i, rfl⟩
        rw [hv i]
        exact h i
    rw [← hu]
    obtain ⟨h1, h2⟩ := C176_accepted .py2 H (.bytes (List.ofFn fun i => UInt8.ofNat (v i))) order ho
    constructor
    · rintro ⟨k, hk⟩
      by_contra h
      rw [(h2 h).1] at hk
      cases hk
    · intro h
      obtain ⟨k, hk, -⟩ := h1 h
      exact ⟨k, hk⟩
  have hc : (Finset.univ.filter fun x : Fin 256 => x.val < 128).card = 128 := by decide +kernel
  rw [e, Fintype.card_piFinset_const, hc]

/-! ### Examples -/

/-- The seed `ab` as bytes is hashed as `b'ab'` by Python 3, and as it is by Python 2. -/
example : seedText .py3 (.bytes [97, 98]) = .ok (ascii "b'ab'") ∧ seedText .py2 (.bytes [97, 98]) = .ok (ascii "ab") ∧
    seedText .py2 (.bytes [97, 200]) = .error .valueError ∧ seedText .py3 (.bytes [200]) = .ok (ascii "b'\\xc8'") ∧
    seedText .py3 (.text ['é']) = .ok [0xc3, 0xa9] := by decide +kernel

example : overshootSeed .py3 Hashes.toy (.text ['a']) 200 = overshootSeed .py2 Hashes.toy (.bytes [97]) 200 := by
  decide +kernel

/-- The hypotheses of `C176_unrelated`, as for an order of 256 bits with one bit more from the logarithm. -/
example : ∃ f : Phrase → Nat, (∀ seed, 1 ≤ f seed ∧ f seed < secp256k1.order) ∧ f (.bytes [1]) ≠ f (.bytes [2]) ∧
    secp256k1.order ≤ 2 ^ 1 * 256 ^ 32 + 1 :=
  ⟨fun seed => if seed = .bytes [1] then 5 else 7, fun seed => by
    dsimp only
    split <;> decide +kernel, by decide, by decide +kernel⟩

end NBC.Props
