import Verif.Model.LogLine
import Verif.Proofs.LogText
import Verif.Proofs.IpText

/-!
# What is written to the log: lemmas
-/

namespace NBC.Spec

/-- A character that neither ends a line nor controls a terminal: ASCII from the space to the tilde, and what lies above the
C1 controls and the no-break space. -/
def Printable (c : Char) : Prop := 32 ≤ c.toNat ∧ c.toNat < 127 ∨ 161 ≤ c.toNat

instance (c : Char) : Decidable (Printable c) := inferInstanceAs (Decidable (_ ∨ _))

/-- A text of such characters. -/
def Clean (s : List Char) : Prop := ∀ c ∈ s, Printable c

instance (s : List Char) : Decidable (Clean s) := inferInstanceAs (Decidable (∀ c ∈ s, _))

theorem Clean.append {a b : List Char} (ha : Clean a) (hb : Clean b) : Clean (a ++ b) :=
  fun c hc => (List.mem_append.1 hc).elim (ha c) (hb c)

theorem Clean.cons {c : Char} {a : List Char} (hc : Printable c) (ha : Clean a) : Clean (c :: a) :=
  fun x hx => (List.mem_cons.1 hx).elim (fun e => e ▸ hc) (ha x)

theorem Clean.nil : Clean [] := fun _ h => by cases h

end NBC.Spec

namespace NBC.Proto
open NBC.Aes (PyVer)
open NBC.Spec

theorem clean_join {sep : List Char} (hs : Clean sep) : ∀ {l : List (List Char)}, (∀ x ∈ l, Clean x) →
    Clean (joinWith sep l)
  | [], _ => Clean.nil
  | [x], h => h x (by simp)
  | x :: y :: l, h => ((h x (by simp)).append hs).append (clean_join hs (fun z hz => h z (by
      rcases List.mem_cons.1 hz with rfl | hz
      · simp
      · simp [hz])))

theorem clean_digitChar : ∀ n : Nat, n < 16 → Printable (Nat.digitChar n) := by decide

theorem clean_digits (b n : Nat) (h : b = 10 ∨ b = 16) : Clean (Nat.toDigits b n) := by
  intro c hc
  obtain ⟨d, hd, rfl⟩ := mem_numeral (by omega) n c hc
  exact clean_digitChar d (by omega)

theorem clean_dec (i : Int) : Clean (decText i) := by
  unfold decText
  split
  · exact Clean.cons (by decide) (clean_digits 10 _ (.inl rfl))
  · exact clean_digits 10 _ (.inl rfl)

theorem clean_escape (n : Nat) : Clean (hexEscape n) :=
  Clean.cons (by decide) (Clean.cons (by decide) (Clean.cons (clean_digitChar _ (Nat.mod_lt _ (by decide)))
    (Clean.cons (clean_digitChar _ (Nat.mod_lt _ (by decide))) Clean.nil)))

theorem clean_quote (s : List Char) : Printable (reprQuote s) := by
  unfold reprQuote
  split <;> decide

theorem clean_reprChar {plain : Char → Bool} (hp : ∀ c, plain c = true → Printable c) {q c : Char} (hq : Printable q) :
    Clean (reprChar plain q c) := by
  unfold reprChar
  split
  · rename_i h
    refine Clean.cons (by decide) (Clean.cons ?_ Clean.nil)
    rcases h with rfl | rfl
    · exact hq
    · decide
  repeat' split
  · decide
  · decide
  · decide
  · exact clean_escape _
  · exact Clean.cons (.inl ⟨by omega, by omega⟩) Clean.nil
  · exact Clean.cons (hp _ ‹_›) Clean.nil
  · exact clean_escape _

theorem clean_reprWith {plain : Char → Bool} (hp : ∀ c, plain c = true → Printable c) (s : List Char) :
    Clean (reprWith plain s) := by
  refine Clean.cons (clean_quote s) (Clean.append ?_ (Clean.cons (clean_quote s) Clean.nil))
  intro c hc
  obtain ⟨x, -, hx⟩ := List.mem_flatMap.1 hc
  exact clean_reprChar hp (clean_quote s) c hx

theorem clean_reprBytes (ver : PyVer) (b : Bytes) : Clean (reprBytes ver b) := by
  cases ver
  · exact clean_reprWith (by simp) _
  · exact Clean.cons (by decide) (clean_reprWith (by simp) _)

theorem clean_above (c : Char) (h : decide (161 ≤ c.toNat ∧ c.toNat ≠ 173) = true) : Printable c :=
  .inr (of_decide_eq_true h).1

theorem clean_reprUnicode (ver : PyVer) (s : List Char) : Clean (reprUnicode ver s) := by
  cases ver
  · exact Clean.cons (by decide) (clean_reprWith (by simp) _)
  · exact clean_reprWith clean_above _

theorem hexDigit_range : ∀ n : Nat, n < 16 → 32 ≤ (hexDigit n).toNat ∧ (hexDigit n).toNat < 127 := by decide

theorem clean_decode {b : Bytes} (h : ∀ x ∈ b, 32 ≤ x.toNat ∧ x.toNat < 127) : Clean (latin1Decode b) := by
  intro c hc
  obtain ⟨x, hx, rfl⟩ := List.mem_map.1 hc
  have h := h x hx
  left
  rw [latin1_byte _ x.toNat_lt]
  exact h

theorem hexlify_range (b : Bytes) : ∀ x ∈ hexlify b, 32 ≤ x.toNat ∧ x.toNat < 127 := by
  intro x hx
  obtain ⟨y, -, hy⟩ := List.mem_flatMap.1 hx
  have := y.toNat_lt
  rcases List.mem_cons.1 hy with rfl | hy
  · exact hexDigit_range _ (by omega)
  · rw [List.mem_singleton.1 hy]
    exact hexDigit_range _ (by omega)

/-- Shown with `%s`, it is clean. -/
def CleanShown : Shown → Prop
  | .text t => Clean t
  | .bytes _ => True

theorem clean_percent {ver : PyVer} {x : Shown} (h : CleanShown x) : Clean (percentS ver x) := by
  cases x with
  | text t => exact h
  | bytes b => exact clean_reprBytes ver b

theorem clean_shown (ver : PyVer) {b : Bytes} (h : ∀ x ∈ b, 32 ≤ x.toNat ∧ x.toNat < 127) :
    CleanShown (shownBytes ver b) := by
  cases ver
  · exact clean_decode h
  · exact trivial

theorem clean_hex (ver : PyVer) (b : Bytes) : Clean (strOfBytes ver (hexlify b)) :=
  clean_percent (clean_shown ver (hexlify_range b))

theorem clean_strOf3 (b : Bytes) : Clean (strOfBytes .py3 b) := clean_reprBytes .py3 b

/-! ### Texts of field types -/

/-- The text of what was read is clean. -/
def CleanFn (T : FType) (s : TextFn) : Prop := ∀ v, Parsed T v → ∀ k, s v = .ok k → CleanShown k

theorem number_clean (ver : PyVer) (f : Fmt) (big af : Bool) : CleanFn (ftNumber f big af) (textPlain ver) := by
  intro v hv k hk
  obtain ⟨i, -, rfl⟩ := parsed_number hv
  injection hk with hk
  rw [← hk]
  exact clean_dec i

theorem size_clean (ver : PyVer) : CleanFn ftVarInteger (textPlain ver) := by
  intro v hv k hk
  obtain ⟨i, -, rfl⟩ := parsed_size hv
  injection hk with hk
  rw [← hk]
  exact clean_dec i

theorem bytes_clean (ver : PyVer) (n : Nat) : CleanFn (ftBytes n) (textBytes ver) := by
  intro v hv k hk
  obtain ⟨b, rfl, -⟩ := parsed_bytes hv
  injection hk with hk
  rw [← hk]
  refine clean_shown ver (fun x hx => ?_)
  rcases List.mem_append.1 hx with hx | hx
  · have : ∀ x ∈ ([48, 120] : Bytes), 32 ≤ x.toNat ∧ x.toNat < 127 := by decide
    exact this x hx
  · exact hexlify_range b x hx

theorem string_clean (ver : PyVer) : CleanFn ftVarString (textRepr ver) := by
  intro v hv k hk
  obtain ⟨b, rfl, -⟩ := parsed_string hv
  injection hk with hk
  rw [← hk]
  exact clean_reprBytes ver b

theorem clean_joinCh {c : Char} (hc : Printable c) : ∀ {l : List (List Char)}, (∀ x ∈ l, Clean x) → Clean (joinCh c l)
  | [], _ => Clean.nil
  | [x], h => h x (by simp)
  | x :: y :: l, h => (h x (by simp)).append (Clean.cons hc (clean_joinCh hc (fun z hz => h z (by
      rcases List.mem_cons.1 hz with rfl | hz
      · simp
      · simp [hz]))))

theorem parsed_ip {v : Val} (h : Parsed ftIPAddress v) : ∃ s, v = .str s ∧ Clean s := by
  obtain ⟨d, l, h⟩ := h
  simp only [ftIPAddress, bind_ok_iff] at h
  obtain ⟨⟨n, s⟩, h1, h2⟩ := h
  simp only [Except.ok.injEq, Prod.mk.injEq] at h2
  refine ⟨s, h2.2.symm, ?_⟩
  simp only [ipParse] at h1
  split at h1
  · split at h1
    · cases h1
    · simp only [Except.ok.injEq, Prod.mk.injEq] at h1
      rw [← h1.2]
      refine clean_joinCh (by decide) (fun x hx => ?_)
      obtain ⟨y, -, rfl⟩ := List.mem_map.1 hx
      exact clean_digits 10 _ (.inl rfl)
  · split at h1
    · cases h1
    · simp only [Except.ok.injEq, Prod.mk.injEq] at h1
      rw [← h1.2]
      refine clean_joinCh (by decide) (fun x hx => ?_)
      obtain ⟨y, -, rfl⟩ := List.mem_map.1 hx
      exact clean_digits 16 _ (.inr rfl)

theorem ip_clean (ver : PyVer) : CleanFn ftIPAddress (textPlain ver) := by
  intro v hv k hk
  obtain ⟨s, rfl, hs⟩ := parsed_ip hv
  injection hk with hk
  rw [← hk]
  exact hs

theorem optional_clean (ver : PyVer) (f : Fmt) (i : Int) : CleanFn (ftOptional (ftNumber f) (.int i)) (textPlain ver) := by
  rintro v ⟨d, l, h⟩ k hk
  simp only [ftOptional] at h
  split at h
  · rename_i r hr
    rw [Except.ok.injEq] at h
    exact number_clean ver f false false v ⟨d, l, by rw [hr, h]⟩ k hk
  · simp only [Except.ok.injEq, Prod.mk.injEq] at h
    rw [← h.2] at hk
    injection hk with hk
    rw [← hk]
    exact clean_dec i

theorem onlyText_clean : ∀ {ks : List Shown} {ts : List (List Char)}, onlyText ks = .ok ts → (∀ k ∈ ks, CleanShown k) →
    ∀ t ∈ ts, Clean t
  | [], ts, h, _ => by
    injection h with h
    rw [← h]; simp
  | .bytes _ :: _, _, h, _ => by cases h
  | .text t :: l, ts, h, hk => by
    simp only [onlyText, bind_ok_iff] at h
    obtain ⟨ts', h1, h2⟩ := h
    injection h2 with h2
    rw [← h2]
    intro x hx
    rcases List.mem_cons.1 hx with rfl | hx
    · exact hk (.text x) (by simp)
    · exact onlyText_clean h1 (fun k hk' => hk k (by simp [hk'])) x hx

theorem mapM_mem {α β : Type} {f : α → Py β} : ∀ {l : List α} {r : List β}, l.mapM f = .ok r →
    ∀ y ∈ r, ∃ x ∈ l, f x = .ok y
  | [], r, h, y, hy => by
    rw [List.mapM_nil] at h
    injection h with h
    rw [← h] at hy; cases hy
  | x :: l, r, h, y, hy => by
    rw [List.mapM_cons] at h
    simp only [bind_ok_iff] at h
    obtain ⟨z, h1, zs, h2, h3⟩ := h
    injection h3 with h3
    rw [← h3] at hy
    rcases List.mem_cons.1 hy with rfl | hy
    · exact ⟨x, by simp, h1⟩
    · obtain ⟨w, hw, e⟩ := mapM_mem h2 y hy
      exact ⟨w, by simp [hw], e⟩

theorem array_clean {T : FType} {s : TextFn} (h : CleanFn T s) (a c : Option Nat) : CleanFn (ftArray T a c) (textArray s) := by
  intro v hv k hk
  obtain ⟨l, rfl, -, hl⟩ := parsed_array hv
  simp only [textArray, bind_ok_iff] at hk
  obtain ⟨ks, h1, ts, h2, h3⟩ := hk
  injection h3 with h3
  rw [← h3]
  refine Clean.cons (by decide) (Clean.append (clean_join (by decide) ?_) (by decide))
  refine onlyText_clean h2 (fun k hk => ?_)
  obtain ⟨x, hx, e⟩ := mapM_mem h1 k hk
  exact h x (hl x hx) k e

/-- The methods fit the types, and the names are clean. -/
inductive CleanAll : Props → List (String × TextFn) → Prop
  | nil : CleanAll [] []
  | cons {k : String} {T : FType} {s : TextFn} {ps : Props} {ss : List (String × TextFn)} :
      CleanFn T s → CleanAll ps ss → CleanAll ((k, T) :: ps) ((k, s) :: ss)

theorem CleanAll.mem {ps : Props} {ss : List (String × TextFn)} (h : CleanAll ps ss) {k : String} {s : TextFn}
    (hk : (k, s) ∈ ss) : ∃ T, (k, T) ∈ ps ∧ CleanFn T s := by
  induction h with
  | nil => cases hk
  | @cons k' T s' ps ss hs h ih =>
    rcases List.mem_cons.1 hk with e | hk
    · cases e
      exact ⟨T, by simp, hs⟩
    · obtain ⟨T', h1, h2⟩ := ih hk
      exact ⟨T', by simp [h1], h2⟩

theorem fieldTexts_clean {ver : PyVer} : ∀ {ss : List (String × TextFn)} {vs : List (String × Val)} {l : List (List Char)},
    fieldTexts ver ss vs = .ok l →
    (∀ p ∈ ss, Clean (lit p.1) ∧ ∀ v, getField vs p.1 = .ok v → ∀ k, p.2 v = .ok k → CleanShown k) → ∀ t ∈ l, Clean t
  | [], _, l, h, _ => by
    injection h with h
    rw [← h]; simp
  | (key, s) :: ss, vs, l, h, hp => by
    simp only [fieldTexts, bind_ok_iff] at h
    obtain ⟨v, h1, x, h2, l', h3, h4⟩ := h
    injection h4 with h4
    rw [← h4]
    intro t ht
    obtain ⟨hk, hv⟩ := hp (key, s) (by simp)
    rcases List.mem_cons.1 ht with rfl | ht
    · exact hk.append (Clean.cons (by decide) (clean_percent (hv v h1 x h2)))
    · exact fieldTexts_clean h3 (fun p hp' => hp p (by simp [hp'])) t ht

theorem compText_clean {ver : PyVer} {name : String} (hname : Clean (lit name)) {ps : Props} {ss : List (String × TextFn)}
    (hr : CleanAll ps ss) (hn : (ps.map (·.1)).Nodup) (hk : ∀ k ∈ ss.map (·.1), Clean (lit k)) {data : Bytes} {off o : Nat}
    {vs : List (String × Val)} (h : parseFields data ps off = .ok (o, vs)) {t : List Char}
    (ht : compText ver name ss vs = .ok t) : Clean t := by
  simp only [compText, bind_ok_iff] at ht
  obtain ⟨l, h1, h2⟩ := ht
  injection h2 with h2
  rw [← h2]
  refine Clean.cons (by decide) (Clean.append (clean_join (by decide) ?_) (by decide))
  intro x hx
  rcases List.mem_cons.1 hx with rfl | hx
  · exact hname
  · refine fieldTexts_clean h1 (fun p hp => ⟨hk _ (List.mem_map_of_mem hp), fun v hv k hk' => ?_⟩) x hx
    obtain ⟨T, hT, hs⟩ := hr.mem hp
    obtain ⟨w, hw, hpw⟩ := parsed_field h hn hT
    rw [hw] at hv
    injection hv with hv
    exact hs v (hv ▸ hpw) k hk'

theorem object_clean {ver : PyVer} {name : String} {c : Cls} {ss : List (String × TextFn)} (hname : Clean (lit name))
    (hr : CleanAll c.props ss) (hn : (c.props.map (·.1)).Nodup) (hk : ∀ k ∈ ss.map (·.1), Clean (lit k)) :
    CleanFn (ftCompound c) (textObject ver name ss) := by
  intro v hv k hk'
  obtain ⟨d, o, vs, h1, rfl⟩ := parsed_object hv
  simp only [textObject, bind_ok_iff] at hk'
  obtain ⟨t, ht, e⟩ := hk'
  injection e with e
  rw [← e]
  exact compText_clean hname hr hn hk h1 ht

end NBC.Proto
