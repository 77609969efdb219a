import Verif.Model.Pem
import Verif.Proofs.PyBind
import Verif.Spec.Pem

/-! # Base64 and PEM -/

namespace NBC.Ecdsa
open NBC

theorem b64Val_char {n : Nat} (h : n < 64) : b64Val (b64Char n) = some n := by
  have : ∀ i : Fin 64, b64Val (b64Char i.val) = some i.val := by decide +kernel
  exact this ⟨n, h⟩

theorem b64Char_ne {n : Nat} (h : n < 64) : b64Char n ≠ 61 := by
  have : ∀ i : Fin 64, b64Char i.val ≠ 61 := by decide +kernel
  exact this ⟨n, h⟩

theorem a2b_char0 {left pads n : Nat} (h : n < 64) (out rest : Bytes) :
    a2bBase64 0 left pads out (b64Char n :: rest) =
      a2bBase64 1 n 0 out rest := by
  rw [a2bBase64, if_neg (b64Char_ne h), b64Val_char h]; rfl

theorem a2b_char1 {left pads n : Nat} (h : n < 64) (out rest : Bytes) :
    a2bBase64 1 left pads out (b64Char n :: rest) =
      a2bBase64 2 (n % 16) 0 (out ++ [UInt8.ofNat (left * 4 + n / 16)]) rest := by
  rw [a2bBase64, if_neg (b64Char_ne h), b64Val_char h]; rfl

theorem a2b_char2 {left pads n : Nat} (h : n < 64) (out rest : Bytes) :
    a2bBase64 2 left pads out (b64Char n :: rest) =
      a2bBase64 3 (n % 4) 0 (out ++ [UInt8.ofNat (left * 16 + n / 4)]) rest := by
  rw [a2bBase64, if_neg (b64Char_ne h), b64Val_char h]; rfl

theorem a2b_char3 {left pads n : Nat} (h : n < 64) (out rest : Bytes) :
    a2bBase64 3 left pads out (b64Char n :: rest) =
      a2bBase64 0 0 0 (out ++ [UInt8.ofNat (left * 64 + n)]) rest := by
  rw [a2bBase64, if_neg (b64Char_ne h), b64Val_char h]; rfl

theorem byte_eq {m : Nat} {a : UInt8} (h : m = a.toNat) : UInt8.ofNat m = a := by
  subst h; simp

theorem a2b_encode : ∀ (s out rest : Bytes) (left pads : Nat),
    (s.length % 3 ≠ 0 ∨ rest = []) →
    a2bBase64 0 left pads out (b64encode s ++ rest) = .ok (out ++ s)
  | [], out, rest, left, pads, h => by
    rcases h with h | rfl
    · simp at h
    · simp [b64encode, a2bBase64]
  | [a], out, rest, left, pads, h => by
    have ha := a.toNat_lt
    simp only [b64encode, List.cons_append, List.nil_append]
    rw [a2b_char0 (by omega)]
    rw [a2b_char1 (by omega)]
    rw [byte_eq (a := a) (by omega)]
    rw [a2bBase64, if_pos rfl, if_pos (by omega), if_neg (by omega), a2bBase64, if_pos rfl,
      if_pos (by omega), if_pos (by omega)]
  | [a, b], out, rest, left, pads, h => by
    have ha := a.toNat_lt
    have hb := b.toNat_lt
    simp only [b64encode, List.cons_append, List.nil_append]
    rw [a2b_char0 (by omega)]
    rw [a2b_char1 (by omega)]
    rw [a2b_char2 (by omega)]
    rw [byte_eq (a := a) (by omega), byte_eq (a := b) (by omega)]
    rw [a2bBase64, if_pos rfl, if_pos (by omega), if_pos (by omega)]
    simp
  | a :: b :: c :: s, out, rest, left, pads, h => by
    have ha := a.toNat_lt
    have hb := b.toNat_lt
    have hc := c.toNat_lt
    simp only [b64encode, List.cons_append]
    rw [a2b_char0 (by omega)]
    rw [a2b_char1 (by omega)]
    rw [a2b_char2 (by omega)]
    rw [a2b_char3 (by omega)]
    rw [byte_eq (a := a) (by omega), byte_eq (a := b) (by omega), byte_eq (a := c) (by omega),
      a2b_encode s _ rest _ _ (h.imp (fun h => by simp only [List.length_cons] at h; omega) id)]
    simp

theorem b64decode_encode (s : Bytes) : b64decode (b64encode s) = .ok s := by
  have := a2b_encode s [] [] 0 0 (Or.inr rfl)
  simpa [b64decode] using this

/-- The characters `b64encode` writes. -/
theorem b64encode_mem : ∀ (s : Bytes) (c : UInt8), c ∈ b64encode s → c = 61 ∨ ∃ n < 64, c = b64Char n
  | [], c, h => by simp [b64encode] at h
  | [a], c, h => by
    have ha := a.toNat_lt
    simp only [b64encode, List.mem_cons, List.not_mem_nil, or_false] at h
    rcases h with h | h | h | h
    · exact Or.inr ⟨_, by omega, h⟩
    · exact Or.inr ⟨_, by omega, h⟩
    · exact Or.inl h
    · exact Or.inl h
  | [a, b], c, h => by
    have ha := a.toNat_lt
    have hb := b.toNat_lt
    simp only [b64encode, List.mem_cons, List.not_mem_nil, or_false] at h
    rcases h with h | h | h | h
    · exact Or.inr ⟨_, by omega, h⟩
    · exact Or.inr ⟨_, by omega, h⟩
    · exact Or.inr ⟨_, by omega, h⟩
    · exact Or.inl h
  | a :: b :: d :: s, c, h => by
    have ha := a.toNat_lt
    have hb := b.toNat_lt
    have hc := d.toNat_lt
    simp only [b64encode, List.mem_cons] at h
    rcases h with h | h | h | h | h
    · exact Or.inr ⟨_, by omega, h⟩
    · exact Or.inr ⟨_, by omega, h⟩
    · exact Or.inr ⟨_, by omega, h⟩
    · exact Or.inr ⟨_, by omega, h⟩
    · exact b64encode_mem s c h

theorem b64encode_plain {s : Bytes} {c : UInt8} (h : c ∈ b64encode s) :
    isSpace c = false ∧ c ≠ 10 ∧ c ≠ 45 := by
  rcases b64encode_mem s c h with rfl | ⟨n, hn, rfl⟩
  · decide
  · have : ∀ i : Fin 64, isSpace (b64Char i.val) = false ∧ b64Char i.val ≠ 10 ∧ b64Char i.val ≠ 45 := by
      decide +kernel
    exact this ⟨n, hn⟩

/-! ### Lines -/

theorem splitLines_ne (s : Bytes) : splitLines s ≠ [] := by
  cases s with
  | nil => simp [splitLines]
  | cons c s =>
    rw [splitLines]
    split
    · simp
    · split <;> simp

theorem splitLines_line : ∀ (l s : Bytes), (10 : UInt8) ∉ l →
    splitLines (l ++ 10 :: s) = l :: splitLines s
  | [], s, _ => by simp [splitLines]
  | c :: l, s, h => by
    simp only [List.mem_cons, not_or] at h
    have ih := splitLines_line l s h.2
    rw [List.cons_append, splitLines, if_neg (Ne.symm h.1), ih]

theorem splitLines_last : ∀ (l : Bytes), (10 : UInt8) ∉ l → splitLines l = [l]
  | [], _ => rfl
  | c :: l, h => by
    simp only [List.mem_cons, not_or] at h
    rw [splitLines, if_neg (Ne.symm h.1), splitLines_last l h.2]

theorem splitLines_lines (ls : List Bytes) (h : ∀ l ∈ ls, (10 : UInt8) ∉ l) (s : Bytes) :
    splitLines ((ls.map (· ++ [10])).flatten ++ s) = ls ++ splitLines s := by
  induction ls with
  | nil => simp
  | cons l ls ih =>
    have h1 := h l (by simp)
    have h2 := ih (fun l hl => h l (by simp [hl]))
    simp only [List.map_cons, List.flatten_cons, List.append_assoc, List.cons_append, List.nil_append]
    rw [splitLines_line _ _ h1, h2]

theorem dropWhile_all {p : UInt8 → Bool} : ∀ (l s : Bytes), (∀ c ∈ l, p c = true) →
    (l ++ s).dropWhile p = s.dropWhile p
  | [], s, _ => rfl
  | c :: l, s, h => by
    rw [List.cons_append, List.dropWhile_cons, if_pos (h c (by simp)),
      dropWhile_all l s (fun c hc => h c (by simp [hc]))]

theorem dropWhile_none {p : UInt8 → Bool} (s : Bytes) (h : ∀ c ∈ s, p c = false) :
    s.dropWhile p = s := by
  cases s with
  | nil => rfl
  | cons c s => rw [List.dropWhile_cons, if_neg (by simp [h c (by simp)])]

theorem strip_padded (a m b : Bytes) (ha : ∀ c ∈ a, isSpace c = true)
    (hm : ∀ c ∈ m, isSpace c = false) (hb : ∀ c ∈ b, isSpace c = true) : strip (a ++ m ++ b) = m := by
  rw [strip, List.append_assoc, dropWhile_all _ _ ha]
  cases m with
  | nil =>
    rw [List.nil_append]
    have : b.dropWhile isSpace = [] := by
      have := dropWhile_all b [] hb
      simpa using this
    rw [this]; rfl
  | cons c m =>
    rw [List.cons_append, List.dropWhile_cons, if_neg (by simp [hm c (by simp)]), ← List.cons_append,
      List.reverse_append, dropWhile_all _ _ (by simpa using hb), dropWhile_none, List.reverse_reverse]
    intro x hx
    exact hm x (by simpa [or_comm] using hx)

/-! ### `topem` -/

theorem pemLines_spec : ∀ (fuel : Nat) (s : Bytes), s.length ≤ fuel →
    ∃ cs : List Bytes, pemLines fuel s = cs.map (· ++ [10]) ∧ cs.flatten = s ∧
      (∀ c ∈ cs, 1 ≤ c.length ∧ c.length ≤ 64) ∧ (∀ c ∈ cs.dropLast, c.length = 64)
  | 0, s, h => by
    have : s = [] := List.eq_nil_of_length_eq_zero (by omega)
    exact ⟨[], by simp [pemLines, this]⟩
  | fuel + 1, s, h => by
    by_cases hs : s = []
    · exact ⟨[], by simp [pemLines, hs]⟩
    · have hl : 0 < s.length := List.length_pos_iff.2 hs
      obtain ⟨cs, e1, e2, e3, e4⟩ := pemLines_spec fuel (s.drop 64) (by simp; omega)
      refine ⟨s.take 64 :: cs, ?_, ?_, ?_, ?_⟩
      · rw [pemLines, if_neg hs, e1]; rfl
      · rw [List.flatten_cons, e2, List.take_append_drop]
      · intro c hc
        rcases List.mem_cons.1 hc with rfl | hc
        · simp; omega
        · exact e3 c hc
      · intro c hc
        cases cs with
        | nil => simp at hc
        | cons d cs =>
          rw [List.dropLast_cons_cons, List.mem_cons] at hc
          rcases hc with rfl | hc
          · have : (s.drop 64).length ≠ 0 := by
              rw [← e2]
              have := (e3 d (by simp)).1
              simp; intro h0; simp [h0] at this
            simp at this ⊢; omega
          · exact e4 c hc

theorem filter_all {p : Bytes → Bool} (l : List Bytes) (h : ∀ x ∈ l, p x = true) : l.filter p = l := by
  rw [List.filter_eq_self]; exact h

/-! ### Base64 is RFC 4648 base64 -/

theorem b64Char_eq {n : Nat} (h : n < 64) :
    UInt8.ofNat (Spec.Pem.alphabet.getD n '=').toNat = b64Char n := by
  have : ∀ i : Fin 64, UInt8.ofNat (Spec.Pem.alphabet.getD i.val '=').toNat = b64Char i.val := by
    decide +kernel
  exact this ⟨n, h⟩

open Spec.Pem in
theorem base64_eq : ∀ s : Bytes, base64 s = b64encode s
  | [] => by simp [base64, b64encode, sextets]
  | [a] => by
    have ha := a.toNat_lt
    simp only [base64, List.flatMap_cons, List.flatMap_nil, bits, List.append_nil, List.cons_append,
      List.nil_append, sextets, List.map_cons, List.map_nil, b64encode, List.length_cons,
      List.length_nil, List.foldl_cons, List.foldl_nil, List.replicate]
    rw [b64Char_eq (by omega), b64Char_eq (by omega)]
    refine congr (congrArg List.cons (congrArg b64Char (by omega))) ?_
    refine congr (congrArg List.cons (congrArg b64Char (by omega))) ?_
    rfl
  | [a, b] => by
    have ha := a.toNat_lt
    have hb := b.toNat_lt
    simp only [base64, List.flatMap_cons, List.flatMap_nil, bits, List.append_nil, List.cons_append,
      List.nil_append, sextets, List.map_cons, List.map_nil, b64encode, List.length_cons,
      List.length_nil, List.foldl_cons, List.foldl_nil, List.replicate]
    rw [b64Char_eq (by omega), b64Char_eq (by omega), b64Char_eq (by omega)]
    refine congr (congrArg List.cons (congrArg b64Char (by omega))) ?_
    refine congr (congrArg List.cons (congrArg b64Char (by omega))) ?_
    refine congr (congrArg List.cons (congrArg b64Char (by omega))) ?_
    rfl
  | a :: b :: c :: s => by
    have ha := a.toNat_lt
    have hb := b.toNat_lt
    have hc := c.toNat_lt
    have ih := base64_eq s
    simp only [base64] at ih
    simp only [base64, List.flatMap_cons, bits, List.cons_append, List.nil_append, sextets,
      List.map_cons, b64encode, List.length_cons]
    rw [b64Char_eq (by omega), b64Char_eq (by omega), b64Char_eq (by omega), b64Char_eq (by omega),
      ← ih]
    rw [show ∀ t : Nat, (t + 1 + 1 + 1 + 1) % 4 = t % 4 by omega]
    refine congr (congrArg List.cons (congrArg b64Char (by omega))) ?_
    refine congr (congrArg List.cons (congrArg b64Char (by omega))) ?_
    refine congr (congrArg List.cons (congrArg b64Char (by omega))) ?_
    refine congr (congrArg List.cons (congrArg b64Char (by omega))) ?_
    rfl

theorem blank_space {s : Bytes} (h : Spec.Pem.Blank s) : ∀ c ∈ s, isSpace c = true := by
  intro c hc
  have := h c hc
  have hall : ∀ c ∈ ([32, 9, 11, 12, 13] : Bytes), isSpace c = true := by decide
  exact hall c this

theorem blank_newline {s : Bytes} (h : Spec.Pem.Blank s) : (10 : UInt8) ∉ s := by
  intro hc
  have := h 10 hc
  revert this
  decide

end NBC.Ecdsa
