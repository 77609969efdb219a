import Verif.Model.Qr
import Verif.Proofs.PyBind
import Verif.Proofs.IpText

/-! # Base32 -/

namespace NBC.Piecewise
open NBC

theorem b32Val_char {v : Nat} (h : v < 32) : b32Val (b32Char v) = some v := by
  have : ∀ i : Fin 32, b32Val (b32Char i.val) = some i.val := by decide +kernel
  exact this ⟨v, h⟩

theorem b32Char_ne {v : Nat} (h : v < 32) : b32Char v ≠ 61 := by
  have : ∀ i : Fin 32, b32Char i.val ≠ 61 := by decide +kernel
  exact this ⟨v, h⟩

theorem byte_of {m : Nat} {a : UInt8} (h : m % 256 = a.toNat) : UInt8.ofNat m = a := by
  apply UInt8.toNat_inj.1
  rw [UInt8.toNat_ofNat', ← h]

theorem quint_lt (a b c d e : UInt8) : quint a b c d e < 2 ^ 40 := by
  have ha := a.toNat_lt; have hb := b.toNat_lt; have hc := c.toNat_lt; have hd := d.toNat_lt
  have he := e.toNat_lt
  unfold quint; omega

theorem quintBytes_quint (a b c d e : UInt8) : quintBytes (quint a b c d e) = [a, b, c, d, e] := by
  have ha := a.toNat_lt; have hb := b.toNat_lt; have hc := c.toNat_lt; have hd := d.toNat_lt
  have he := e.toNat_lt
  unfold quintBytes quint
  rw [byte_of (a := a) (by omega), byte_of (a := b) (by omega), byte_of (a := c) (by omega),
    byte_of (a := d) (by omega), byte_of (a := e) (by omega)]

theorem b32Digits_lt {v : Nat} (h : v < 2 ^ 40) : ∀ d ∈ b32Digits v, d < 32 := by
  intro d hd
  simp only [b32Digits, List.mem_cons, List.not_mem_nil, or_false] at hd
  omega

theorem b32Digits_val {v : Nat} : (b32Digits v).foldl (fun acc v => acc * 32 + v) 0 = v := by
  simp only [b32Digits, List.foldl_cons, List.foldl_nil]
  omega

/-- The digits that hold data. -/
def digits32 : Bytes → List Nat
  | [] => []
  | [a] => (b32Digits (quint a 0 0 0 0)).take 2
  | [a, b] => (b32Digits (quint a b 0 0 0)).take 4
  | [a, b, c] => (b32Digits (quint a b c 0 0)).take 5
  | [a, b, c, d] => (b32Digits (quint a b c d 0)).take 7
  | a :: b :: c :: d :: e :: rest => b32Digits (quint a b c d e) ++ digits32 rest

/-- The number of `=`. -/
def pad32 : Nat → Nat
  | 0 => 0
  | 1 => 6
  | 2 => 4
  | 3 => 3
  | _ => 1

theorem b32encode_eq : ∀ s : Bytes,
    b32encode s = (digits32 s).map b32Char ++ List.replicate (pad32 (s.length % 5)) 61
  | [] => rfl
  | [a] => by simp [b32encode, digits32, List.map_take, pad32]
  | [a, b] => by simp [b32encode, digits32, List.map_take, pad32]
  | [a, b, c] => by simp [b32encode, digits32, List.map_take, pad32]
  | [a, b, c, d] => by simp [b32encode, digits32, List.map_take, pad32]
  | a :: b :: c :: d :: e :: rest => by
    have ih := b32encode_eq rest
    rw [b32encode, ih, digits32, List.map_append, List.append_assoc]
    simp [Nat.add_assoc]

theorem digits32_lt : ∀ s : Bytes, ∀ d ∈ digits32 s, d < 32
  | [] => by simp [digits32]
  | [a] => fun d hd => b32Digits_lt (quint_lt _ _ _ _ _) d (List.mem_of_mem_take hd)
  | [a, b] => fun d hd => b32Digits_lt (quint_lt _ _ _ _ _) d (List.mem_of_mem_take hd)
  | [a, b, c] => fun d hd => b32Digits_lt (quint_lt _ _ _ _ _) d (List.mem_of_mem_take hd)
  | [a, b, c, d] => fun d hd => b32Digits_lt (quint_lt _ _ _ _ _) d (List.mem_of_mem_take hd)
  | a :: b :: c :: d :: e :: rest => fun x hx => by
    rcases List.mem_append.1 hx with hx | hx
    · exact b32Digits_lt (quint_lt _ _ _ _ _) x hx
    · exact digits32_lt rest x hx

theorem digits32_length : ∀ s : Bytes, (digits32 s).length = (8 * s.length + 4) / 5
  | [] => rfl
  | [a] => by simp [digits32, b32Digits]
  | [a, b] => by simp [digits32, b32Digits]
  | [a, b, c] => by simp [digits32, b32Digits]
  | [a, b, c, d] => by simp [digits32, b32Digits]
  | a :: b :: c :: d :: e :: rest => by
    have ih := digits32_length rest
    rw [digits32, List.length_append, ih]
    simp only [b32Digits, List.length_cons, List.length_nil]
    omega

theorem digits32_ne_nil {s : Bytes} (h : s ≠ []) : digits32 s ≠ [] := by
  intro h0
  have := digits32_length s
  rw [h0] at this
  have : 0 < s.length := List.length_pos_iff.2 h
  simp at *
  omega

theorem dropWhile_eq_self {l : Bytes} (h : ∀ c ∈ l, c ≠ 61) : l.dropWhile (· == 61) = l := by
  cases l with
  | nil => rfl
  | cons c l => rw [List.dropWhile_cons, if_neg (by simpa using h c (by simp))]

theorem dropWhile_replicate (k : Nat) (l : Bytes) :
    (List.replicate k (61 : UInt8) ++ l).dropWhile (· == 61) = l.dropWhile (· == 61) := by
  induction k with
  | zero => rfl
  | succ k ih => rw [List.replicate_succ, List.cons_append, List.dropWhile_cons, if_pos (by simp), ih]

theorem takeWhile_replicate (k : Nat) {l : Bytes} (h : ∀ c ∈ l, c ≠ 61) :
    (List.replicate k (61 : UInt8) ++ l).takeWhile (· == 61) = List.replicate k 61 := by
  induction k with
  | zero =>
    cases l with
    | nil => rfl
    | cons c l =>
      rw [List.replicate_zero, List.nil_append, List.takeWhile_cons, if_neg (by simpa using h c (by simp))]
  | succ k ih => rw [List.replicate_succ, List.cons_append, List.takeWhile_cons, if_pos (by simp), ih]

theorem chars_ne (s : Bytes) : ∀ c ∈ (digits32 s).map b32Char, c ≠ 61 := by
  intro c hc
  obtain ⟨d, hd, rfl⟩ := List.mem_map.1 hc
  exact b32Char_ne (digits32_lt s d hd)

theorem stripPad_encode (s : Bytes) : stripPad (b32encode s) = (digits32 s).map b32Char := by
  have h := chars_ne s
  rw [b32encode_eq, stripPad]
  generalize hl : (digits32 s).map b32Char = l at h
  cases l with
  | nil =>
    have : s = [] := by
      by_contra hs
      exact digits32_ne_nil hs (List.map_eq_nil_iff.1 hl)
    subst this
    rfl
  | cons c l =>
    rw [List.cons_append, List.dropWhile_cons, if_neg (by simpa using h c (by simp)), ← List.cons_append,
      List.reverse_append, List.reverse_replicate, dropWhile_replicate, dropWhile_eq_self, List.reverse_reverse]
    intro x hx
    exact h x (by simpa [or_comm] using hx)

theorem b32Groups_digits {v : Nat} (rest : List Nat) :
    b32Groups (b32Digits v ++ rest) = (quintBytes v ++ (b32Groups rest).1, (b32Groups rest).2) := by
  have h := b32Digits_val (v := v)
  simp only [b32Digits] at h ⊢
  simp only [List.cons_append, List.nil_append, b32Groups, h]

/-- What is left of the last group, by the number of `=`. -/
def lastOf (pad : Nat) (last : Bytes) : Py Bytes :=
  match pad with
  | 0 => .ok []
  | 1 => .ok (last.take 4)
  | 3 => .ok (last.take 3)
  | 4 => .ok (last.take 2)
  | 6 => .ok (last.take 1)
  | _ => .error .typeError

theorem b32Groups_all : ∀ s : Bytes, ∃ last,
    lastOf (pad32 (s.length % 5)) (quintBytes (((b32Groups (digits32 s)).2 ++
      List.replicate (8 - (b32Groups (digits32 s)).2.length) 0).foldl (fun acc v => acc * 32 + v) 0)) = .ok last ∧
    (b32Groups (digits32 s)).1 ++ last = s
  | [] => ⟨[], rfl, rfl⟩
  | [a] => by
    have ha := a.toNat_lt
    have hv := b32Digits_val (v := quint a 0 0 0 0)
    refine ⟨[a], ?_, rfl⟩
    have e : ((b32Groups (digits32 [a])).2 ++ List.replicate (8 - (b32Groups (digits32 [a])).2.length) 0) =
        b32Digits (quint a 0 0 0 0) := by
      simp only [digits32, b32Digits, List.take_succ_cons, List.take_zero, b32Groups, List.length_cons,
        List.length_nil, List.replicate_succ, List.replicate_zero, List.cons_append, List.nil_append]
      unfold quint
      simp only [UInt8.toNat_zero, List.cons.injEq, true_and, and_true]
      omega
    rw [e, hv, quintBytes_quint]
    rfl
  | [a, b] => by
    have ha := a.toNat_lt; have hb := b.toNat_lt
    have hv := b32Digits_val (v := quint a b 0 0 0)
    refine ⟨[a, b], ?_, rfl⟩
    have e : ((b32Groups (digits32 [a, b])).2 ++ List.replicate (8 - (b32Groups (digits32 [a, b])).2.length) 0) =
        b32Digits (quint a b 0 0 0) := by
      simp only [digits32, b32Digits, List.take_succ_cons, List.take_zero, b32Groups, List.length_cons,
        List.length_nil, List.replicate_succ, List.replicate_zero, List.cons_append, List.nil_append]
      unfold quint
      simp only [UInt8.toNat_zero, List.cons.injEq, true_and, and_true]
      omega
    rw [e, hv, quintBytes_quint]
    rfl
  | [a, b, c] => by
    have ha := a.toNat_lt; have hb := b.toNat_lt; have hc := c.toNat_lt
    have hv := b32Digits_val (v := quint a b c 0 0)
    refine ⟨[a, b, c], ?_, rfl⟩
    have e : ((b32Groups (digits32 [a, b, c])).2 ++
        List.replicate (8 - (b32Groups (digits32 [a, b, c])).2.length) 0) = b32Digits (quint a b c 0 0) := by
      simp only [digits32, b32Digits, List.take_succ_cons, List.take_zero, b32Groups, List.length_cons,
        List.length_nil, List.replicate_succ, List.replicate_zero, List.cons_append, List.nil_append]
      unfold quint
      simp only [UInt8.toNat_zero, List.cons.injEq, true_and, and_true]
      omega
    rw [e, hv, quintBytes_quint]
    rfl
  | [a, b, c, d] => by
    have ha := a.toNat_lt; have hb := b.toNat_lt; have hc := c.toNat_lt; have hd := d.toNat_lt
    have hv := b32Digits_val (v := quint a b c d 0)
    refine ⟨[a, b, c, d], ?_, rfl⟩
    have e : ((b32Groups (digits32 [a, b, c, d])).2 ++
        List.replicate (8 - (b32Groups (digits32 [a, b, c, d])).2.length) 0) = b32Digits (quint a b c d 0) := by
      simp only [digits32, b32Digits, List.take_succ_cons, List.take_zero, b32Groups, List.length_cons,
        List.length_nil, List.replicate_succ, List.replicate_zero, List.cons_append, List.nil_append]
      unfold quint
      simp only [UInt8.toNat_zero, List.cons.injEq, true_and, and_true]
      omega
    rw [e, hv, quintBytes_quint]
    rfl
  | a :: b :: c :: d :: e :: rest => by
    obtain ⟨last, h1, h2⟩ := b32Groups_all rest
    refine ⟨last, ?_, ?_⟩
    · rw [digits32, b32Groups_digits, show (a :: b :: c :: d :: e :: rest).length % 5 = rest.length % 5 by
        simp only [List.length_cons]; omega]
      exact h1
    · rw [digits32, b32Groups_digits, quintBytes_quint, List.append_assoc, h2]
      rfl

/-- Decoding what was encoded, with the right number of `=`. -/
theorem b32decode_encode (s : Bytes) :
    b32decode ((digits32 s).map b32Char ++ List.replicate (pad32 (s.length % 5)) 61) = .ok s := by
  have hl : ((digits32 s).map b32Char ++ List.replicate (pad32 (s.length % 5)) (61 : UInt8)).length % 8 = 0 := by
    rw [List.length_append, List.length_map, digits32_length, List.length_replicate]
    have h5 := Nat.mod_lt s.length (show 0 < 5 by omega)
    generalize hr : s.length % 5 = r at h5
    interval_cases r <;> simp only [pad32] <;> omega
  have hpad : (((digits32 s).map b32Char ++ List.replicate (pad32 (s.length % 5)) 61).reverse.takeWhile
      (· == 61)).length = pad32 (s.length % 5) := by
    rw [List.reverse_append, List.reverse_replicate, takeWhile_replicate _ (by
      intro c hc; exact chars_ne s c (List.mem_reverse.1 hc)), List.length_replicate]
  have hm : ((digits32 s).map b32Char).mapM b32Digit = .ok (digits32 s) := by
    have hlt := digits32_lt s
    generalize digits32 s = ds at hlt
    induction ds with
    | nil => rfl
    | cons d ds ih =>
      rw [List.map_cons, List.mapM_cons, ih (fun x hx => hlt x (by simp [hx])), b32Digit, b32Val_char (hlt d (by simp))]
      rfl
  obtain ⟨last, h1, h2⟩ := b32Groups_all s
  unfold b32decode
  rw [if_neg (by omega)]
  simp only [hpad]
  rw [List.length_append, List.length_replicate, Nat.add_sub_cancel, List.take_left' rfl]
  simp only [hm, ok_bind]
  generalize b32Groups (digits32 s) = g at h1 h2
  obtain ⟨g1, g2⟩ := g
  have h5 := Nat.mod_lt s.length (show 0 < 5 by omega)
  generalize hr : s.length % 5 = r at h5 h1
  interval_cases r <;> simp only [pad32, lastOf, Except.ok.injEq] at h1 ⊢ <;> rw [← h2, ← h1]
  simp

end NBC.Piecewise
