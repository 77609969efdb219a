import Verif.Model.Struct
import Verif.Spec.Wire
import Verif.Proofs.Hex
import Verif.Proofs.PyBind

/-!
# `struct.pack`/`struct.unpack` against the specification
-/

namespace NBC.Proto
open NBC.Spec NBC.Spec.Wire

theorem leBytes_length (s n : Nat) : (leBytes s n).length = s := by
  induction s generalizing n with
  | zero => rfl
  | succ s ih => simp [leBytes, ih]

theorem leNat_eq (d : Bytes) : leNat d = bytesVal d.reverse := by
  induction d with
  | nil => rfl
  | cons x xs ih =>
    rw [leNat, ih, List.reverse_cons, bytesVal_append, bytesVal_cons]
    simp
    omega

theorem leNat_leBytes (s n : Nat) : leNat (leBytes s n) = n % 256 ^ s := by
  induction s generalizing n with
  | zero => simp [leBytes, leNat, Nat.mod_one]
  | succ s ih =>
    rw [leBytes, leNat, ih, Nat.pow_succ, Nat.mul_comm (256 ^ s), Nat.mod_mul]
    have : (UInt8.ofNat (n % 256)).toNat = n % 256 := by
      rw [UInt8.toNat_ofNat']; show n % 256 % 256 = _; omega
    rw [this]

theorem leBytes_eq (s n : Nat) : leBytes s n = (beBytes s n).reverse := by
  have h : (leBytes s n).reverse = beBytes s n := by
    apply bytesVal_inj
    · rw [List.length_reverse, leBytes_length, beBytes_length]
    · rw [← leNat_eq, leNat_leBytes, bytesVal_beBytes]
  rw [← h, List.reverse_reverse]

theorem bits_size (f : Fmt) : bits f = 8 * f.size := by cases f <;> rfl

theorem pow_size (f : Fmt) : (256 ^ f.size : Nat) = 2 ^ bits f := by cases f <;> rfl

theorem signed_eq (f : Fmt) : f.signed = twos f := by cases f <;> rfl

theorem holds_iff (f : Fmt) (v : Int) : f.holds v = true ↔ inRange f v := by
  unfold Fmt.holds inRange lo hi
  cases f <;> simp [Fmt.signed, twos, bits, Fmt.size] <;> exact decide_eq_true_iff

theorem range_eq (f : Fmt) : f.range = (lo f, hi f) := by
  cases f <;> simp [Fmt.range, lo, hi, twos, bits]

theorem numBytes_length (f : Fmt) (big : Bool) (i : Int) : (numBytes f big i).length = f.size := by
  unfold numBytes
  cases big <;> simp [bits_size]

theorem pack_ok {f : Fmt} {big : Bool} {v : Int} (h : inRange f v) :
    pack f big v = .ok (numBytes f big v) := by
  unfold pack
  rw [if_pos ((holds_iff f v).2 h)]
  unfold numBytes
  have e : ((256 ^ f.size : Nat) : Int) = 2 ^ bits f := by rw [pow_size]; push_cast; rfl
  have h8 : bits f / 8 = f.size := by rw [bits_size]; omega
  simp only [e, h8, leBytes_eq, List.reverse_reverse]

theorem pack_error {f : Fmt} {big : Bool} {v : Int} (h : ¬ inRange f v) :
    pack f big v = .error .structError := by
  unfold pack
  rw [if_neg (fun h' => h ((holds_iff f v).1 h'))]

theorem pack_ok_iff {f : Fmt} {big : Bool} {v : Int} {b : Bytes} :
    pack f big v = .ok b ↔ inRange f v ∧ b = numBytes f big v := by
  by_cases h : inRange f v
  · rw [pack_ok h]; simp [h, eq_comm]
  · rw [pack_error h]; simp [h]

theorem unpack_numBytes {f : Fmt} {big : Bool} {v : Int} (h : inRange f v) :
    unpack f big (numBytes f big v) = .ok v := by
  have hl := numBytes_length f big v
  have h8 : bits f / 8 = f.size := by rw [bits_size]; omega
  unfold unpack
  rw [if_neg (by rw [hl]; simp)]
  have hn : leNat (if big = true then (numBytes f big v).reverse else numBytes f big v) =
      (v % 2 ^ bits f).toNat := by
    have : (if big = true then (numBytes f big v).reverse else numBytes f big v) =
        (beBytes f.size (v % 2 ^ bits f).toNat).reverse := by
      unfold numBytes; cases big <;> simp [h8]
    rw [this, leNat_eq, List.reverse_reverse, bytesVal_beBytes_of_lt]
    rw [pow_size]
    have h1 := Int.emod_lt_of_pos v (show (0 : Int) < 2 ^ bits f by positivity)
    have h0 := Int.emod_nonneg v (show (2 : Int) ^ bits f ≠ 0 by positivity)
    zify
    rw [Int.toNat_of_nonneg h0]
    exact h1
  simp only [hn]
  unfold inRange lo hi at h
  congr 1
  cases f <;> simp only [Fmt.signed, twos, bits, Fmt.size, if_true, if_false, true_and, false_and,
    Bool.false_eq_true] at h ⊢ <;> norm_num at h ⊢ <;> first | omega | (split_ifs <;> omega)

theorem unpack_numBytes_take {f : Fmt} {big : Bool} {v : Int} (h : inRange f v) (rest : Bytes) :
    unpack f big ((numBytes f big v ++ rest).take f.size) = .ok v := by
  rw [List.take_left' (numBytes_length f big v), unpack_numBytes h]

theorem unpack_ok_length {f : Fmt} {big : Bool} {d : Bytes} {v : Int} (h : unpack f big d = .ok v) :
    d.length = f.size := by
  unfold unpack at h
  by_contra hc
  rw [if_pos hc] at h; cases h

/-- Reading always gives a value of the range, and writing it gives back the bytes. -/
theorem unpack_inRange {f : Fmt} {big : Bool} {d : Bytes} (hd : d.length = f.size) :
    ∃ v, unpack f big d = .ok v ∧ inRange f v ∧ numBytes f big v = d := by
  set n := bytesVal (if big then d else d.reverse) with hn
  have hlt : n < 256 ^ f.size := by
    have := bytesVal_lt (if big then d else d.reverse)
    rwa [show (if big then d else d.reverse).length = f.size from by cases big <;> simp [hd]] at this
  have hv : ∃ v : Int, inRange f v ∧ (v % 2 ^ bits f).toNat = n := by
    rw [pow_size] at hlt
    by_cases hs : twos f = true ∧ 2 ^ (bits f - 1) ≤ n
    · refine ⟨(n : Int) - 2 ^ bits f, ?_, ?_⟩
      · obtain ⟨h1, h2⟩ := hs
        unfold inRange lo hi
        cases f <;> simp [twos, bits] at h1 h2 hlt ⊢ <;> omega
      · rw [Int.sub_emod_right, Int.emod_eq_of_lt (by omega) (by exact_mod_cast hlt)]
        rfl
    · refine ⟨n, ?_, ?_⟩
      · unfold inRange lo hi
        cases f <;> simp [twos, bits] at hs hlt ⊢ <;> omega
      · rw [Int.emod_eq_of_lt (by omega) (by exact_mod_cast hlt)]
        rfl
  obtain ⟨v, hv1, hv2⟩ := hv
  have h8 : bits f / 8 = f.size := by rw [bits_size]; omega
  have hb : numBytes f big v = d := by
    unfold numBytes
    simp only [hv2, h8]
    cases big
    · simp only [Bool.false_eq_true, if_false] at hn ⊢
      rw [hn, beBytes_bytesVal' (by simp [hd]), List.reverse_reverse]
    · simp only [if_true] at hn ⊢
      rw [hn, beBytes_bytesVal' hd]
  refine ⟨v, ?_, hv1, hb⟩
  rw [← hb]
  exact unpack_numBytes hv1

end NBC.Proto
