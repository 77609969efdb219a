import Verif.Model.Sha

/-!
# Lengths of the real hashes
-/

namespace NBC.Sha

theorem unword_length (n x : Nat) : (unword n x).length = n := by
  induction n with
  | zero => rfl
  | succ n ih => simp [unword, ih]

theorem flatten_length {α : Type} (f : Nat → List α) (k : Nat) (hf : ∀ x, (f x).length = k) (l : List Nat) :
    ((l.map f).flatten).length = l.length * k := by
  induction l with
  | nil => simp
  | cons a l ih => simp [ih, hf, Nat.succ_mul, Nat.add_comm]

theorem foldl_length (f : List Nat → Bytes → List Nat) (k : Nat) (hf : ∀ h b, (f h b).length = k)
    (init : List Nat) (hi : init.length = k) (bs : List Bytes) : (bs.foldl f init).length = k := by
  induction bs generalizing init with
  | nil => exact hi
  | cons b bs ih => exact ih _ (hf _ _)

theorem sha2_length (P : Params) (hi : P.init.length = 8) (m : Bytes) : (sha2 P m).length = 8 * (P.w / 8) := by
  simp only [sha2]
  rw [flatten_length _ _ (unword_length _), foldl_length (compress P) 8 (fun _ _ => rfl) _ hi]

theorem sha256_length (m : Bytes) : (sha256 m).length = 32 := sha2_length p256 rfl m

theorem sha512_length (m : Bytes) : (sha512 m).length = 64 := sha2_length p512 rfl m

theorem hmacSha512_length (k m : Bytes) : (hmacSha512 k m).length = 64 := sha512_length _

theorem ripemd160_length (m : Bytes) : (ripemd160 m).length = 20 := by
  simp only [ripemd160]
  rw [flatten_length _ 4 (fun x => by simp [unword_length]), foldl_length ripeCompress 5 (fun _ _ => rfl) _ rfl]

/-- The real hash functions: every theorem about `Hashes` holds of them. -/
def hashes : Hashes where
  sha256 := sha256
  sha512 := sha512
  ripemd160 := ripemd160
  hmacSha512 := hmacSha512
  sha256_length := sha256_length
  sha512_length := sha512_length
  ripemd160_length := ripemd160_length
  hmacSha512_length := hmacSha512_length

end NBC.Sha
