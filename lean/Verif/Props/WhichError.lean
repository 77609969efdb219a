import Verif.Props.NumberTheory
import Verif.Props.WalletFile
import Verif.Proofs.Sha

/-!
C14, C50, C146: which exception is raised.  And the byte order of the digests that the tests compute.
-/

namespace NBC.Props
open NBC Spec Wallet Aes

/-- C14: there is no least common multiple of an empty list: `reduce` raises `TypeError`. -/
theorem C14_empty (l : List Int) : NT.lcmList l = .error .typeError ↔ l = [] := by
  cases l with
  | nil => simp [NT.lcmList]
  | cons a l =>
    simp only [reduceCtorEq, iff_false]
    unfold NT.lcmList
    simp only
    induction l generalizing a with
    | nil => intro h; cases h
    | cons b l ih =>
      rw [List.foldlM_cons]
      cases hb : NT.lcm2 a b with
      | ok v => rw [ok_bind]; exact ih v
      | error e =>
        rw [error_bind]
        intro h
        injection h with h
        subst h
        revert hb
        unfold NT.lcm2
        simp only
        split <;> intro h <;> cases h

/-- C50: past the first statement the import of a well-formed key stops at the name `self`. -/
theorem C50_last_false (H : Hashes) (decoded : Bytes) :
    importBody H decoded = .error .nameError ∨ ∃ e, importFields H decoded = .error e ∧ importBody H decoded = .error e := by
  unfold importBody
  cases importFields H decoded with
  | error e => exact .inr ⟨e, rfl, rfl⟩
  | ok v => exact .inl rfl

/-- What is stored under a key is missing or has the kind its reader expects. -/
def Kinds (d : JDict) : Prop :=
  (∀ k ∈ [kPrvkey, kPubkey], jGet d k = none ∨ jGet d k = some .null ∨ ∃ s, jGet d k = some (.str s)) ∧
  (∀ k ∈ [kChain, kParentfp], jGet d k = none ∨ ∃ s, jGet d k = some (.str s)) ∧
  (∀ k ∈ [kVcn, kDepth, kChildnum], jGet d k = none ∨ ∃ i, jGet d k = some (.int i))

/-- C146: an entry missing from the file of a derived wallet is a `KeyError`, whichever entry it is. -/
theorem C146_missing (d : JDict) (ht : jGet d kType = some (.str tHD)) (hk : Kinds d)
    (k : Bytes) (hm : k ∈ [kPrvkey, kPubkey, kChain, kVcn, kTestnet, kDepth, kChildnum, kParentfp]) (ha : ∀ x ∈ d, x.1 ≠ k) :
    cfgOf d = .error .keyError := by
  have hn : jGet d k = none := C146_absent d k ha
  obtain ⟨h1, h2, h3⟩ := hk
  have opt : ∀ k ∈ [kPrvkey, kPubkey], jOptStr d k = .error .keyError ∨ jGet d k ≠ none ∧ ∃ v, jOptStr d k = .ok v := by
    intro k hk
    unfold jOptStr
    rcases h1 k hk with h | h | ⟨s, h⟩ <;> rw [h] <;> simp
  have text : ∀ k ∈ [kChain, kParentfp], jText d k = .error .keyError ∨ jGet d k ≠ none ∧ ∃ v, jText d k = .ok v := by
    intro k hk
    unfold jText
    rcases h2 k hk with h | ⟨s, h⟩ <;> rw [h] <;> simp
  have num : ∀ k ∈ [kVcn, kDepth, kChildnum], jNumber d k = .error .keyError ∨ jGet d k ≠ none ∧ ∃ v, jNumber d k = .ok v := by
    intro k hk
    unfold jNumber
    rcases h3 k hk with h | ⟨s, h⟩ <;> rw [h] <;> simp
  have flag : jFlag d kTestnet = .error .keyError ∨ jGet d kTestnet ≠ none ∧ ∃ v, jFlag d kTestnet = .ok v := by
    unfold jFlag
    cases jGet d kTestnet <;> simp
  unfold cfgOf
  rw [if_pos ht]
  suffices h : hdCfg d = .error .keyError by rw [h]; rfl
  unfold hdCfg
  rcases opt kPrvkey (by simp) with h | ⟨n1, v, h⟩ <;> rw [h]
  · rfl
  rw [ok_bind]
  rcases opt kPubkey (by simp) with h | ⟨n2, v, h⟩ <;> rw [h]
  · rfl
  rw [ok_bind]
  rcases text kChain (by simp) with h | ⟨n3, v, h⟩ <;> rw [h]
  · rfl
  rw [ok_bind]
  rcases num kVcn (by simp) with h | ⟨n4, v, h⟩ <;> rw [h]
  · rfl
  rw [ok_bind]
  rcases flag with h | ⟨n5, v, h⟩ <;> rw [h]
  · rfl
  rw [ok_bind]
  rcases num kDepth (by simp) with h | ⟨n6, v, h⟩ <;> rw [h]
  · rfl
  rw [ok_bind]
  rcases num kChildnum (by simp) with h | ⟨n7, v, h⟩ <;> rw [h]
  · rfl
  rw [ok_bind]
  rcases text kParentfp (by simp) with h | ⟨n8, v, h⟩ <;> rw [h]
  · rfl
  exfalso
  simp only [List.mem_cons, List.not_mem_nil, or_false] at hm
  rcases hm with rfl | rfl | rfl | rfl | rfl | rfl | rfl | rfl <;> contradiction

/-- A dictionary with a type only. -/
example : jGet [(kType, .str tHD)] kType = some (.str tHD) ∧ Kinds [(kType, .str tHD)] ∧
    (∀ x ∈ ([(kType, .str tHD)] : JDict), x.1 ≠ kParentfp) := by
  refine ⟨by decide, ⟨?_, ?_, ?_⟩, by decide⟩ <;> intro k hk <;> left <;> revert k <;> decide

/-- The bytes of a word, most significant first: their value is the word again, up to its size. -/
theorem unword_word (n x : Nat) : (Sha.unword n x).foldl (fun a c => 256 * a + c.toNat) 0 = x % 256 ^ n := by
  have key : ∀ n a, (Sha.unword n x).foldl (fun a c => 256 * a + c.toNat) a = a * 256 ^ n + x % 256 ^ n := by
    intro n
    induction n with
    | zero => intro a; simp [Sha.unword, Nat.mod_one]
    | succ n ih =>
      intro a
      rw [Sha.unword, List.foldl_cons, ih, UInt8.toNat_ofNat', Nat.mod_mod, Nat.pow_succ, Nat.mod_mul]
      ring
  simpa using key n 0

end NBC.Props
