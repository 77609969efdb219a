import Verif.Model.Seed
import Verif.Props.HDWallet
import Verif.Props.Passphrase

/-!
# C162: a wallet recovered from its seed

The seed and the path are all that is kept of an HD wallet.  Does the same seed give the same wallet on another day?
-/

namespace NBC.Props
open NBC NBC.Wallet NBC.Proto NBC.Spec

/-- Two wallets with the same keys, chain codes and places in the tree; only their virtual chain numbers may differ. -/
def SameTree (w w' : HDWallet) : Prop :=
  w.key = w'.key ∧ w.chain = w'.chain ∧ w.testnet = w'.testnet ∧ w.depth = w'.depth ∧ w.parentfp = w'.parentfp ∧
    w.childnum = w'.childnum

/-- Both raise the same, or both give wallets of the same place in the tree. -/
def SameResult : Py HDWallet → Py HDWallet → Prop
  | .ok w, .ok w' => SameTree w w'
  | .error e, .error e' => e = e'
  | _, _ => False

theorem SameTree.eq {w w' : HDWallet} (h : SameTree w w') : w' = { w with vcn := w'.vcn } := by
  obtain ⟨h1, h2, h3, h4, h5, h6⟩ := h
  cases w
  cases w'
  simp only at h1 h2 h3 h4 h5 h6
  subst h1 h2 h3 h4 h5 h6
  rfl

/-- A child does not depend on the virtual chain number of its parent. -/
theorem child_of_vcn (H : Hashes) (w : HDWallet) (v : Int) (i : Int) (r : Nat) :
    ({ w with vcn := v } : HDWallet).child H i r = w.child H i r := rfl

theorem along_same (H : Hashes) (path : List Int) : ∀ (rs rs' : List Nat) (w w' : HDWallet), rs.length = path.length →
    rs'.length = path.length → SameTree w w' → SameResult (w.along H (path.zip rs)) (w'.along H (path.zip rs')) := by
  induction path with
  | nil => intro rs rs' w w' _ _ h; exact h
  | cons i path ih =>
    intro rs rs' w w' h1 h2 h
    cases rs with
    | nil => simp at h1
    | cons r rs =>
      cases rs' with
      | nil => simp at h2
      | cons r' rs' =>
        simp only [List.zip_cons_cons, HDWallet.along]
        rw [h.eq, child_of_vcn H w w'.vcn i r']
        rcases C48_deterministic_partial H w i r r' with ⟨c, e1, -, e2⟩ | ⟨e, e1, e2⟩
        · rw [e1, e2, ok_bind, ok_bind]
          exact ih rs rs' _ _ (by simpa using h1) (by simpa using h2) ⟨rfl, rfl, rfl, rfl, rfl, rfl⟩
        · rw [e1, e2]
          rfl

/-- The virtual chain number of a master wallet is the only thing that is drawn. -/
theorem master_same (H : Hashes) (seed : Bytes) (vcn vcn' : Option Int) (r r' : Nat) (tn : Bool) :
    SameResult (HDWallet.fromMasterSeed H seed vcn r tn) (HDWallet.fromMasterSeed H seed vcn' r' tn) := by
  unfold HDWallet.fromMasterSeed
  simp only
  cases h : stringToNumber ((H.hmacSha512 seedKey seed).take 32) with
  | error e => rfl
  | ok m =>
    simp only [ok_bind]
    split
    · rfl
    · unfold HDWallet.init
      cases HDKey.check _ with
      | error e => rfl
      | ok _ =>
        simp only [ok_bind]
        cases pyAssert ((List.drop 32 (H.hmacSha512 seedKey seed)).length == 32) with
        | error e => rfl
        | ok _ => exact ⟨rfl, rfl, rfl, rfl, rfl, rfl⟩

/-- **C162**, what holds: the same seed, given as bytes or as text of latin-1, and the same path give the same keys, chain
code, fingerprint and place, whatever is drawn at random and whichever virtual chain numbers are asked for; or the same
exception. -/
theorem C162_keys_partial (H : Hashes) (seed : Bytes) (vcn vcn' : Option Int) (r r' : Nat) (tn : Bool) (path : List Int)
    (rs rs' : List Nat) (h : rs.length = path.length) (h' : rs'.length = path.length) :
    SameResult (fromSeedOf H (.bytes seed) vcn r tn >>= fun w => w.along H (path.zip rs))
      (fromSeedOf H (.text (seed.map fun x => Char.ofNat x.toNat)) vcn' r' tn >>= fun w => w.along H (path.zip rs')) := by
  have e : fromSeedOf H (.text (seed.map fun x => Char.ofNat x.toNat)) vcn' r' tn = HDWallet.fromMasterSeed H seed vcn' r' tn := by
    show (latin1Encode _ >>= fun b => HDWallet.fromMasterSeed H b vcn' r' tn) = _
    rw [latin1Encode_decode]
    rfl
  rw [e, show fromSeedOf H (.bytes seed) vcn r tn = HDWallet.fromMasterSeed H seed vcn r tn from rfl]
  have := master_same H seed vcn vcn' r r' tn
  generalize HDWallet.fromMasterSeed H seed vcn r tn = a at this ⊢
  generalize HDWallet.fromMasterSeed H seed vcn' r' tn = b at this ⊢
  cases a with
  | error e =>
    cases b with
    | error e' => exact this
    | ok w => exact this.elim
  | ok w =>
    cases b with
    | error e' => exact this.elim
    | ok w' => exact along_same H path rs rs' w w' h h' this

/-- **C162**: a text with a character beyond latin-1 is refused as a seed; no wallet is made of a mutilated one. -/
theorem C162_refused (H : Hashes) (s : List Char) (c : Char) (hc : c ∈ s) (h : 256 ≤ c.toNat) (vcn : Option Int) (r : Nat)
    (tn : Bool) : fromSeedOf H (.text s) vcn r tn = .error .valueError := by
  show (latin1Encode s >>= fun b => HDWallet.fromMasterSeed H b vcn r tn) = _
  unfold latin1Encode
  rw [if_neg]
  · rfl
  · simp only [List.all_eq_true, decide_eq_true_eq, not_forall]
    exact ⟨c, hc, by omega⟩

/-- **C162 is false of addresses**: those of the recovered wallet are others, at the end of every path, unless the same
random number is drawn again; the virtual chain number given for the master does not reach its children. -/
theorem C162_address_false (H : Hashes) (w c c' : HDWallet) (path : List (Int × Nat)) (i : Int) (r r' : Nat) (hr : r < 65536)
    (hr' : r' < 65536) (hne : r ≠ r') (h : w.along H (path ++ [(i, r)]) = .ok c)
    (h' : w.along H (path ++ [(i, r')]) = .ok c') (a a' : Bytes) (ha : c.address H = .ok a) (ha' : c'.address H = .ok a') :
    c.key = c'.key ∧ a ≠ a' := by
  induction path generalizing w with
  | nil =>
    simp only [List.nil_append, HDWallet.along] at h h'
    obtain ⟨d, h1, h2⟩ := bind_ok_iff.1 h
    obtain ⟨d', h1', h2'⟩ := bind_ok_iff.1 h'
    cases h2
    cases h2'
    obtain ⟨d, e1, -, e2⟩ := C48_vcn_false H w c i r r' hr hr' hne h1
    rw [e1] at h1'
    cases h1'
    refine ⟨?_, e2 a a' ha ha'⟩
    rcases C48_deterministic_partial H w i r r' with ⟨c2, f1, -, f2⟩ | ⟨e, f1, -⟩
    · rw [h1] at f1
      rw [e1] at f2
      cases f1
      cases f2
      rfl
    · rw [h1] at f1
      cases f1
  | cons p path ih =>
    simp only [List.cons_append, HDWallet.along] at h h'
    obtain ⟨d, h1, h2⟩ := bind_ok_iff.1 h
    obtain ⟨d', h1', h2'⟩ := bind_ok_iff.1 h'
    rw [h1] at h1'
    cases h1'
    exact ih d h2 h2'

/-- such a path, of two steps, and the two addresses -/
example : (match HDWallet.along Hashes.toy ⟨.prv 1, List.replicate 31 0 ++ [1], 0, false, 0, [0, 0, 0, 0], 0⟩
      ([(2147483648, 5)] ++ [(7, 11)]),
    HDWallet.along Hashes.toy ⟨.prv 1, List.replicate 31 0 ++ [1], 0, false, 0, [0, 0, 0, 0], 0⟩
      ([(2147483648, 5)] ++ [(7, 12)]) with
    | .ok c, .ok c' => (match c.address Hashes.toy, c'.address Hashes.toy with
        | .ok a, .ok a' => decide (c.key = c'.key ∧ c.depth = 2 ∧ a ≠ a')
        | _, _ => false)
    | _, _ => false) = true := by decide +kernel

/-- a seed as bytes and as text -/
example : (match fromSeedOf Hashes.toy (.bytes [120, 233]) (some 3) 0 false, fromSeedOf Hashes.toy (.text ['x', 'é']) none 9 false
    with
    | .ok w, .ok w' => decide (w.key = w'.key ∧ w.chain = w'.chain ∧ w.vcn = 3 ∧ w'.vcn = 9)
    | _, _ => false) = true := by decide +kernel

/-- a text that is refused -/
example : '中' ∈ ['a', '中'] ∧ 256 ≤ '中'.toNat := by decide

/-- **C162 is false of letters outside ASCII**: the text of a seed and the same text as UTF-8 bytes (what a Python 2 terminal
gives) are different seeds.  With these hash functions they give different wallets. -/
theorem C162_utf8_false :
    utf8 ['é'] ≠ [233] ∧ latin1Encode ['é'] = .ok [233] ∧
    ∃ w w', fromSeedOf Hashes.toy (.text ['é']) (some 0) 0 false = .ok w ∧
      fromSeedOf Hashes.toy (.bytes (utf8 ['é'])) (some 0) 0 false = .ok w' ∧ (w.key ≠ w'.key ∨ w.chain ≠ w'.chain) := by
  refine ⟨by decide, by decide, ?_⟩
  have h : (match fromSeedOf Hashes.toy (.text ['é']) (some 0) 0 false,
      fromSeedOf Hashes.toy (.bytes (utf8 ['é'])) (some 0) 0 false with
    | .ok w, .ok w' => decide (w.key ≠ w'.key ∨ w.chain ≠ w'.chain)
    | _, _ => false) = true := by decide +kernel
  generalize fromSeedOf Hashes.toy (.text ['é']) (some 0) 0 false = a at h ⊢
  generalize fromSeedOf Hashes.toy (.bytes (utf8 ['é'])) (some 0) 0 false = b at h ⊢
  cases a with
  | error e => exact absurd h (by simp)
  | ok w =>
    cases b with
    | error e => exact absurd h (by simp)
    | ok w' => exact ⟨w, w', rfl, rfl, of_decide_eq_true h⟩

end NBC.Props
