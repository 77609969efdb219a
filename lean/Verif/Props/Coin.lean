import Verif.Model.Coin
import Verif.Proofs.Sha
import Verif.Props.Ecdsa
import Verif.Props.Keys

/-!
# The constants of the coin: C119, C120, C121
-/

namespace NBC.Props

open NBC NBC.Proto NBC.Coins Ecdsa EC Spec Secp NT Key Ecc Der

/-- The example `abc` of FIPS 180-4. -/
example : Sha.sha256 [97, 98, 99] =
    [0xba, 0x78, 0x16, 0xbf, 0x8f, 0x01, 0xcf, 0xea, 0x41, 0x41, 0x40, 0xde, 0x5d, 0xae, 0x22, 0x23,
      0xb0, 0x03, 0x61, 0xa3, 0x96, 0x17, 0x7a, 0x9c, 0xb4, 0x10, 0xff, 0x61, 0xf2, 0x00, 0x15, 0xad] := by
  decide +kernel

/-- The example `abc` of the RIPEMD-160 paper. -/
example : Sha.ripemd160 [97, 98, 99] =
    [0x8e, 0xb2, 0x08, 0xf7, 0xe0, 0x5d, 0x98, 0x7a, 0x9b, 0x04, 0x4a, 0x8e, 0x98, 0xc6, 0xb0, 0x87, 0xf1, 0x5a,
      0x0b, 0xfc] := by
  decide +kernel

/-! ### C119 -/

/-- The 80 bytes of the header of the genesis block. -/
def genesisHeader : Bytes :=
  [1, 0, 0, 0] ++ List.replicate 32 0 ++ newbitcoin.genesisMerkleRoot ++
    [0x29, 0xab, 0x5f, 0x49, 0xff, 0xff, 0x00, 0x1d, 0x1d, 0xac, 0x2b, 0x7c]

theorem genesis_binary : compBinary blockHeader.props newbitcoin.genesisFields = .ok (genesisHeader ++ [1]) := rfl

theorem genesis_sha : Sha.sha256 (Sha.sha256 genesisHeader) = newbitcoin.genesisBlockHash := by decide +kernel

/-- The number a hash stands for. -/
def hashValue : Bytes → Nat
  | [] => 0
  | b :: bs => b.toNat + 256 * hashValue bs

theorem genesis_value : hashValue newbitcoin.genesisBlockHash =
    0x000000000019d6689c085ae165831e934ff763ae46a2a6c172b3f1b60a8ce26f := by decide +kernel

theorem genesis_cut : (genesisHeader ++ [1]).take 80 = genesisHeader := by decide +kernel

theorem real_sha256d (x : Bytes) : Sha.hashes.sha256d x = Sha.sha256 (Sha.sha256 x) := rfl

/-- C119: the genesis hash of the coin is the double SHA-256 of the header made of its other genesis constants,
and meets the target that the genesis bits stand for: mantissa `0xffff`, exponent `0x1d`. -/
theorem C119_genesis :
    Util.blockHash Sha.hashes newbitcoin.genesisFields = .ok newbitcoin.genesisBlockHash ∧
    newbitcoin.genesisBits = 0x1d * 2 ^ 24 + 0xffff ∧
    hashValue newbitcoin.genesisBlockHash ≤ 0xffff * 256 ^ (0x1d - 3) := by
  refine ⟨?_, by decide, le_of_eq_of_le genesis_value (by norm_num)⟩
  unfold Util.blockHash
  rw [genesis_binary, ok_bind, genesis_cut, real_sha256d, genesis_sha]

/-! ### C120 -/

/-- The coordinates in the alert key. -/
def alertX : Nat := 0xfc9702847840aaf195de8442ebecedf5b095cdbb9bc716bda9110971b28a49e0
/-- The coordinates in the alert key. -/
def alertY : Nat := 0xead8564ff0db22209e0374782c093bb899692d524e9d6a6956e7c5ecbcd68284

theorem alert_key : newbitcoin.alertPublicKey = uncompressedKey alertX alertY := by decide +kernel

theorem alert_on : OnCurve K alertX alertY := (onCurve_iff _ _ _).2 (by decide +kernel)

theorem alert_verify (H : Hashes) (payload sig : Bytes) :
    alertVerify H payload sig newbitcoin.alertPublicKey = (match eccSigdecodeDer sig with
      | .error e => .error e
      | .ok (r, s) => PublicKey.verifies ⟨K, secp256k1.generator, .aff alertX alertY (some n)⟩
          (hashNum H payload) r s) :=
  verify_key H payload newbitcoin.alertPublicKey sig (by decide) (by decide) alert_on
    (by rw [alert_key]; exact decompress_uncompressedKey (by decide) (by decide) alert_on)

/-- C120: an alert verifies under the alert key of the coin exactly if its signature is a DER pair `r`, `s` that
meets the ECDSA equation on SECP256k1 for the double SHA-256 of the payload and the public point whose
coordinates are in that key.  Missing: signatures that raise (`C120_raises_false`). -/
theorem C120_alert_partial (H : Hashes) (payload sig : Bytes) :
    ∃ h : (W K).Nonsingular ((alertX : Int) : ZMod K.p) ((alertY : Int) : ZMod K.p),
    (alertVerify H payload sig newbitcoin.alertPublicKey = .ok true ↔
      ∃ r s : Nat, eccSigdecodeDer sig = .ok (r, s) ∧ 1 ≤ r ∧ r < n ∧ 1 ≤ s ∧ s < n ∧
        ∃ (w : Int) (x y : ZMod K.p) (hxy : (W K).Nonsingular x y), (s * w) % (n : Int) = 1 ∧
          ((hashNum H payload : Int) * w) • g + ((r : Int) * w) • (.some _ _ h : (W K).Point) = .some x y hxy ∧
          (x.val : Int) % (n : Int) = r) := by
  have hx : alertX < p := by decide
  obtain ⟨q, hq⟩ := keyOk_of_on hx alert_on (o := some n) (Or.inr rfl)
  obtain ⟨-, -, h, hqe⟩ := hq.rep
  subst hqe
  refine ⟨h, ?_⟩
  rw [alert_verify]
  constructor
  · intro hv
    split at hv
    · cases hv
    · rename_i r s hrs
      by_cases hr : 1 ≤ (r : Int) ∧ (r : Int) < n ∧ 1 ≤ (s : Int) ∧ (s : Int) < n
      · obtain ⟨w, hw, h0, h1⟩ := (C23_equation genOk hq (hashNum H payload) r s).2 hr
        refine ⟨r, s, hrs, by omega, by omega, by omega, by omega, ?_⟩
        cases hS : ((hashNum H payload : Int) * w) • g + ((r : Int) * w) • (.some _ _ h : (W K).Point) with
        | zero => rw [h0 hS] at hv; cases hv
        | some x y hxy =>
          rw [h1 x y hxy hS] at hv
          injection hv with hv
          exact ⟨w, x, y, hxy, hw, hS, by simpa using hv⟩
      · rw [(C23_equation genOk hq (hashNum H payload) r s).1 hr] at hv
        cases hv
  · rintro ⟨r, s, hrs, h1, h2, h3, h4, w, x, y, hxy, hw, hS, hx⟩
    rw [hrs]
    simp only
    rw [(verifies_spec genOk hq (hashNum H payload) r s w (by omega) hw).2 x y hxy hS]
    simpa using hx

/-- C120: an alert gets an answer exactly if its signature decodes and does not belong to a message that the alert
key `d` can meet with the point at infinity; in these cases the decoder's exception or a `TypeError` is raised. -/
theorem C120_answers_partial : ∃ d : Nat, PubPoint d alertX alertY ∧ ∀ (H : Hashes) (payload sig : Bytes),
    (∀ e, eccSigdecodeDer sig = .error e → alertVerify H payload sig newbitcoin.alertPublicKey = .error e) ∧
    ∀ r s : Nat, eccSigdecodeDer sig = .ok (r, s) →
      ((1 ≤ r ∧ r < n ∧ 1 ≤ s ∧ s < n) ∧ n ∣ hashNum H payload + r * d →
        alertVerify H payload sig newbitcoin.alertPublicKey = .error .typeError) ∧
      (¬ ((1 ≤ r ∧ r < n ∧ 1 ≤ s ∧ s < n) ∧ n ∣ hashNum H payload + r * d) →
        ∃ b, alertVerify H payload sig newbitcoin.alertPublicKey = .ok b) := by
  obtain ⟨d, -, -, hd⟩ := exists_key (x := alertX) (y := alertY) (by decide) (by decide) alert_on
  refine ⟨d, hd, fun H payload sig => ⟨fun e he => ?_, fun r s hrs => ?_⟩⟩
  · rw [alert_verify, he]
  · have hv : alertVerify H payload sig newbitcoin.alertPublicKey =
        verify H payload (uncompressedKey alertX alertY) sig := by
      rw [alert_verify, verify_key H payload _ sig (by decide) (by decide) alert_on
        (decompress_uncompressedKey (by decide) (by decide) alert_on), hrs]
    obtain ⟨h1, h2⟩ := C25_decodable_partial H payload sig d alertX alertY r s hd (by decide) (by decide) hrs
    rw [hv]
    refine ⟨fun h => (h2 h.1).1 h.2, fun h => ?_⟩
    by_cases hr : 1 ≤ r ∧ r < n ∧ 1 ≤ s ∧ s < n
    · exact (h2 hr).2 (fun h' => h ⟨hr, h'⟩)
    · exact ⟨false, h1 hr⟩

/-- C120 fails: an empty signature, or one that is no sequence, raises. -/
theorem C120_raises_false (H : Hashes) (payload : Bytes) :
    alertVerify H payload [] newbitcoin.alertPublicKey = .error .indexError ∧
    alertVerify H payload [0x31] newbitcoin.alertPublicKey = .error .unexpectedDER := by
  rw [alert_verify, alert_verify]
  exact ⟨rfl, rfl⟩

/-! ### C121 -/

/-- C121: what is found has the name or the symbol asked for, and if nothing is found no coin has them; for all
lists of coins.  Missing: a name and a symbol together (`C121_both_false`). -/
theorem C121_get_coin_partial (lower upper : String → String) (cs : List Coin) (name symbol : Option String) :
    (∀ c, getCoin lower upper cs name symbol = some c → c ∈ cs ∧
      ((∃ s, name = some s ∧ s ≠ "" ∧ lower s = c.name) ∨ upper (symbol.getD "") ∈ c.symbols)) ∧
    (getCoin lower upper cs name symbol = none → ∀ c ∈ cs,
      (∀ s, name = some s → s ≠ "" → lower s ≠ c.name) ∧ upper (symbol.getD "") ∉ c.symbols) := by
  constructor
  · intro c h
    refine ⟨List.mem_of_find?_eq_some h, ?_⟩
    have := List.find?_some h
    cases name <;> simp_all [getCoin]
  · intro h c hc
    have := List.find?_eq_none.1 h c hc
    cases name <;> simp_all [getCoin]

/-- C121 fails: with a symbol of the coin, any name will do. -/
theorem C121_both_false (lower upper : String → String) (name : String) (hu : upper "NBC" = "NBC") :
    getCoin lower upper coins (some name) (some "NBC") = some newbitcoin := by
  simp [getCoin, coins, newbitcoin, hu]

example : getCoin id id coins (some "newbitcoin") none = some newbitcoin := by simp [getCoin, coins, newbitcoin]
example : getCoin id id coins (some "litecoin") none = none := by simp [getCoin, coins, newbitcoin]

end NBC.Props
