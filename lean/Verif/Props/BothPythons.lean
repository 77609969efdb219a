import Verif.Props.WalletFile

/-!
# C172: wallet files move between Python 2 and Python 3
-/

namespace NBC.Props
open NBC Key Ecdsa EC Aes Spec NBC.Secp Wallet

theorem expandLoop_ver (ver ver' : PyVer) (rounds KC : Nat) (h : KC ≠ 8) (fuel : Nat) (s : KState) :
    expandLoop ver rounds KC fuel s = expandLoop ver' rounds KC fuel s := by
  induction fuel generalizing s with
  | zero => rfl
  | succ fuel ih =>
    have hr : ∀ tk rp, roundTk ver KC rp tk = roundTk ver' KC rp tk := by
      intro tk rp
      unfold roundTk
      simp only [if_pos h]
    rw [expandLoop, expandLoop, hr]
    simp only [ih]

theorem aesInit_ver (ver ver' : PyVer) (key : Bytes) (h : key.length < 32) : AES.init ver key = AES.init ver' key := by
  unfold AES.init
  simp only [expandLoop_ver ver ver' _ (key.length / 4) (by omega)]

theorem cbc_ver (ver ver' : PyVer) (pw : Bytes) : CBC.init ver (passKey pw) none = CBC.init ver' (passKey pw) none := by
  have : (passKey pw).length < 32 := by
    unfold passKey
    simp only [List.length_append, List.length_take, List.length_replicate]
    omega
  unfold CBC.init
  rw [aesInit_ver ver ver' _ this]

theorem dumpSecret_ver (ver ver' : PyVer) (s pw : Bytes) : dumpSecret ver s pw = dumpSecret ver' s pw := by
  unfold dumpSecret aesEncrypt
  simp only [cbc_ver ver ver']

theorem loadSecret_ver (ver ver' : PyVer) (t : Bytes) (e : Bool) (pw prompt : Bytes) :
    loadSecret ver t e pw prompt = loadSecret ver' t e pw prompt := by
  unfold loadSecret aesDecrypt
  simp only [cbc_ver ver ver']

/-- C172: what is written for a wallet does not depend on the Python. -/
theorem C172_saved (ver ver' : PyVer) (w : AnyWallet) (pw : Bytes) : w.dump ver pw = w.dump ver' pw := by
  cases w with
  | default a => simp only [AnyWallet.dump, Address.dump, dumpSecret_ver ver ver']
  | hd w => simp only [AnyWallet.dump, HDWallet.dump, dumpSecret_ver ver ver']

/-- The dictionary gives no key: no text at all, or the secret 0. -/
def Keyless (c : HDCfg) (q prompt : Bytes) : Prop :=
  (c.prvkey.getD [] = [] ∧ c.pubkey.getD [] = []) ∨
  ∃ s, c.prvkey.getD [] ≠ [] ∧ loadSecret .py3 (c.prvkey.getD []) c.encrypted q prompt = .ok s ∧ stringToNumber s = .ok 0

theorem key_ver (c : HDCfg) (q prompt : Bytes) :
    (¬Keyless c q prompt ∧ c.key .py2 q prompt = c.key .py3 q prompt) ∨
    (Keyless c q prompt ∧ c.key .py2 q prompt = .error .typeError ∧ c.key .py3 q prompt = .error .nameError) := by
  unfold HDCfg.key Keyless
  simp only [loadSecret_ver .py2 .py3]
  cases c.prvkey.getD [] with
  | cons x xs =>
    dsimp only
    cases loadSecret .py3 (x :: xs) c.encrypted q prompt with
    | error e => exact .inl ⟨by simp, rfl⟩
    | ok s =>
      simp only [ok_bind]
      cases hs : stringToNumber s with
      | error e => exact .inl ⟨by simp [hs], rfl⟩
      | ok k =>
        simp only [ok_bind]
        by_cases h0 : k = 0
        · rw [if_pos h0, if_pos h0]
          exact .inr ⟨.inr ⟨s, by simp, rfl, by rw [hs, h0]⟩, rfl, rfl⟩
        · rw [if_neg h0, if_neg h0]
          exact .inl ⟨by simp [hs, h0], rfl⟩
  | nil =>
    cases c.pubkey.getD [] with
    | cons x xs => exact .inl ⟨by simp, rfl⟩
    | nil => exact .inr ⟨.inl ⟨rfl, rfl⟩, rfl, rfl⟩

/-- C172: every dictionary, also a damaged one, with any passphrase, is loaded as the same wallet by both Pythons or
refused by both, and with the same exception but for an HD wallet without a key: `TypeError` in Python 2, `NameError` in
Python 3. -/
theorem C172_loaded (H : Hashes) (cfg : AnyCfg) (q prompt : Bytes) :
    ((¬∃ c, cfg = .hd c ∧ Keyless c q prompt) → cfg.load .py2 H q prompt = cfg.load .py3 H q prompt) ∧
    ((∃ c, cfg = .hd c ∧ Keyless c q prompt) →
      cfg.load .py2 H q prompt = .error .typeError ∧ cfg.load .py3 H q prompt = .error .nameError) := by
  cases cfg with
  | default c =>
    refine ⟨fun _ => ?_, fun ⟨c, h, _⟩ => by cases h⟩
    simp only [AnyCfg.load, Address.load, loadSecret_ver .py2 .py3]
  | other => exact ⟨fun _ => rfl, fun ⟨c, h, _⟩ => by cases h⟩
  | hd c =>
    rcases key_ver c q prompt with ⟨hn, hk⟩ | ⟨hn, h2, h3⟩
    · refine ⟨fun _ => ?_, fun ⟨c', h, hc⟩ => ?_⟩
      · simp only [AnyCfg.load, HDWallet.load, hk]
      · cases h
        exact absurd hc hn
    · refine ⟨fun h => absurd ⟨c, rfl, hn⟩ h, fun _ => ?_⟩
      simp only [AnyCfg.load, HDWallet.load, h2, h3, error_bind, and_self]

/-- C172: a private wallet that is saved with one Python is opened complete with the other, in whatever order each writes the
entries of its dictionaries. -/
theorem C172_moves (ver ver' : PyVer) (H : Hashes) (json : AnyCfg → Bytes) (hj : Writer json) (w : AnyWallet)
    (hw : (∃ a, w = .default a ∧ Made H a ∧ a.privKey ≠ none) ∨
      ∃ d k, w = .hd d ∧ HDMade d ∧ d.key = .prv k ∧ (d.depth ≠ 0 ∨ d.parentfp = List.replicate 4 0))
    (pw : Bytes) (old : Option Bytes) (cuts : List Nat) :
    ∃ text, (saveTo ver json w pw old cuts).getLast? = some (some text) ∧
      ∀ prompt, loadFrom ver' H readCfg (some text) pw prompt = .ok w := by
  have key : ∃ cfg, w.dump ver' pw = .ok cfg ∧ ∀ prompt, cfg.load ver' H pw prompt = .ok w := by
    rcases hw with ⟨a, rfl, h, hp⟩ | ⟨d, k, rfl, h, hk, hd⟩
    · obtain ⟨cfg, h1, h2⟩ := C45_private_partial ver' H a h hp pw
      exact ⟨.default cfg, by simp only [AnyWallet.dump, h1, ok_bind], fun prompt => by
        simp only [AnyCfg.load, h2, ok_bind]⟩
    · obtain ⟨cfg, h1, h2⟩ := C46_private_partial ver' d k h hk pw
      rw [C46_same_partial d hd] at h2
      exact ⟨.hd cfg, by simp only [AnyWallet.dump, h1, ok_bind], fun prompt => by
        simp only [AnyCfg.load, h2, ok_bind]⟩
  obtain ⟨cfg, h1, h2⟩ := key
  refine ⟨json cfg, ?_, fun prompt => ?_⟩
  · unfold saveTo
    rw [C172_saved ver ver', h1]
    exact List.getLast?_concat
  · unfold loadFrom
    simp only [C146_read ver' json hj w pw cfg h1, ok_bind, h2]

/-- A dictionary without a key, and one with the secret 0. -/
example : Keyless ⟨false, [], 5, false, 0, [], 0, none, none⟩ [] [] ∧
    Keyless ⟨false, [], 5, false, 0, [], 0, some (ascii "303100"), none⟩ [] [] :=
  ⟨.inl ⟨rfl, rfl⟩, .inr ⟨[0], by decide, by decide +kernel, by decide +kernel⟩⟩

example : (AnyCfg.hd ⟨false, [], 5, false, 0, [], 0, none, none⟩).load .py2 Hashes.toy [] [] = .error .typeError ∧
    (AnyCfg.hd ⟨false, [], 5, false, 0, [], 0, none, none⟩).load .py3 Hashes.toy [] [] = .error .nameError := by
  decide +kernel

/-- A wallet as in `C172_moves`. -/
example : HDMade ⟨.prv 7, List.replicate 32 1, 5, false, 0, List.replicate 4 0, 0⟩ :=
  ⟨.prv 7, List.replicate 32 1, some 5, 0, false, none, by decide, by decide +kernel⟩

end NBC.Props
