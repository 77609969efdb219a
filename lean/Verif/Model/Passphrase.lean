import Verif.Model.HDWallet
import Verif.Model.Format

/-!
# Passphrases as they are given and typed

`Model/Wallet` and `Model/HDWallet` take passphrases as byte strings and what is typed as one of them.  Here: a passphrase
that is text (`str` of Python 3, `unicode` of Python 2), and the loop at the prompt, `nbc/wallet/address.py:14-16,37-40`.
-/

namespace NBC.Wallet
open NBC Aes

/-- A passphrase: `bytes` (`str` of Python 2), or text. For `nbc/wallet/address.py:15-16,37-40`. -/
inductive Phrase where
  | bytes (b : Bytes)
  | text (s : List Char)
  deriving DecidableEq, Repr

/-- `not passphrase`; for `address.py:37-38` -/
def Phrase.empty : Phrase → Bool
  | .bytes b => b.isEmpty
  | .text s => s.isEmpty

/-- `c.isspace()` of a character (Python 3); for `address.py:38` -/
def spaceChar (c : Char) : Bool :=
  let n := c.toNat
  decide ((9 ≤ n ∧ n ≤ 13) ∨ (28 ≤ n ∧ n ≤ 32) ∨ n = 133 ∨ n = 160 ∨ n = 5760 ∨ (8192 ≤ n ∧ n ≤ 8202) ∨ n = 8232 ∨
    n = 8233 ∨ n = 8239 ∨ n = 8287 ∨ n = 12288)

/-- `s.strip()` for these white characters; for `address.py:38` -/
def stripWith {α : Type} (space : α → Bool) (l : List α) : List α :=
  ((l.dropWhile space).reverse.dropWhile space).reverse

/-- `.strip()`, `address.py:38`; of `str` in Python 2, of text in Python 3. -/
def Phrase.strip : Phrase → Phrase
  | .bytes b => .bytes (stripWith isSpace b)
  | .text s => .text (stripWith spaceChar s)

/-- `while not passphrase: passphrase = getpass.getpass('Passphrase:').strip()`, `address.py:37-38`, for the lines typed one
after the other; `none`: the next line is waited for. -/
def ask : Phrase → List Phrase → Option Phrase
  | p, [] => if p.empty then none else some p
  | p, t :: ts => if p.empty then ask t.strip ts else some p

/-- `if not isinstance(passphrase,bytes): passphrase = passphrase.encode('latin-1')`, `address.py:39-40` -/
def Phrase.encode : Phrase → Py Bytes
  | .bytes b => .ok b
  | .text s => Proto.latin1Encode s

/-- Whether `load_from_cfg` comes to the passphrase: there is a private key, it is encrypted, and `unhexlify` and the check
of its length (`address.py:33-35,196-199`, `hdwallet.py:267-271`) let it pass. -/
def AnyCfg.needsPhrase : AnyCfg → Bool
  | .default c => reaches (c.prvkey.getD []) c.encrypted
  | .hd c => reaches (c.prvkey.getD []) c.encrypted
  | .other => false
where
  /-- The text is not empty and has the digits of 1 to 15 blocks of 16 bytes. -/
  reaches (text : Bytes) (encrypted : Bool) : Bool :=
    match unhexlify text with
    | .ok s => decide (text ≠ []) && encrypted && !decide (s.length / 16 = 0 ∨ s.length / 16 ≥ 16 ∨ s.length % 16 ≠ 0)
    | .error _ => false

/-- `load_from_cfg(cfg, passphrase)` with these lines typed at the prompt; `none`: the prompt waits.
For `address.py:194-210`, `hdwallet.py:265-286`. -/
def AnyCfg.loadTyped (ver : PyVer) (H : Hashes) (cfg : AnyCfg) (passphrase : Phrase) (typed : List Phrase) :
    Option (Py AnyWallet) :=
  if cfg.needsPhrase then
    match ask passphrase typed with
    | none => none
    | some p =>
      match p.encode with
      | .error e => some (.error e)
      | .ok b => some (cfg.load ver H b [])
  else some (cfg.load ver H [] [])

/-- `dump_to_cfg(passphrase)`, `address.py:172-191`, `hdwallet.py:239-263`: a text that is not empty raises in `_aesEncrypt`
(`address.py:15-16`) if there is a private key (whose length is checked before), and is not looked at otherwise. -/
def AnyWallet.dumpWith (ver : PyVer) (w : AnyWallet) (passphrase : Phrase) : Py AnyCfg :=
  match passphrase with
  | .bytes b => w.dump ver b
  | .text s =>
    if s = [] then w.dump ver []
    else do
      let cfg ← w.dump ver []
      let secret := match cfg with
        | .default c => c.prvkey
        | .hd c => c.prvkey
        | .other => none
      match secret with
      | some _ => .error .valueError
      | none => .ok cfg

/-- `saveTo` (`wallet/__init__.py:8-12`) with such a passphrase: the contents of the file, as in `saveTo` of
`Model/HDWallet`. -/
def saveToWith (ver : PyVer) (json : AnyCfg → Bytes) (w : AnyWallet) (passphrase : Phrase) (old : Option Bytes)
    (cuts : List Nat) : List (Option Bytes) :=
  match w.dumpWith ver passphrase with
  | .error _ => [old]
  | .ok cfg => [old, some []] ++ cuts.map (fun c => some ((json cfg).take c)) ++ [some (json cfg)]

end NBC.Wallet
