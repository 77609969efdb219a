import Verif.Model.HDWallet
import Verif.Model.Rand

/-!
# The text of a wallet file

`json.dumps` and `json.loads` as `nbc/wallet/__init__.py:8-22` use them: the dictionaries of `dump_to_cfg`
(`address.py:172-191`, `hdwallet.py:239-263`) are flat, with text, integers, truth values and `None`.

The JSON module is not part of the repository; what is written down here is its behaviour for this kind of
text.  Simplified: on reading, a text with a backslash in it, a number with a fraction or an exponent, a nested
list or dictionary, `NaN` and `Infinity` are refused with `ValueError` where Python would go on reading; `saveTo`
writes none of these.
-/

namespace NBC.Wallet
open NBC Ecdsa

/-- A value in the dictionary of `dump_to_cfg`. For `address.py:173-190`, `hdwallet.py:240-262`. -/
inductive JVal where
  | null
  | bool (b : Bool)
  | int (i : Int)
  | str (s : Bytes)
  deriving DecidableEq, Repr

/-- A flat dictionary, in the order in which it is written or read.  (Up to Python 3.6 the order in which a
dictionary is written is that of the hash table.) For `address.py:173-190`, `hdwallet.py:240-262`. -/
abbrev JDict := List (Bytes × JVal)

/-! ### Keys -/

/-- `'type'`; for `address.py:173-190`, `hdwallet.py:240-262` -/
def kType : Bytes := [116, 121, 112, 101]
/-- `'encrypted'`; for `address.py:173-190`, `hdwallet.py:240-262` -/
def kEncrypted : Bytes := [101, 110, 99, 114, 121, 112, 116, 101, 100]
/-- `'chain'`; for `address.py:173-190`, `hdwallet.py:240-262` -/
def kChain : Bytes := [99, 104, 97, 105, 110]
/-- `'vcn'`; for `address.py:173-190`, `hdwallet.py:240-262` -/
def kVcn : Bytes := [118, 99, 110]
/-- `'testnet'`; for `address.py:173-190`, `hdwallet.py:240-262` -/
def kTestnet : Bytes := [116, 101, 115, 116, 110, 101, 116]
/-- `'depth'`; for `address.py:173-190`, `hdwallet.py:240-262` -/
def kDepth : Bytes := [100, 101, 112, 116, 104]
/-- `'parentfp'`; for `address.py:173-190`, `hdwallet.py:240-262` -/
def kParentfp : Bytes := [112, 97, 114, 101, 110, 116, 102, 112]
/-- `'childnum'`; for `address.py:173-190`, `hdwallet.py:240-262` -/
def kChildnum : Bytes := [99, 104, 105, 108, 100, 110, 117, 109]
/-- `'prvkey'`; for `address.py:173-190`, `hdwallet.py:240-262` -/
def kPrvkey : Bytes := [112, 114, 118, 107, 101, 121]
/-- `'pubkey'`; for `address.py:173-190`, `hdwallet.py:240-262` -/
def kPubkey : Bytes := [112, 117, 98, 107, 101, 121]
/-- `'HD'`; for `address.py:173-190`, `hdwallet.py:240-262` -/
def tHD : Bytes := [72, 68]
/-- `'default'`; for `address.py:173-190`, `hdwallet.py:240-262` -/
def tDefault : Bytes := [100, 101, 102, 97, 117, 108, 116]

/-- `None` or a text; for `address.py:173-190`, `hdwallet.py:240-262` -/
def jOpt : Option Bytes → JVal
  | none => .null
  | some s => .str s

/-- The dictionary `dump_to_cfg` returns, in the order of the source: `address.py:173-190` and
`hdwallet.py:240-262`. -/
def cfgItems : AnyCfg → JDict
  | .default c => [(kEncrypted, .bool c.encrypted), (kType, .str tDefault), (kVcn, .int c.vcn),
      (kTestnet, .bool c.testnet), (kPrvkey, jOpt c.prvkey), (kPubkey, jOpt c.pubkey)]
  | .hd c => [(kEncrypted, .bool c.encrypted), (kType, .str tHD), (kChain, .str c.chain), (kVcn, .int c.vcn),
      (kTestnet, .bool c.testnet), (kDepth, .int c.depth), (kParentfp, .str c.parentfp),
      (kChildnum, .int c.childnum), (kPrvkey, jOpt c.prvkey), (kPubkey, jOpt c.pubkey)]
  | .other => []

/-! ### Writing: `json.dumps(cfg)`, `wallet/__init__.py:10` -/

/-- A text in quotes.  (Simplified: without escapes; the texts written are fixed words and hexadecimal
digits.) For `nbc/wallet/__init__.py:10`. -/
def jStr (s : Bytes) : Bytes := 34 :: (s ++ [34])

/-- An integer in decimal; for `nbc/wallet/__init__.py:10` -/
def jInt (i : Int) : Bytes := if i < 0 then 45 :: fmtDecNat i.natAbs else fmtDecNat i.natAbs

/-- A value: `null`, `true`, `false`, an integer or a text; for `nbc/wallet/__init__.py:10` -/
def jVal : JVal → Bytes
  | .null => [110, 117, 108, 108]
  | .bool true => [116, 114, 117, 101]
  | .bool false => [102, 97, 108, 115, 101]
  | .int i => jInt i
  | .str s => jStr s

/-- One entry, with the key separator `': '`; for `nbc/wallet/__init__.py:10` -/
def jItem (x : Bytes × JVal) : Bytes := jStr x.1 ++ (58 :: 32 :: jVal x.2)

/-- The entries with the separator `', '` between them; for `nbc/wallet/__init__.py:10` -/
def jJoin : List Bytes → Bytes
  | [] => []
  | [x] => x
  | x :: y :: l => x ++ (44 :: 32 :: jJoin (y :: l))

/-- The whole text; for `nbc/wallet/__init__.py:10` -/
def jDump (d : JDict) : Bytes := 123 :: (jJoin (d.map jItem) ++ [125])

/-! ### Reading: `json.loads(f.read())`, `wallet/__init__.py:16` -/

/-- White space between tokens; for `nbc/wallet/__init__.py:16` -/
def jWs (c : UInt8) : Bool := c == 32 || c == 9 || c == 10 || c == 13

/-- Skip white space; for `nbc/wallet/__init__.py:16` -/
def skipWs : Bytes → Bytes
  | [] => []
  | c :: cs => if jWs c then skipWs cs else c :: cs

/-- The rest of a text up to its closing quote; a control character raises `ValueError`.
For `nbc/wallet/__init__.py:16`. -/
def scanStr : Bytes → Py (Bytes × Bytes)
  | [] => .error .valueError
  | c :: cs =>
    if c = 34 then .ok ([], cs)
    else if c = 92 ∨ c < 32 then .error .valueError
    else do
      let (s, r) ← scanStr cs
      .ok (c :: s, r)

/-- A decimal digit; for `nbc/wallet/__init__.py:16` -/
def isDig (c : UInt8) : Bool := 48 ≤ c && c ≤ 57

/-- The value of a row of decimal digits; for `nbc/wallet/__init__.py:16` -/
def decVal (t : Bytes) : Nat := t.foldl (fun a c => 10 * a + (c.toNat - 48)) 0

/-- `0|[1-9]\d*`; for `nbc/wallet/__init__.py:16` -/
def scanNat : Bytes → Py (Nat × Bytes)
  | [] => .error .valueError
  | c :: cs =>
    if c = 48 then .ok (0, cs)
    else if isDig c then .ok (decVal ((c :: cs).takeWhile isDig), (c :: cs).dropWhile isDig)
    else .error .valueError

/-- `-?(?:0|[1-9]\d*)`; for `nbc/wallet/__init__.py:16` -/
def scanInt : Bytes → Py (Int × Bytes)
  | [] => .error .valueError
  | c :: cs =>
    if c = 45 then do
      let (v, r) ← scanNat cs
      .ok (-(v : Int), r)
    else do
      let (v, r) ← scanNat (c :: cs)
      .ok ((v : Int), r)

/-- One value; for `nbc/wallet/__init__.py:16` -/
def scanVal : Bytes → Py (JVal × Bytes)
  | [] => .error .valueError
  | c :: cs =>
    if c = 34 then do
      let (s, r) ← scanStr cs
      .ok (.str s, r)
    else if (c :: cs).take 4 = [110, 117, 108, 108] then .ok (.null, (c :: cs).drop 4)
    else if (c :: cs).take 4 = [116, 114, 117, 101] then .ok (.bool true, (c :: cs).drop 4)
    else if (c :: cs).take 5 = [102, 97, 108, 115, 101] then .ok (.bool false, (c :: cs).drop 5)
    else do
      let (v, r) ← scanInt (c :: cs)
      .ok (.int v, r)

/-- One entry of a dictionary: key, colon, value, and the white space after it; for `nbc/wallet/__init__.py:16` -/
def scanItem : Bytes → Py ((Bytes × JVal) × Bytes)
  | [] => .error .valueError
  | c :: cs =>
    if c = 34 then do
      let (k, r) ← scanStr cs
      match skipWs r with
      | [] => .error .valueError
      | c :: r =>
        if c = 58 then do
          let (v, r) ← scanVal (skipWs r)
          .ok ((k, v), skipWs r)
        else .error .valueError
    else .error .valueError

/-- The entries of a dictionary from the first key to the closing brace.  The first argument only makes the
recursion structural; it is at least the number of entries. For `nbc/wallet/__init__.py:16`. -/
def scanItems : Nat → Bytes → Py (JDict × Bytes)
  | 0, _ => .error .valueError
  | fuel + 1, t => do
    let (x, r) ← scanItem t
    match r with
    | [] => .error .valueError
    | c :: r =>
      if c = 125 then .ok ([x], r)
      else if c = 44 then do
        let (xs, r) ← scanItems fuel (skipWs r)
        .ok (x :: xs, r)
      else .error .valueError

/-- What follows an opening brace; for `nbc/wallet/__init__.py:16` -/
def scanDict (t : Bytes) : Py (JDict × Bytes) :=
  match skipWs t with
  | [] => .error .valueError
  | c :: cs => if c = 125 then .ok ([], cs) else scanItems (c :: cs).length (c :: cs)

/-- The whole text.  A text that is no dictionary is read, and `cfg.get` then raises `AttributeError`
(`wallet/__init__.py:17`). -/
def jLoads (text : Bytes) : Py JDict :=
  match skipWs text with
  | [] => .error .valueError
  | c :: cs =>
    if c = 123 then do
      let (d, r) ← scanDict cs
      if skipWs r = [] then .ok d else .error .valueError
    else do
      let (_, r) ← scanVal (c :: cs)
      if skipWs r = [] then .error .attributeError else .error .valueError

/-! ### The dictionary read -/

/-- `cfg.get(key)`; of a key met twice the last entry counts. For `wallet/__init__.py:17-22`. -/
def jGet (d : JDict) (key : Bytes) : Option JVal :=
  ((d.filter (fun x => x.1 = key)).getLast?).map (·.2)

/-- The truth of a value; for `nbc/wallet/address.py:195-210` -/
def JVal.truthy : JVal → Bool
  | .null => false
  | .bool b => b
  | .int i => decide (i ≠ 0)
  | .str s => decide (s ≠ [])

/-- `cfg[key]` where a text or `None` is used.  (Simplified: a value of another kind raises `TypeError` at
once; a number that counts as false would be taken for `None`.) For `address.py:195-210`, `hdwallet.py:267-286`. -/
def jOptStr (d : JDict) (key : Bytes) : Py (Option Bytes) :=
  match jGet d key with
  | none => .error .keyError
  | some .null => .ok none
  | some (.str s) => .ok (some s)
  | some _ => .error .typeError

/-- `cfg[key]` where a text is used; for `hdwallet.py:267-286` -/
def jText (d : JDict) (key : Bytes) : Py Bytes :=
  match jGet d key with
  | none => .error .keyError
  | some (.str s) => .ok s
  | some _ => .error .typeError

/-- `cfg[key]` where an integer is used.  (Simplified: a value of another kind raises `TypeError` at once.)
For `address.py:195-210`, `hdwallet.py:267-286`. -/
def jNumber (d : JDict) (key : Bytes) : Py Int :=
  match jGet d key with
  | none => .error .keyError
  | some (.int i) => .ok i
  | some _ => .error .typeError

/-- `cfg[key]` where its truth is used; for `address.py:195-210`, `hdwallet.py:267-286` -/
def jFlag (d : JDict) (key : Bytes) : Py Bool :=
  match jGet d key with
  | none => .error .keyError
  | some v => .ok v.truthy

/-- `cfg.get('encrypted')`; for `address.py:195-210`, `hdwallet.py:267-286` -/
def jEncrypted (d : JDict) : Bool :=
  match jGet d kEncrypted with
  | none => false
  | some v => v.truthy

/-- The entries `Address.load_from_cfg` reads, `address.py:195-210`.  (Simplified: all are read before any is
used.) -/
def defaultCfg (d : JDict) : Py AddrCfg := do
  let pub ← jOptStr d kPubkey
  let prv ← jOptStr d kPrvkey
  let vcn ← jNumber d kVcn
  let testnet ← jFlag d kTestnet
  .ok ⟨jEncrypted d, vcn, testnet, prv, pub⟩

/-- The entries `HDWallet.load_from_cfg` reads, `hdwallet.py:267-286`.  (Simplified as `defaultCfg`.) -/
def hdCfg (d : JDict) : Py HDCfg := do
  let prv ← jOptStr d kPrvkey
  let pub ← jOptStr d kPubkey
  let chain ← jText d kChain
  let vcn ← jNumber d kVcn
  let testnet ← jFlag d kTestnet
  let depth ← jNumber d kDepth
  let childnum ← jNumber d kChildnum
  let parentfp ← jText d kParentfp
  .ok ⟨jEncrypted d, chain, vcn, testnet, depth, parentfp, childnum, prv, pub⟩

/-- `tp = cfg.get('type')` and the choice made with it, `wallet/__init__.py:17-22` -/
def cfgOf (d : JDict) : Py AnyCfg :=
  if jGet d kType = some (.str tHD) then do
    let c ← hdCfg d
    .ok (.hd c)
  else if jGet d kType = some (.str tDefault) then do
    let c ← defaultCfg d
    .ok (.default c)
  else .ok .other

/-- The text of a wallet file to the dictionary it holds: the argument `parse` of `loadFrom`.
For `nbc/wallet/__init__.py:16`. -/
def readCfg (text : Bytes) : Py AnyCfg := do
  let d ← jLoads text
  cfgOf d

end NBC.Wallet
