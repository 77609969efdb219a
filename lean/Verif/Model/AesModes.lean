import Verif.Model.Aes

/-!
# Modes of operation, padding and feeders of `nbc/util/pyaes`

A mode object is a state; a call of `encrypt`/`decrypt` maps a state and the data to the output and
the next state, or raises.
-/

namespace NBC.Aes

/-- `zip(a, b)` followed by `^`, as in `nbc/util/pyaes/aes.py:376,388` and elsewhere. -/
def xorBytes (a b : Bytes) : Bytes := List.zipWith (· ^^^ ·) a b

/-- Successive calls of one method of a mode object. For `nbc/wallet/address.py:26-29,44-47`. -/
def runCalls {σ : Type} (f : σ → Bytes → Py (Bytes × σ)) : σ → List Bytes → Py (List Bytes × σ)
  | s, [] => .ok ([], s)
  | s, d :: ds => do
    let (o, s) ← f s d
    let (os, s) ← runCalls f s ds
    .ok (o :: os, s)

/-! ### ECB -/

/-- `AESModeOfOperationECB.encrypt`, `nbc/util/pyaes/aes.py:327-331` -/
def ecbEncrypt (A : AES) (plaintext : Bytes) : Py (Bytes × AES) :=
  if plaintext.length ≠ 16 then .error .valueError
  else do
    let c ← A.encrypt plaintext
    .ok (c, A)

/-- `AESModeOfOperationECB.decrypt`, `nbc/util/pyaes/aes.py:333-337` -/
def ecbDecrypt (A : AES) (ciphertext : Bytes) : Py (Bytes × AES) :=
  if ciphertext.length ≠ 16 then .error .valueError
  else do
    let p ← A.decrypt ciphertext
    .ok (p, A)

/-! ### CBC -/

/-- An `AESModeOfOperationCBC` object. For `nbc/util/pyaes/aes.py:341-391`. -/
structure CBC where
  aes : AES
  last : Bytes

/-- The `iv` argument of CBC, CFB and OFB, `nbc/util/pyaes/aes.py:363-368`, 411-416, 479-484. -/
def ivBlock : Option Bytes → Py Bytes
  | none => .ok (List.replicate 16 0)
  | some iv => if iv.length ≠ 16 then .error .valueError else .ok iv

/-- `AESModeOfOperationCBC.__init__`, `nbc/util/pyaes/aes.py:362-370` -/
def CBC.init (ver : PyVer) (key : Bytes) (iv : Option Bytes) : Py CBC := do
  let last ← ivBlock iv
  let A ← AES.init ver key
  .ok { aes := A, last := last }

/-- `AESModeOfOperationCBC.encrypt`, `nbc/util/pyaes/aes.py:372-379` -/
def CBC.encrypt (s : CBC) (plaintext : Bytes) : Py (Bytes × CBC) :=
  if plaintext.length ≠ 16 then .error .valueError
  else do
    let last ← s.aes.encrypt (xorBytes plaintext s.last)
    .ok (last, { s with last := last })

/-- `AESModeOfOperationCBC.decrypt`, `nbc/util/pyaes/aes.py:381-391` -/
def CBC.decrypt (s : CBC) (ciphertext : Bytes) : Py (Bytes × CBC) :=
  if ciphertext.length ≠ 16 then .error .valueError
  else do
    let d ← s.aes.decrypt ciphertext
    .ok (xorBytes d s.last, { s with last := ciphertext })

/-! ### CFB -/

/-- An `AESModeOfOperationCFB` object. For `nbc/util/pyaes/aes.py:395-458`. -/
structure CFB where
  aes : AES
  reg : Bytes
  seg : Nat

/-- `AESModeOfOperationCFB.__init__`, `nbc/util/pyaes/aes.py:408-420`; `segment_size` is taken to be a
non-negative integer. -/
def CFB.init (ver : PyVer) (key : Bytes) (iv : Option Bytes) (segmentSize : Nat) : Py CFB := do
  let seg := if segmentSize = 0 then 1 else segmentSize
  let reg ← ivBlock iv
  let A ← AES.init ver key
  .ok { aes := A, reg := reg, seg := seg }

/-- The loop of `AESModeOfOperationCFB.encrypt`, `nbc/util/pyaes/aes.py:430-438`; `fuel` bounds the
number of segments. -/
def CFB.encLoop : Nat → CFB → Bytes → Py (Bytes × CFB)
  | 0, s, _ => .ok ([], s)
  | fuel + 1, s, data =>
    if data = [] then .ok ([], s)
    else do
      let segment := data.take s.seg
      let x ← s.aes.encrypt s.reg
      let c := xorBytes segment (x.take segment.length)
      let (rest, s) ← CFB.encLoop fuel { s with reg := s.reg.drop c.length ++ c } (data.drop s.seg)
      .ok (c ++ rest, s)

/-- `AESModeOfOperationCFB.encrypt`, `nbc/util/pyaes/aes.py:424-440` -/
def CFB.encrypt (s : CFB) (plaintext : Bytes) : Py (Bytes × CFB) :=
  if plaintext.length % s.seg ≠ 0 then .error .valueError
  else CFB.encLoop plaintext.length s plaintext

/-- The loop of `AESModeOfOperationCFB.decrypt`, `nbc/util/pyaes/aes.py:448-456`. -/
def CFB.decLoop : Nat → CFB → Bytes → Py (Bytes × CFB)
  | 0, s, _ => .ok ([], s)
  | fuel + 1, s, data =>
    if data = [] then .ok ([], s)
    else do
      let segment := data.take s.seg
      let x ← s.aes.encrypt s.reg
      let p := xorBytes segment (x.take segment.length)
      let (rest, s) ← CFB.decLoop fuel { s with reg := s.reg.drop segment.length ++ segment }
        (data.drop s.seg)
      .ok (p ++ rest, s)

/-- `AESModeOfOperationCFB.decrypt`, `nbc/util/pyaes/aes.py:442-458` -/
def CFB.decrypt (s : CFB) (ciphertext : Bytes) : Py (Bytes × CFB) :=
  if ciphertext.length % s.seg ≠ 0 then .error .valueError
  else CFB.decLoop ciphertext.length s ciphertext

/-! ### OFB -/

/-- An `AESModeOfOperationOFB` object. For `nbc/util/pyaes/aes.py:462-505`. -/
structure OFB where
  aes : AES
  last : Bytes
  remaining : Bytes

/-- `AESModeOfOperationOFB.__init__`, `nbc/util/pyaes/aes.py:478-488` -/
def OFB.init (ver : PyVer) (key : Bytes) (iv : Option Bytes) : Py OFB := do
  let last ← ivBlock iv
  let A ← AES.init ver key
  .ok { aes := A, last := last, remaining := [] }

/-- `AESModeOfOperationOFB.encrypt`, `nbc/util/pyaes/aes.py:490-501`, byte by byte. -/
def OFB.encrypt : OFB → Bytes → Py (Bytes × OFB)
  | s, [] => .ok ([], s)
  | s, c :: cs => do
    let s ← (if s.remaining.length = 0 then do
        let r ← s.aes.encrypt s.last
        .ok { s with remaining := r, last := [] }
      else .ok s : Py OFB)
    match s.remaining with
    | [] => .error .indexError
    | k :: ks =>
      let (rest, s) ← OFB.encrypt { s with remaining := ks, last := s.last ++ [k] } cs
      .ok ((c ^^^ k) :: rest, s)

/-- `AESModeOfOperationOFB.decrypt`, `nbc/util/pyaes/aes.py:503-505` -/
def OFB.decrypt (s : OFB) (ciphertext : Bytes) : Py (Bytes × OFB) := s.encrypt ciphertext

/-! ### CTR -/

/-- `Counter.__init__`, `nbc/util/pyaes/aes.py:265-268`: `(v >> i) % 256` for `i = 120, 112, .., 0`. -/
def counterInit (v : Int) : Bytes :=
  (List.range 16).map (fun j => UInt8.ofNat (byteAt v (120 - 8 * j)))

/-- The loop of `Counter.increment`, `nbc/util/pyaes/aes.py:275-281`, from index `i - 1` down to `0`;
the `else` branch of the `for` (lines 284-285) runs when no index breaks the loop. -/
def counterLoop (c : Bytes) : Nat → Bytes
  | 0 => List.replicate c.length 0
  | i + 1 =>
    if (c.getD i 0).toNat + 1 < 256 then c.set i (c.getD i 0 + 1)
    else counterLoop (c.set i 0) i

/-- `Counter.increment`, `nbc/util/pyaes/aes.py:272-285` -/
def counterIncrement (c : Bytes) : Bytes := counterLoop c c.length

/-- An `AESModeOfOperationCTR` object with a `Counter`. For `nbc/util/pyaes/aes.py:259-285,509-559`. -/
structure CTR where
  aes : AES
  counter : Bytes
  remaining : Bytes

/-- `AESModeOfOperationCTR.__init__`, `nbc/util/pyaes/aes.py:538-545`; the argument is the initial value
of the `Counter` (default `Counter()`, i.e. 1). -/
def CTR.init (ver : PyVer) (key : Bytes) (counter : Option Int) : Py CTR := do
  let A ← AES.init ver key
  .ok { aes := A, counter := counterInit (counter.getD 1), remaining := [] }

/-- `nbc/util/pyaes/aes.py:548-550`: `while len(remaining) < len(plaintext)`; every pass adds 16 bytes,
so `n = len(plaintext)` passes suffice. -/
def CTR.fill (n : Nat) : Nat → CTR → Py CTR
  | 0, s => .ok s
  | fuel + 1, s =>
    if s.remaining.length < n then do
      let k ← s.aes.encrypt s.counter
      CTR.fill n fuel { s with remaining := s.remaining ++ k, counter := counterIncrement s.counter }
    else .ok s

/-- `AESModeOfOperationCTR.encrypt`, `nbc/util/pyaes/aes.py:547-555` -/
def CTR.encrypt (s : CTR) (plaintext : Bytes) : Py (Bytes × CTR) := do
  let s ← CTR.fill plaintext.length plaintext.length s
  let e := xorBytes plaintext s.remaining
  .ok (e, { s with remaining := s.remaining.drop e.length })

/-- `AESModeOfOperationCTR.decrypt`, `nbc/util/pyaes/aes.py:557-559` -/
def CTR.decrypt (s : CTR) (crypttext : Bytes) : Py (Bytes × CTR) := s.encrypt crypttext

/-! ### Padding -/

/-- `append_PKCS7_padding`, `nbc/util/pyaes/util.py:26-28` (on byte strings, both versions). -/
def appendPadding (data : Bytes) : Bytes :=
  let pad := 16 - data.length % 16
  data ++ List.replicate pad (UInt8.ofNat pad)

/-- `strip_PKCS7_padding`, `nbc/util/pyaes/util.py:30-39`.  `data[-1]` of the empty string raises
`IndexError`; in Python 3 `data[-1]` is an `int`, so `ord` raises `TypeError`.
`data[:-0]` is the empty string. -/
def stripPadding (ver : PyVer) (data : Bytes) : Py Bytes :=
  if data.length % 16 ≠ 0 then .error .valueError
  else match data.getLast? with
    | none => .error .indexError
    | some b =>
      match ver with
      | .py3 => .error .typeError
      | .py2 =>
        let pad := b.toNat
        if pad > 16 then .error .valueError
        else if pad = 0 then .ok [] else .ok (data.take (data.length - pad))

/-! ### Feeders -/

/-- How a mode is finished and how much it consumes: the three groups of functions injected at
`nbc/util/pyaes/blockfeeder.py:47-101`. -/
inductive Kind where
  | block
  | segment (seg : Nat)
  | stream

/-- `_can_consume`, `nbc/util/pyaes/blockfeeder.py:47-49,69-70,90-91` -/
def Kind.canConsume : Kind → Nat → Nat
  | .block, size => if size ≥ 16 then 16 else 0
  | .segment seg, size => seg * (size / seg)
  | .stream, size => size

/-- A method of a mode: state and data to output and next state. For `nbc/util/pyaes/blockfeeder.py:137-141`. -/
abbrev Call (σ : Type) := σ → Bytes → Py (Bytes × σ)

/-- `_final_encrypt`, `nbc/util/pyaes/blockfeeder.py:52-56,73-75,93-94` -/
def Kind.finalEncrypt {σ : Type} (k : Kind) (enc : Call σ) (s : σ) (data : Bytes) :
    Py (Bytes × σ) :=
  match k with
  | .block =>
    let data := appendPadding data
    if data.length = 32 then do
      let (a, s) ← enc s (data.take 16)
      let (b, s) ← enc s (data.drop 16)
      .ok (a ++ b, s)
    else enc s data
  | .segment seg => do
    let padded := data ++ List.replicate (seg - data.length % seg) 0
    let (e, s) ← enc s padded
    .ok (e.take data.length, s)
  | .stream => enc s data

/-- `_final_decrypt`, `nbc/util/pyaes/blockfeeder.py:58-59,78-80,96-97` -/
def Kind.finalDecrypt {σ : Type} (ver : PyVer) (k : Kind) (dec : Call σ) (s : σ) (data : Bytes) :
    Py (Bytes × σ) :=
  match k with
  | .block => do
    let (p, s) ← dec s data
    let p ← stripPadding ver p
    .ok (p, s)
  | .segment seg => do
    let padded := data ++ List.replicate (seg - data.length % seg) 0
    let (e, s) ← dec s padded
    .ok (e.take data.length, s)
  | .stream => dec s data

/-- A `BlockFeeder`: the mode object and `_buffer` (`None` once finished),
`nbc/util/pyaes/blockfeeder.py:110-114`. -/
structure Feeder (σ : Type) where
  mode : σ
  buffer : Option Bytes

/-- `nbc/util/pyaes/blockfeeder.py:137-141`: the consuming loop; every pass shortens the buffer. -/
def feedLoop {σ : Type} (k : Kind) (call : Call σ) : Nat → σ → Bytes → Py (Bytes × σ × Bytes)
  | 0, s, buf => .ok ([], s, buf)
  | fuel + 1, s, buf =>
    if buf.length > 16 then
      let n := k.canConsume (buf.length - 16)
      if n = 0 then .ok ([], s, buf)
      else do
        let (o, s) ← call s (buf.take n)
        let (os, s, buf) ← feedLoop k call fuel s (buf.drop n)
        .ok (o ++ os, s, buf)
    else .ok ([], s, buf)

/-- `BlockFeeder.feed(data)`, `nbc/util/pyaes/blockfeeder.py:116-143`, in Python 2.  `none` or an empty
string finishes the stream. -/
def Feeder.feed {σ : Type} (k : Kind) (call final : Call σ) (f : Feeder σ) (data : Option Bytes) :
    Py (Bytes × Feeder σ) :=
  match f.buffer with
  | none => .error .valueError
  | some buf =>
    match data with
    | none | some [] => do
      let (r, s) ← final f.mode buf
      .ok (r, { mode := s, buffer := none })
    | some d => do
      let (r, s, buf) ← feedLoop k call (buf ++ d).length f.mode (buf ++ d)
      .ok (r, { mode := s, buffer := some buf })

/-- `BlockFeeder.feed(data)` in Python 3: `_buffer` starts as the `str` `""`
(`nbc/util/pyaes/blockfeeder.py:114`) and `_buffer += data` (line 133) with `bytes` raises `TypeError`;
finishing at once pads a `str` with `bytes` (`TypeError`) in the block and segment modes and encrypts
the empty string in the stream modes.  The only reachable buffers are `""` (`false`) and `None`
(`true`). -/
def feedPy3 (k : Kind) (finished : Bool) (data : Option Bytes) : Py (Bytes × Bool) :=
  if finished then .error .valueError
  else match data with
    | none | some [] =>
      match k with
      | .block => .error .typeError
      | .segment _ => .error .typeError
      | .stream => .ok ([], true)
    | some _ => .error .typeError

/-- Feed the chunks, then finish with `feed()`.
For `nbc/util/pyaes/blockfeeder.py:146-150`, `nbc/util/pyaes/blockfeeder.py:153-157`. -/
def Feeder.feedAll {σ : Type} (k : Kind) (call final : Call σ) : Feeder σ → List Bytes → Py Bytes
  | f, [] => do
    let (r, _) ← f.feed k call final none
    .ok r
  | f, d :: ds => do
    let (r, f) ← f.feed k call final (some d)
    let rs ← f.feedAll k call final ds
    .ok (r ++ rs)

/-- `Encrypter(mode)`, `nbc/util/pyaes/blockfeeder.py:146-150`, fed with the chunks and finished. -/
def encrypterRun {σ : Type} (k : Kind) (enc : Call σ) (s : σ) (chunks : List Bytes) : Py Bytes :=
  Feeder.feedAll k enc (k.finalEncrypt enc) { mode := s, buffer := some [] } chunks

/-- `Decrypter(mode)`, `nbc/util/pyaes/blockfeeder.py:153-157`, fed with the chunks and finished. -/
def decrypterRun {σ : Type} (ver : PyVer) (k : Kind) (dec : Call σ) (s : σ) (chunks : List Bytes) :
    Py Bytes :=
  Feeder.feedAll k dec (k.finalDecrypt ver dec) { mode := s, buffer := some [] } chunks

end NBC.Aes
