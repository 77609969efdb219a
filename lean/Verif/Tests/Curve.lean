import Verif.Model.Sha1
import Verif.Tests.Bip32

/-!
# The self-tests of `ellipticcurve.py` and `ecdsa.py`, run on the model

`nbc/util/ecdsa/ellipticcurve.py:184-290` and `nbc/util/ecdsa/ecdsa.py:282-573`: values of X9.62 and of the ECDSA
validation suite.  These are tests of the model, not proofs of a property.
The kernel takes about ten seconds for a multiplication on P-192, so of the four valid points and of the
fifteen signatures only one each is kept here (the other valid points and the signatures of lines 439, 446, 453, 495
and 502 were run once and gave the expected answers).
-/

namespace NBC.Tests

open NBC Ecdsa EC NT

/-- `CurveFp( 23, 1, 1 )`, `ellipticcurve.py:230` -/
def c23 : CurveFp := ⟨23, 1, 1⟩

/-- The coordinates of a point. -/
def xy (P : Py Pt) : Py (Option Int × Option Int) := do
  let P ← P
  return (P.x, P.y)

/-- The sum of two points given by their coordinates, `test_add`. -/
def testAdd (C : CurveFp) (x1 y1 x2 y2 : Int) : Py (Option Int × Option Int) := xy do
  let P ← mkPoint C x1 y1 none
  let Q ← mkPoint C x2 y2 none
  add C P Q

/-- `test_double` -/
def testDouble (C : CurveFp) (x1 y1 : Int) : Py (Option Int × Option Int) := xy do
  let P ← mkPoint C x1 y1 none
  double C P

/-- `test_multiply` -/
def testMultiply (C : CurveFp) (x1 y1 m : Int) : Py (Option Int × Option Int) := xy do
  let P ← mkPoint C x1 y1 none
  mul C P m

/-- `ellipticcurve.py:231-236` -/
example : testAdd c23 3 10 9 7 = .ok (some 17, some 20) ∧ testDouble c23 3 10 = .ok (some 7, some 12) ∧
    testAdd c23 3 10 3 10 = .ok (some 7, some 12) ∧ testMultiply c23 3 10 2 = .ok (some 7, some 12) ∧
    double c23 .inf = .ok .inf := by decide +kernel

/-- The loop of `ellipticcurve.py:242-251`: the multiples of `g`, against repeated addition. -/
def multiples (C : CurveFp) (g : Pt) : Nat → Nat → Pt → Py Bool
  | 0, _, _ => .ok true
  | k + 1, i, check => do
    let p ← mul C g ((i % 7 : Nat) : Int)
    if p.eq check then multiples C g k (i + 1) (← add C check g) else return false

/-- `ellipticcurve.py:240-251` -/
example : (do multiples c23 (← mkPoint c23 13 7 (some 7)) 8 0 .inf) = .ok true := by decide +kernel

/-- `d` of X9.62, `ellipticcurve.py:268` -/
def xd : Int := 651056770906015076056810763456358567190100156695615665659
/-- `k` of X9.62, `ellipticcurve.py:275` -/
def xk : Int := 6140507067065001063065065565667405560006161556565665656654
/-- `Q`, whose first coordinate is given in `ellipticcurve.py:270` -/
def xQ : Py Pt := mul nist192p.curve nist192p.generator xd

/-- `ellipticcurve.py:268-273` -/
example : (xy xQ).map (·.1) = .ok (some 0x62B12D60690CDCF330BABAB6E69763B471F994DD702D16A5) := by decide +kernel

/-- `ellipticcurve.py:275-281` -/
example : xy (mul nist192p.curve nist192p.generator xk) =
    .ok (some 0x885052380FF147B734C330C43D39B2C4A89F29B0F749FEAD,
      some 0x9CF9FA1CBEFEFB917747A3BB29C072B9289C2547884FD835) := by decide +kernel

/-- `ecdsa.py:339-348`: the signature of X9.62. -/
example : sign ⟨nist192p.curve, nist192p.generator, .inf⟩ xd 968236873715988614170569073515315707566766479517 xk =
    .ok (3342403536405981729393488334694600415596881826869351677613,
      5735822328888155254683894997897571951568553642892029982342) := by decide +kernel

/-- `digest_integer` of the examples of FIPS 180: `abc`. -/
example : digestInteger 0x616263 = .ok 0xa9993e364706816aba3e25717850c26c9cd0d89d := by decide +kernel

/-- `ecdsa.py:358` -/
example : pointIsValid nist192p.curve nist192p.order
    0xcd6d0f029a023e9aaca429615b8f577abee685d8257cc83a
    0x19c410987680e9fb6c0b6ecc01d9a2647c8bae27721bacdfc = .ok false := by decide +kernel

/-- `ecdsa.py:364` -/
example : pointIsValid nist192p.curve nist192p.order
    0x17f2fce203639e9eaf9fb50b81fc32776b30e3b02af16c73b
    0x95da95c5e72dd48e229d4748d4eee658a9a54111b23b2adb = .ok false := by decide +kernel

/-- `ecdsa.py:370` -/
example : pointIsValid nist192p.curve nist192p.order
    0x4f77f8bc7fccbadd5760f4938746d5f253ee2168c1cf2792
    0x147156ff824d131629739817edb197717c41aab5c2a70f0f6 = .ok false := by decide +kernel

/-- `ecdsa.py:376` -/
example : pointIsValid nist192p.curve nist192p.order
    0xc58d61f88d905293bcd4cd0080bcb1b7f811f2ffa41979f6
    0x8804dc7a7c4c7f8b5d437f5156f3312ca7d6de8a0e11867f = .ok true := by decide +kernel

/-- `ecdsa.py:400` -/
example : pointIsValid nist192p.curve nist192p.order
    0x6dccbde75c0948c98dab32ea0bc59fe125cf0fb1a3798eda
    0x1171a3e0fa60cf3096f4e116b556198de430e1fbd330c8835 = .ok false := by decide +kernel

/-- `ecdsa.py:406` -/
example : pointIsValid nist192p.curve nist192p.order
    0xd266b39e1f491fc4acbbbc7d098430931cfa66d55015af12
    0x193782eb909e391a3148b7764e6b234aa94e48d30a16dbb2 = .ok false := by decide +kernel

/-- `ecdsa.py:412` -/
example : pointIsValid nist192p.curve nist192p.order
    0x9d6ddbcd439baa0c6b80a654091680e462a7d1d3f1ffeb43
    0x6ad8efc4d133ccf167c44eb4691c80abffb9f82b932b8caa = .ok false := by decide +kernel

/-- `ecdsa.py:418` -/
example : pointIsValid nist192p.curve nist192p.order
    0x146479d944e6bda87e5b35818aa666a4c998a71f4e95edbc
    0xa86d6fe62bc8fbd88139693f842635f687f132255858e7f6 = .ok false := by decide +kernel

/-- `ecdsa.py:424` -/
example : pointIsValid nist192p.curve nist192p.order
    0xe594d4a598046f3598243f50fd2c7bd7d380edb055802253
    0x509014c0c4d6b536e3ca750ec09066af39b4c8616a53a923 = .ok false := by decide +kernel

/-- `test_signature_validity`, `ecdsa.py:294-307` -/
def testSignature (msg : Int) (qx qy r s : Int) : Py Bool := do
  let K ← mkPublicKey nist192p.curve nist192p.generator (← mkPoint nist192p.curve qx qy none)
  K.verifies (← digestInteger msg) r s

/-- `ecdsa.py:432` -/
example : testSignature
    0x84ce72aa8699df436059f052ac51b6398d2511e49631bcb7e71f89c499b9ee425dfbc13a5f6d408471b054f2655617cbbaf7937b7c80cd8865cf02c8487d30d2b0fbd8b2c4e102e16d828374bbc47b93852f212d5043c3ea720f086178ff798cc4f63f787b9c2e419efa033e7644ea7936f54462dc21a6c4580725f7f0e7d158
    0xd9dbfb332aa8e5ff091e8ce535857c37c73f6250ffb2e7ac 0x282102e364feded3ad15ddf968f88d8321aa268dd483ebc4
    0x64dca58a20787c488d11d6dd96313f1b766f2d8efe122916 0x1ecba28141e84ab4ecad92f56720e2cc83eb3d22dec72479 = .ok true := by
  decide +kernel

end NBC.Tests
