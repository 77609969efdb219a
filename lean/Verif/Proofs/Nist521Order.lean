import Mathlib.Tactic.NormNum.Prime
import Verif.Proofs.Ecpp

/-!
# The order of NIST521p is prime

Generated by `tools/emit_ecpp.py` from the steps in `tools/ecpp.json`.
-/

namespace NBC.NT

theorem prime_55492217839 :
    Nat.Prime 55492217839 := by
  refine prime_of_pockCheck _ [(11722057, 2)] ?_ (by decide +kernel)
  intro qa h
  simp only [List.mem_cons, List.not_mem_nil, or_false] at h
  subst h
  exact by norm_num

theorem prime_18619898173172725691 :
    Nat.Prime 18619898173172725691 := by
  refine prime_of_pockCheck _ [(55492217839, 2)] ?_ (by decide +kernel)
  intro qa h
  simp only [List.mem_cons, List.not_mem_nil, or_false] at h
  subst h
  exact prime_55492217839

theorem prime_2145497396233693350933083798749665061 :
    Nat.Prime 2145497396233693350933083798749665061 :=
  prime_of_ecppCheck _ 1033985290822733217442489300853092102
    219666816642706989056002962089885531
    1095825290908995354513268086678131013
    18619898173172725691 64
    prime_18619898173172725691 (by decide +kernel)

theorem prime_13985905034227259450233044006667286667921100567787 :
    Nat.Prime 13985905034227259450233044006667286667921100567787 :=
  prime_of_ecppCheck _ 2097274704183377433632205831016131764360468600068
    13277979364061161533235070228175522090151594203318
    13367289344959179810776166510141077353762124611165
    2145497396233693350933083798749665061 120
    prime_2145497396233693350933083798749665061 (by decide +kernel)

theorem prime_209557083680392894171663590053010144940694873715757212774787 :
    Nat.Prime 209557083680392894171663590053010144940694873715757212774787 :=
  prime_of_ecppCheck _ 143875663577813395807567019171391239564485821890437846092608
    87913350594020731846774494002993827980832100256313532863310
    190234191868769903304792013532631906747885595707412509867405
    13985905034227259450233044006667286667921100567787 163
    prime_13985905034227259450233044006667286667921100567787 (by decide +kernel)

theorem prime_79656974860695339187913975432283764268801443586830188279874130895391 :
    Nat.Prime 79656974860695339187913975432283764268801443586830188279874130895391 :=
  prime_of_ecppCheck _ 62729270736747957845200859727097091136622639881015618683632407975470
    34539723705192994335762647945235247782132309687342071993718106821852
    10285698891057873441070814772335102793088038580660881655153731116469
    209557083680392894171663590053010144940694873715757212774787 197
    prime_209557083680392894171663590053010144940694873715757212774787 (by decide +kernel)

theorem prime_1485243985530756820422209974227299333174697734463810468295648152478015167592691813 :
    Nat.Prime 1485243985530756820422209974227299333174697734463810468295648152478015167592691813 :=
  prime_of_ecppCheck _ 937071637022561325803433411587374525925082967851792578775411492736902753739639768
    621797992719771464994316334444602721472656701937034258050444734127372298177396626
    171150904560459508504814784246375484502343911978110517973391971986517892456215465
    79656974860695339187913975432283764268801443586830188279874130895391 225
    prime_79656974860695339187913975432283764268801443586830188279874130895391 (by decide +kernel)

theorem prime_1878216977814517607823846827754312348306618169942369676988628436592108684742580138175229637917 :
    Nat.Prime 1878216977814517607823846827754312348306618169942369676988628436592108684742580138175229637917 :=
  prime_of_ecppCheck _ 1071812956013206138895226382448739430711131587326328330578634831825986283319259767297131633334
    366124809092308009986169841344129310480991528108089130878274757332403167701574513034098076212
    1668722639480784924367625735499684593427587296486995492344784326454973368776059923707003703154
    1485243985530756820422209974227299333174697734463810468295648152478015167592691813 269
    prime_1485243985530756820422209974227299333174697734463810468295648152478015167592691813 (by decide +kernel)

theorem prime_1137966589650348670157881020612471748342620590331941797696124058627025942593403162811149936559662523 :
    Nat.Prime 1137966589650348670157881020612471748342620590331941797696124058627025942593403162811149936559662523 :=
  prime_of_ecppCheck _ 240984510601090695870835078886122302821791212361465511811742178000708088970557186942128644448753317
    1127164204828193030144483585894010987147444646184783640151003382114941726663632493491900948051983654
    976847988217040724508266002453944186313146104766492995686379350592014136574408435347524124472564662
    1878216977814517607823846827754312348306618169942369676988628436592108684742580138175229637917 309
    prime_1878216977814517607823846827754312348306618169942369676988628436592108684742580138175229637917 (by decide +kernel)

theorem prime_3636410625392624440351547907325502812950802686368714273274221490761556277859337865760708490235892541081304511 :
    Nat.Prime 3636410625392624440351547907325502812950802686368714273274221490761556277859337865760708490235892541081304511 :=
  prime_of_ecppCheck _ 1632302014130384198692014207998609751102422918064517809655721110908596206871619959902410296471134330484865703
    1934425687232242516200669973485346837912459352777807379043857290057711789895966493545605997368123704663727530
    1807712309187066722337780737889894511336488422244116853146520767971956740162254029391080967063513734705119451
    1137966589650348670157881020612471748342620590331941797696124058627025942593403162811149936559662523 329
    prime_1137966589650348670157881020612471748342620590331941797696124058627025942593403162811149936559662523 (by decide +kernel)

theorem prime_3615194794881930010216942559103847593050265703173292383701371712350878926821661243755933835426896058418509759880171943 :
    Nat.Prime 3615194794881930010216942559103847593050265703173292383701371712350878926821661243755933835426896058418509759880171943 := by
  refine prime_of_pockCheck _ [(3636410625392624440351547907325502812950802686368714273274221490761556277859337865760708490235892541081304511, 2)] ?_ (by decide +kernel)
  intro qa h
  simp only [List.mem_cons, List.not_mem_nil, or_false] at h
  subst h
  exact prime_3636410625392624440351547907325502812950802686368714273274221490761556277859337865760708490235892541081304511

theorem prime_6864797660130609714981900799081393217269435300143305409394463459185543183397655394245057746333217197532963996371363321113864768612440380340372808892707005449 :
    Nat.Prime 6864797660130609714981900799081393217269435300143305409394463459185543183397655394245057746333217197532963996371363321113864768612440380340372808892707005449 := by
  refine prime_of_pockCheck _ [(3615194794881930010216942559103847593050265703173292383701371712350878926821661243755933835426896058418509759880171943, 2)] ?_ (by decide +kernel)
  intro qa h
  simp only [List.mem_cons, List.not_mem_nil, or_false] at h
  subst h
  exact prime_3615194794881930010216942559103847593050265703173292383701371712350878926821661243755933835426896058418509759880171943

end NBC.NT
