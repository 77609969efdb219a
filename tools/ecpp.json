[
 {
  "N": 3636410625392624440351547907325502812950802686368714273274221490761556277859337865760708490235892541081304511,
  "a": 1632302014130384198692014207998609751102422918064517809655721110908596206871619959902410296471134330484865703,
  "x": 1934425687232242516200669973485346837912459352777807379043857290057711789895966493545605997368123704663727530,
  "y": 1807712309187066722337780737889894511336488422244116853146520767971956740162254029391080967063513734705119451,
  "q": 1137966589650348670157881020612471748342620590331941797696124058627025942593403162811149936559662523
 },
 {
  "N": 1137966589650348670157881020612471748342620590331941797696124058627025942593403162811149936559662523,
  "a": 240984510601090695870835078886122302821791212361465511811742178000708088970557186942128644448753317,
  "x": 1127164204828193030144483585894010987147444646184783640151003382114941726663632493491900948051983654,
  "y": 976847988217040724508266002453944186313146104766492995686379350592014136574408435347524124472564662,
  "q": 1878216977814517607823846827754312348306618169942369676988628436592108684742580138175229637917
 },
 {
  "N": 1878216977814517607823846827754312348306618169942369676988628436592108684742580138175229637917,
  "a": 1071812956013206138895226382448739430711131587326328330578634831825986283319259767297131633334,
  "x": 366124809092308009986169841344129310480991528108089130878274757332403167701574513034098076212,
  "y": 1668722639480784924367625735499684593427587296486995492344784326454973368776059923707003703154,
  "q": 1485243985530756820422209974227299333174697734463810468295648152478015167592691813
 },
 {
  "N": 1485243985530756820422209974227299333174697734463810468295648152478015167592691813,
  "a": 937071637022561325803433411587374525925082967851792578775411492736902753739639768,
  "x": 621797992719771464994316334444602721472656701937034258050444734127372298177396626,
  "y": 171150904560459508504814784246375484502343911978110517973391971986517892456215465,
  "q": 79656974860695339187913975432283764268801443586830188279874130895391
 },
 {
  "N": 79656974860695339187913975432283764268801443586830188279874130895391,
  "a": 62729270736747957845200859727097091136622639881015618683632407975470,
  "x": 34539723705192994335762647945235247782132309687342071993718106821852,
  "y": 10285698891057873441070814772335102793088038580660881655153731116469,
  "q": 209557083680392894171663590053010144940694873715757212774787
 },
 {
  "N": 209557083680392894171663590053010144940694873715757212774787,
  "a": 143875663577813395807567019171391239564485821890437846092608,
  "x": 87913350594020731846774494002993827980832100256313532863310,
  "y": 190234191868769903304792013532631906747885595707412509867405,
  "q": 13985905034227259450233044006667286667921100567787
 },
 {
  "N": 13985905034227259450233044006667286667921100567787,
  "a": 2097274704183377433632205831016131764360468600068,
  "x": 13277979364061161533235070228175522090151594203318,
  "y": 13367289344959179810776166510141077353762124611165,
  "q": 2145497396233693350933083798749665061
 },
 {
  "N": 2145497396233693350933083798749665061,
  "a": 1033985290822733217442489300853092102,
  "x": 219666816642706989056002962089885531,
  "y": 1095825290908995354513268086678131013,
  "q": 18619898173172725691
 }
]