import Verif.Proofs.MulChain

/-! # The order of the generator of nist521p, by the code's own multiplication

Written by tools/gen_order_chains.py. -/

namespace NBC.Ecdsa
open NBC EC

set_option maxRecDepth 20000 in
theorem nist521p_run0 : mulLoop nist521p.curve (.aff nist521p.gx nist521p.gy none) (.aff nist521p.gx (-nist521p.gy) none) (3 * nist521p.order) nist521p.order 24 6864797660130609714981900799081393217269435300143305409394463459185543183397656052122559640661454554977296311391480858037121987999716643812574028291115057152
    (.aff nist521p.gx nist521p.gy none) = .ok (.aff 453130384434367738654449761099744344486787608641456995153368035138310528730170951572192404016694056418735853620846743832990555132154161428381468022378044040 5119591680783052499950316601049046376591546254788702419973513600660164440448705085786718340194075661254321811470849361049643379691836943461694020795916033688 none) := by decide +kernel

set_option maxRecDepth 20000 in
theorem nist521p_run1 : mulLoop nist521p.curve (.aff nist521p.gx nist521p.gy none) (.aff nist521p.gx (-nist521p.gy) none) (3 * nist521p.order) nist521p.order 24 409173825987017733751648712103449894027080255755383098685411421012016724550584319360408761540738019643860835515945008876152157068235674131666065948672
    (.aff 453130384434367738654449761099744344486787608641456995153368035138310528730170951572192404016694056418735853620846743832990555132154161428381468022378044040 5119591680783052499950316601049046376591546254788702419973513600660164440448705085786718340194075661254321811470849361049643379691836943461694020795916033688 none) = .ok (.aff 1482892392915551099493493087139207499226719998919869079219139310879091946071046554746937754942947485478981105231352513079092538580087132428338598954957268975 6656547792468234202513357217207102882095205879414549386829480366120098188870968504469283733708573799315653388984083800195686957245676850271967903272102199789 none) := by decide +kernel

set_option maxRecDepth 20000 in
theorem nist521p_run2 : mulLoop nist521p.curve (.aff nist521p.gx nist521p.gy none) (.aff nist521p.gx (-nist521p.gy) none) (3 * nist521p.order) nist521p.order 24 24388660549343689307668728357759111763660922989570087116087163747073216709529418907189891430183531024686147899385989241370687309994439728955392
    (.aff 1482892392915551099493493087139207499226719998919869079219139310879091946071046554746937754942947485478981105231352513079092538580087132428338598954957268975 6656547792468234202513357217207102882095205879414549386829480366120098188870968504469283733708573799315653388984083800195686957245676850271967903272102199789 none) = .ok (.aff 3042535127321235089743736710473807759598896368882351848480004973227084424260983657656751479733996511700374426767581650812712679119460872532195540271593636528 3601219424900983447641450911424197109142124379604934553604287600958816400840123246212847482305573875422172798358624353679842634110521539863859918349710673387 none) := by decide +kernel

set_option maxRecDepth 20000 in
theorem nist521p_run3 : mulLoop nist521p.curve (.aff nist521p.gx nist521p.gy none) (.aff nist521p.gx (-nist521p.gy) none) (3 * nist521p.order) nist521p.order 24 1453677448591213781098647615776009068707282721374636120562980398361278576226795846652382101427527131121525043212532355867069203257229312
    (.aff 3042535127321235089743736710473807759598896368882351848480004973227084424260983657656751479733996511700374426767581650812712679119460872532195540271593636528 3601219424900983447641450911424197109142124379604934553604287600958816400840123246212847482305573875422172798358624353679842634110521539863859918349710673387 none) = .ok (.aff 735314888707134378250176542524946125515582770515314485353313178753675445946746265028174233952887321623868655425308886800744859460648700334360869250626594988 312792786879566333485685222369489052383817848184694363112655856021724531585592188710305953578934261342253740586081921967662450116554425736906957518214007091 none) := by decide +kernel

set_option maxRecDepth 20000 in
theorem nist521p_run4 : mulLoop nist521p.curve (.aff nist521p.gx nist521p.gy none) (.aff nist521p.gx (-nist521p.gy) none) (3 * nist521p.order) nist521p.order 24 86645927941275464361825443254471365732388658605494267974077486894206915868925800719999200190754361815543475342543861619655442432
    (.aff 735314888707134378250176542524946125515582770515314485353313178753675445946746265028174233952887321623868655425308886800744859460648700334360869250626594988 312792786879566333485685222369489052383817848184694363112655856021724531585592188710305953578934261342253740586081921967662450116554425736906957518214007091 none) = .ok (.aff 3533211404335818136534629821072113974237200922020773367376844263911429898678049857481368802745861502613318015070689902168427750069376038950508703928729557051 6784619941378005692121476703559683043546131423792499375247524581357950224385059399785917696158050230686550485319868438445017680703270783779435892128304965539 none) := by decide +kernel

set_option maxRecDepth 20000 in
theorem nist521p_run5 : mulLoop nist521p.curve (.aff nist521p.gx nist521p.gy none) (.aff nist521p.gx (-nist521p.gy) none) (3 * nist521p.order) nist521p.order 24 5164499756173817179311838344006023748659411585658447025661318713081295244033682389259290706560275662871806343945494986752
    (.aff 3533211404335818136534629821072113974237200922020773367376844263911429898678049857481368802745861502613318015070689902168427750069376038950508703928729557051 6784619941378005692121476703559683043546131423792499375247524581357950224385059399785917696158050230686550485319868438445017680703270783779435892128304965539 none) = .ok (.aff 157402945804107597327197528195178127599149639613471592715939408908030374850866705063280849829367515499503764021340011089237536957267802004725102408610786056 5292201887171612302923869353371834650403385412177983104109866512798071018790255057972291855036486582563766238019058982288688909689317762598917912199699274993 none) := by decide +kernel

set_option maxRecDepth 20000 in
theorem nist521p_run6 : mulLoop nist521p.curve (.aff nist521p.gx nist521p.gy none) (.aff nist521p.gx (-nist521p.gy) none) (3 * nist521p.order) nist521p.order 24 307828173409331868845930000782371982852185463050511302093346042220669701339821957901673955116288403443801781174272
    (.aff 157402945804107597327197528195178127599149639613471592715939408908030374850866705063280849829367515499503764021340011089237536957267802004725102408610786056 5292201887171612302923869353371834650403385412177983104109866512798071018790255057972291855036486582563766238019058982288688909689317762598917912199699274993 none) = .ok (.aff 2514399901016899655609281223579444799772936488700110876180628121074974735524124691506032204410643457951023001756470377734367383193039410735921515807105714504 3979789222637451199726619654644508661347588662097279574462193125667436689187157825143115721124728615927589732853187540145252104586200321651821460436302728681 none) := by decide +kernel

set_option maxRecDepth 20000 in
theorem nist521p_run7 : mulLoop nist521p.curve (.aff nist521p.gx nist521p.gy none) (.aff nist521p.gx (-nist521p.gy) none) (3 * nist521p.order) nist521p.order 24 18347988927920572092886567162416695526372519913346248989900710715095383008707878464560148424881005492436992
    (.aff 2514399901016899655609281223579444799772936488700110876180628121074974735524124691506032204410643457951023001756470377734367383193039410735921515807105714504 3979789222637451199726619654644508661347588662097279574462193125667436689187157825143115721124728615927589732853187540145252104586200321651821460436302728681 none) = .ok (.aff 4581568261170057748853362443790581070222264648183780628897311429573251391199195707065836289320403722307686498733753166055584085852133263973902551516348923126 2465301766092233307996852826726615350981111206861468593619865283025188260091775952442301033199874364066870141540680107687997782690046093967961489489514818708 none) := by decide +kernel

set_option maxRecDepth 20000 in
theorem nist521p_run8 : mulLoop nist521p.curve (.aff nist521p.gx nist521p.gy none) (.aff nist521p.gx (-nist521p.gy) none) (3 * nist521p.order) nist521p.order 24 1093625362391505962186251113558810682676584715446606218212885303204976499599687961611756588511526912
    (.aff 4581568261170057748853362443790581070222264648183780628897311429573251391199195707065836289320403722307686498733753166055584085852133263973902551516348923126 2465301766092233307996852826726615350981111206861468593619865283025188260091775952442301033199874364066870141540680107687997782690046093967961489489514818708 none) = .ok (.aff 644331758759960224153891727378953197713543096279433645735274024159058022600741367585196919651547726043272440330333443142187685669302117475662421220626927306 3582634637577660704005898519023986627662129432513397892266528607486128421766358212745299312230502776708959564196295978157074756650571834929179503149092123252 none) := by decide +kernel

set_option maxRecDepth 20000 in
theorem nist521p_run9 : mulLoop nist521p.curve (.aff nist521p.gx nist521p.gy none) (.aff nist521p.gx (-nist521p.gy) none) (3 * nist521p.order) nist521p.order 24 65185151242703554760590262029100101153646988597309960020356494379340201592426774597868716032
    (.aff 644331758759960224153891727378953197713543096279433645735274024159058022600741367585196919651547726043272440330333443142187685669302117475662421220626927306 3582634637577660704005898519023986627662129432513397892266528607486128421766358212745299312230502776708959564196295978157074756650571834929179503149092123252 none) = .ok (.aff 882585430411835862650485037954652750022661116558397748116882534130639569758390134796042728299298753507764042042630735125936149947983264736542914053901479546 4454912908060433922285858331730476746571328848592198341758973819092831238176539770893777225398429103700239388071587577300494661305591681482642442663937031855 none) := by decide +kernel

set_option maxRecDepth 20000 in
theorem nist521p_run10 : mulLoop nist521p.curve (.aff nist521p.gx nist521p.gy none) (.aff nist521p.gx (-nist521p.gy) none) (3 * nist521p.order) nist521p.order 24 3885337784451458141838923813647037813284813678104279042503624819477808570410416996352
    (.aff 882585430411835862650485037954652750022661116558397748116882534130639569758390134796042728299298753507764042042630735125936149947983264736542914053901479546 4454912908060433922285858331730476746571328848592198341758973819092831238176539770893777225398429103700239388071587577300494661305591681482642442663937031855 none) = .ok (.aff 5360408284144782290240443063053083689808299951300990924039386881491329766033983293325612227443794907464977212828060799877977142794564118925261806790283130985 2803179919956413980140823249243477274671716047283242347004087531743343773762265522567209816012211152854460362676865300438696612583497085385987279968221204409 none) := by decide +kernel

set_option maxRecDepth 20000 in
theorem nist521p_run11 : mulLoop nist521p.curve (.aff nist521p.gx nist521p.gy none) (.aff nist521p.gx (-nist521p.gy) none) (3 * nist521p.order) nist521p.order 24 231584178474632390847141970017375815706539969331281128078915168015826259279872
    (.aff 5360408284144782290240443063053083689808299951300990924039386881491329766033983293325612227443794907464977212828060799877977142794564118925261806790283130985 2803179919956413980140823249243477274671716047283242347004087531743343773762265522567209816012211152854460362676865300438696612583497085385987279968221204409 none) = .ok (.aff 5854309935344958036923722054155440242511068835734304453825228593748930375174882806440595378848587716896475073840822049985799031358365504166551987640006923648 2473364530645758426984271928000964852775671374959269310205842944803944790190644152319074948164322827915653936401978529672263299048567088666830281563657085330 none) := by decide +kernel

set_option maxRecDepth 20000 in
theorem nist521p_run12 : mulLoop nist521p.curve (.aff nist521p.gx nist521p.gy none) (.aff nist521p.gx (-nist521p.gy) none) (3 * nist521p.order) nist521p.order 24 13803492693581127574869511724554050904902217944340773110325048447598592
    (.aff 5854309935344958036923722054155440242511068835734304453825228593748930375174882806440595378848587716896475073840822049985799031358365504166551987640006923648 2473364530645758426984271928000964852775671374959269310205842944803944790190644152319074948164322827915653936401978529672263299048567088666830281563657085330 none) = .ok (.aff 4022603386933372879415117817939403324695890019340183300346860936878284232166518109924991111380471862512461974226853070203476539919504540618017522511165889425 4724884343749886683511869385498091310329606185679573725734133328598063476715018500883845411820405681744005458787394482715676413042322894491698435509398019869 none) := by decide +kernel

set_option maxRecDepth 20000 in
theorem nist521p_run13 : mulLoop nist521p.curve (.aff nist521p.gx nist521p.gy none) (.aff nist521p.gx (-nist521p.gy) none) (3 * nist521p.order) nist521p.order 24 822752278660603021077484591278675252491367932816789931674304512
    (.aff 4022603386933372879415117817939403324695890019340183300346860936878284232166518109924991111380471862512461974226853070203476539919504540618017522511165889425 4724884343749886683511869385498091310329606185679573725734133328598063476715018500883845411820405681744005458787394482715676413042322894491698435509398019869 none) = .ok (.aff 781718593059292686480807574210115150841655359829820522876241085067132410381369691705615400354684300302326811374864084172779110261814285602340220033393355343 3833060867784866534142871328202786534162972035120207867747437638373106041316383756992566820434629809937803690647051948868767161863945844642861269585431951590 none) := by decide +kernel

set_option maxRecDepth 20000 in
theorem nist521p_run14 : mulLoop nist521p.curve (.aff nist521p.gx nist521p.gy none) (.aff nist521p.gx (-nist521p.gy) none) (3 * nist521p.order) nist521p.order 24 49039857307708443467467104868809893875799651909875269632
    (.aff 781718593059292686480807574210115150841655359829820522876241085067132410381369691705615400354684300302326811374864084172779110261814285602340220033393355343 3833060867784866534142871328202786534162972035120207867747437638373106041316383756992566820434629809937803690647051948868767161863945844642861269585431951590 none) = .ok (.aff 1439770456539463702618057488111251724217138264940749473316135070362237558824910138807952777996947523518754394398867183640632708213800753179398379113838224011 4538042711518369258693963109726192862098932695443728436163196934792527384704875458338224663600532215612285088958683888883246471749448568210480637313884097126 none) := by decide +kernel

set_option maxRecDepth 20000 in
theorem nist521p_run15 : mulLoop nist521p.curve (.aff nist521p.gx nist521p.gy none) (.aff nist521p.gx (-nist521p.gy) none) (3 * nist521p.order) nist521p.order 24 2923003274661805836407369665432566039311865085952
    (.aff 1439770456539463702618057488111251724217138264940749473316135070362237558824910138807952777996947523518754394398867183640632708213800753179398379113838224011 4538042711518369258693963109726192862098932695443728436163196934792527384704875458338224663600532215612285088958683888883246471749448568210480637313884097126 none) = .ok (.aff 6125991479253047349442485263006471834083498910624137617982761262515240209290580219047202372473675157755710648577326388635328027803787576832914441894372445454 3390923730119086324911504109688091223281709750582015891180677712410655095376159793662530930300297246631682434917149847885023064808054425024290557458737458147 none) := by decide +kernel

set_option maxRecDepth 20000 in
theorem nist521p_run16 : mulLoop nist521p.curve (.aff nist521p.gx nist521p.gy none) (.aff nist521p.gx (-nist521p.gy) none) (3 * nist521p.order) nist521p.order 24 174224571863520493293247799005065324265472
    (.aff 6125991479253047349442485263006471834083498910624137617982761262515240209290580219047202372473675157755710648577326388635328027803787576832914441894372445454 3390923730119086324911504109688091223281709750582015891180677712410655095376159793662530930300297246631682434917149847885023064808054425024290557458737458147 none) = .ok (.aff 1327466809237869317360277295054699879944652863827185123708963102027612335048855727876041209403232072917248728219407802230356166193949194613955413357667942262 4659648262262433341923623361445174154769884203359008842515953914286074520861630377767374687532521139881125359361869041640041618458774987777512581223089494926 none) := by decide +kernel

set_option maxRecDepth 20000 in
theorem nist521p_run17 : mulLoop nist521p.curve (.aff nist521p.gx nist521p.gy none) (.aff nist521p.gx (-nist521p.gy) none) (3 * nist521p.order) nist521p.order 24 10384593717069655257060992658440192
    (.aff 1327466809237869317360277295054699879944652863827185123708963102027612335048855727876041209403232072917248728219407802230356166193949194613955413357667942262 4659648262262433341923623361445174154769884203359008842515953914286074520861630377767374687532521139881125359361869041640041618458774987777512581223089494926 none) = .ok (.aff 3824504756905413153863920023781249908270485793873209774842994784639310473298408561767139482747918175766945885740220267260335451677619765645135823806581416303 6756803854130612590425629347582410823606527479691651883563885945865078972587132099583142758085504144015065327079485706637768449773743532489187379558841645262 none) := by decide +kernel

set_option maxRecDepth 20000 in
theorem nist521p_run18 : mulLoop nist521p.curve (.aff nist521p.gx nist521p.gy none) (.aff nist521p.gx (-nist521p.gy) none) (3 * nist521p.order) nist521p.order 24 618970019642690137449562112
    (.aff 3824504756905413153863920023781249908270485793873209774842994784639310473298408561767139482747918175766945885740220267260335451677619765645135823806581416303 6756803854130612590425629347582410823606527479691651883563885945865078972587132099583142758085504144015065327079485706637768449773743532489187379558841645262 none) = .ok (.aff 2466434090074599376591951088332558008128871820663400861110320220273668720946195877732233273284538692377665955337267615477790943062159075037195847949820321605 2892857171551505764836209150768011158187639215391974624954248701008861656112163189416618135131024861756642417977654639665805368456161234088153705952868624214 none) := by decide +kernel

set_option maxRecDepth 20000 in
theorem nist521p_run19 : mulLoop nist521p.curve (.aff nist521p.gx nist521p.gy none) (.aff nist521p.gx (-nist521p.gy) none) (3 * nist521p.order) nist521p.order 24 36893488147419103232
    (.aff 2466434090074599376591951088332558008128871820663400861110320220273668720946195877732233273284538692377665955337267615477790943062159075037195847949820321605 2892857171551505764836209150768011158187639215391974624954248701008861656112163189416618135131024861756642417977654639665805368456161234088153705952868624214 none) = .ok (.aff 594037367919140242937365875789887419407273833613743604911883764200236747917820777372619485486684407630883590345914558292766437642052650997410265449048352315 685633976140666865574813973694635323755888690835591000645763926558115736180024920551274886561662816829641826915429241235665796905633848900641866300755910070 none) := by decide +kernel

set_option maxRecDepth 20000 in
theorem nist521p_run20 : mulLoop nist521p.curve (.aff nist521p.gx nist521p.gy none) (.aff nist521p.gx (-nist521p.gy) none) (3 * nist521p.order) nist521p.order 24 2199023255552
    (.aff 594037367919140242937365875789887419407273833613743604911883764200236747917820777372619485486684407630883590345914558292766437642052650997410265449048352315 685633976140666865574813973694635323755888690835591000645763926558115736180024920551274886561662816829641826915429241235665796905633848900641866300755910070 none) = .ok (.aff 5237641546767390616902332202131176330045133606685852464971362512336571862621203684085658666037590720721405847647907980885864860936037470998832428964327671670 701892636940504459600287774113111259476444355502520963556400948462532189542421656179795307495036325541901875842021947251936261355185285322120709731491307133 none) := by decide +kernel

set_option maxRecDepth 20000 in
theorem nist521p_run21 : mulLoop nist521p.curve (.aff nist521p.gx nist521p.gy none) (.aff nist521p.gx (-nist521p.gy) none) (3 * nist521p.order) nist521p.order 17 131072
    (.aff 5237641546767390616902332202131176330045133606685852464971362512336571862621203684085658666037590720721405847647907980885864860936037470998832428964327671670 701892636940504459600287774113111259476444355502520963556400948462532189542421656179795307495036325541901875842021947251936261355185285322120709731491307133 none) = .ok .inf := by decide +kernel

theorem nist521p_mul_order :
    EC.mul nist521p.curve (.aff nist521p.gx nist521p.gy none) (nist521p.order : Int) = .ok .inf := by
  refine (mul_start (i := 6864797660130609714981900799081393217269435300143305409394463459185543183397656052122559640661454554977296311391480858037121987999716643812574028291115057152) (by decide +kernel) (by decide +kernel) (by decide +kernel)).trans ?_
  refine (mulLoop_cut 24 6864797660130609714981900799081393217269435300143305409394463459185543183397656052122559640661454554977296311391480858037121987999716643812574028291115057128 (j := 409173825987017733751648712103449894027080255755383098685411421012016724550584319360408761540738019643860835515945008876152157068235674131666065948672) nist521p_run0 (by decide +kernel) (by decide +kernel)).trans ?_
  refine (mulLoop_cut 24 6864797660130609714981900799081393217269435300143305409394463459185543183397656052122559640661454554977296311391480858037121987999716643812574028291115057104 (j := 24388660549343689307668728357759111763660922989570087116087163747073216709529418907189891430183531024686147899385989241370687309994439728955392) nist521p_run1 (by decide +kernel) (by decide +kernel)).trans ?_
  refine (mulLoop_cut 24 6864797660130609714981900799081393217269435300143305409394463459185543183397656052122559640661454554977296311391480858037121987999716643812574028291115057080 (j := 1453677448591213781098647615776009068707282721374636120562980398361278576226795846652382101427527131121525043212532355867069203257229312) nist521p_run2 (by decide +kernel) (by decide +kernel)).trans ?_
  refine (mulLoop_cut 24 6864797660130609714981900799081393217269435300143305409394463459185543183397656052122559640661454554977296311391480858037121987999716643812574028291115057056 (j := 86645927941275464361825443254471365732388658605494267974077486894206915868925800719999200190754361815543475342543861619655442432) nist521p_run3 (by decide +kernel) (by decide +kernel)).trans ?_
  refine (mulLoop_cut 24 6864797660130609714981900799081393217269435300143305409394463459185543183397656052122559640661454554977296311391480858037121987999716643812574028291115057032 (j := 5164499756173817179311838344006023748659411585658447025661318713081295244033682389259290706560275662871806343945494986752) nist521p_run4 (by decide +kernel) (by decide +kernel)).trans ?_
  refine (mulLoop_cut 24 6864797660130609714981900799081393217269435300143305409394463459185543183397656052122559640661454554977296311391480858037121987999716643812574028291115057008 (j := 307828173409331868845930000782371982852185463050511302093346042220669701339821957901673955116288403443801781174272) nist521p_run5 (by decide +kernel) (by decide +kernel)).trans ?_
  refine (mulLoop_cut 24 6864797660130609714981900799081393217269435300143305409394463459185543183397656052122559640661454554977296311391480858037121987999716643812574028291115056984 (j := 18347988927920572092886567162416695526372519913346248989900710715095383008707878464560148424881005492436992) nist521p_run6 (by decide +kernel) (by decide +kernel)).trans ?_
  refine (mulLoop_cut 24 6864797660130609714981900799081393217269435300143305409394463459185543183397656052122559640661454554977296311391480858037121987999716643812574028291115056960 (j := 1093625362391505962186251113558810682676584715446606218212885303204976499599687961611756588511526912) nist521p_run7 (by decide +kernel) (by decide +kernel)).trans ?_
  refine (mulLoop_cut 24 6864797660130609714981900799081393217269435300143305409394463459185543183397656052122559640661454554977296311391480858037121987999716643812574028291115056936 (j := 65185151242703554760590262029100101153646988597309960020356494379340201592426774597868716032) nist521p_run8 (by decide +kernel) (by decide +kernel)).trans ?_
  refine (mulLoop_cut 24 6864797660130609714981900799081393217269435300143305409394463459185543183397656052122559640661454554977296311391480858037121987999716643812574028291115056912 (j := 3885337784451458141838923813647037813284813678104279042503624819477808570410416996352) nist521p_run9 (by decide +kernel) (by decide +kernel)).trans ?_
  refine (mulLoop_cut 24 6864797660130609714981900799081393217269435300143305409394463459185543183397656052122559640661454554977296311391480858037121987999716643812574028291115056888 (j := 231584178474632390847141970017375815706539969331281128078915168015826259279872) nist521p_run10 (by decide +kernel) (by decide +kernel)).trans ?_
  refine (mulLoop_cut 24 6864797660130609714981900799081393217269435300143305409394463459185543183397656052122559640661454554977296311391480858037121987999716643812574028291115056864 (j := 13803492693581127574869511724554050904902217944340773110325048447598592) nist521p_run11 (by decide +kernel) (by decide +kernel)).trans ?_
  refine (mulLoop_cut 24 6864797660130609714981900799081393217269435300143305409394463459185543183397656052122559640661454554977296311391480858037121987999716643812574028291115056840 (j := 822752278660603021077484591278675252491367932816789931674304512) nist521p_run12 (by decide +kernel) (by decide +kernel)).trans ?_
  refine (mulLoop_cut 24 6864797660130609714981900799081393217269435300143305409394463459185543183397656052122559640661454554977296311391480858037121987999716643812574028291115056816 (j := 49039857307708443467467104868809893875799651909875269632) nist521p_run13 (by decide +kernel) (by decide +kernel)).trans ?_
  refine (mulLoop_cut 24 6864797660130609714981900799081393217269435300143305409394463459185543183397656052122559640661454554977296311391480858037121987999716643812574028291115056792 (j := 2923003274661805836407369665432566039311865085952) nist521p_run14 (by decide +kernel) (by decide +kernel)).trans ?_
  refine (mulLoop_cut 24 6864797660130609714981900799081393217269435300143305409394463459185543183397656052122559640661454554977296311391480858037121987999716643812574028291115056768 (j := 174224571863520493293247799005065324265472) nist521p_run15 (by decide +kernel) (by decide +kernel)).trans ?_
  refine (mulLoop_cut 24 6864797660130609714981900799081393217269435300143305409394463459185543183397656052122559640661454554977296311391480858037121987999716643812574028291115056744 (j := 10384593717069655257060992658440192) nist521p_run16 (by decide +kernel) (by decide +kernel)).trans ?_
  refine (mulLoop_cut 24 6864797660130609714981900799081393217269435300143305409394463459185543183397656052122559640661454554977296311391480858037121987999716643812574028291115056720 (j := 618970019642690137449562112) nist521p_run17 (by decide +kernel) (by decide +kernel)).trans ?_
  refine (mulLoop_cut 24 6864797660130609714981900799081393217269435300143305409394463459185543183397656052122559640661454554977296311391480858037121987999716643812574028291115056696 (j := 36893488147419103232) nist521p_run18 (by decide +kernel) (by decide +kernel)).trans ?_
  refine (mulLoop_cut 24 6864797660130609714981900799081393217269435300143305409394463459185543183397656052122559640661454554977296311391480858037121987999716643812574028291115056672 (j := 2199023255552) nist521p_run19 (by decide +kernel) (by decide +kernel)).trans ?_
  refine (mulLoop_cut 24 6864797660130609714981900799081393217269435300143305409394463459185543183397656052122559640661454554977296311391480858037121987999716643812574028291115056648 (j := 131072) nist521p_run20 (by decide +kernel) (by decide +kernel)).trans ?_
  refine (mulLoop_cut 17 6864797660130609714981900799081393217269435300143305409394463459185543183397656052122559640661454554977296311391480858037121987999716643812574028291115056631 (j := 1) nist521p_run21 (by decide +kernel) (by decide +kernel)).trans ?_
  exact mulLoop_small _ _ _ _ _ _ _ _ (by decide)

end NBC.Ecdsa
