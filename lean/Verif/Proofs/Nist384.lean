import Verif.Proofs.MulChain

/-! # The order of the generator of nist384p, by the code's own multiplication

Written by tools/gen_order_chains.py. -/

namespace NBC.Ecdsa
open NBC EC

set_option maxRecDepth 20000 in
theorem nist384p_run0 : mulLoop nist384p.curve (.aff nist384p.gx nist384p.gy none) (.aff nist384p.gx (-nist384p.gy) none) (3 * nist384p.order) nist384p.order 24 39402006196394479212279040100143613805079739270465446667948293404245721771497210611414266254884915640806627990306816
    (.aff nist384p.gx nist384p.gy none) = .ok (.aff 9636572387781177453499860611504857568320947739540211646322768149944710525432015938813054753706747072709336338725030 21886594304841156047118025248002566442107252187126863254703921044336494334089483657682871441560919074961393812956183 none) := by decide +kernel

set_option maxRecDepth 20000 in
theorem nist384p_run1 : mulLoop nist384p.curve (.aff nist384p.gx nist384p.gy none) (.aff nist384p.gx (-nist384p.gy) none) (3 * nist384p.order) nist384p.order 24 2348542582773833227889480596789337027375682548908319870707290971532209025114608443463698998384768703031934976
    (.aff 9636572387781177453499860611504857568320947739540211646322768149944710525432015938813054753706747072709336338725030 21886594304841156047118025248002566442107252187126863254703921044336494334089483657682871441560919074961393812956183 none) = .ok (.aff 37187235674971787908695775350721576685516924331533939701911870839527781139409142879294397361061565970872423008004268 26839749256862393428491296778595193126409722279662416812975680470192796382809810909965979038803268190298951058674239 none) := by decide +kernel

set_option maxRecDepth 20000 in
theorem nist384p_run2 : mulLoop nist384p.curve (.aff nist384p.gx nist384p.gy none) (.aff nist384p.gx (-nist384p.gy) none) (3 * nist384p.order) nist384p.order 24 139984046386112763159840142535527767382602843577165595931249318810236991948760059086304843329475444736
    (.aff 37187235674971787908695775350721576685516924331533939701911870839527781139409142879294397361061565970872423008004268 26839749256862393428491296778595193126409722279662416812975680470192796382809810909965979038803268190298951058674239 none) = .ok (.aff 13832038254610010174195032180393609625077031204195729814281561268560694236755371053819733619627666508317366024272499 10021932468612289319371251896857049353433939339669676274336856471609199622216186939541630724542637566747173833252405 none) := by decide +kernel

set_option maxRecDepth 20000 in
theorem nist384p_run3 : mulLoop nist384p.curve (.aff nist384p.gx nist384p.gy none) (.aff nist384p.gx (-nist384p.gy) none) (3 * nist384p.order) nist384p.order 24 8343699359066055009355553539724812947666814540455674882605631280555545803830627148527195652096
    (.aff 13832038254610010174195032180393609625077031204195729814281561268560694236755371053819733619627666508317366024272499 10021932468612289319371251896857049353433939339669676274336856471609199622216186939541630724542637566747173833252405 none) = .ok (.aff 37739145519099240494355485371491535018112934687023977470151353812347135992146430333503594293821927784598962344698313 28600676456445523089155297581576458443203438601341183341889576836084152752135766383021735837334258070654236011032269 none) := by decide +kernel

set_option maxRecDepth 20000 in
theorem nist384p_run4 : mulLoop nist384p.curve (.aff nist384p.gx nist384p.gy none) (.aff nist384p.gx (-nist384p.gy) none) (3 * nist384p.order) nist384p.order 24 497323236409786642155382248146820840100456150797347717440463976893159497012533375533056
    (.aff 37739145519099240494355485371491535018112934687023977470151353812347135992146430333503594293821927784598962344698313 28600676456445523089155297581576458443203438601341183341889576836084152752135766383021735837334258070654236011032269 none) = .ok (.aff 20812416102456067146450936379889230311855018441650859616235488886697593770020070205180459610138161371741050389057633 12408212502625629569419536566103503956322986820141137400494539785677463665575920622682598973442619237034312905679593 none) := by decide +kernel

set_option maxRecDepth 20000 in
theorem nist384p_run5 : mulLoop nist384p.curve (.aff nist384p.gx nist384p.gy none) (.aff nist384p.gx (-nist384p.gy) none) (3 * nist384p.order) nist384p.order 24 29642774844752946028434172162224104410437116074403984394101141506025761187823616
    (.aff 20812416102456067146450936379889230311855018441650859616235488886697593770020070205180459610138161371741050389057633 12408212502625629569419536566103503956322986820141137400494539785677463665575920622682598973442619237034312905679593 none) = .ok (.aff 12059780239277012467036050361446776005316809679588975294490851862862939260445731423276921562895860686687911436215702 12687754779522248594352439089343809123937187030632784595472031610885545629990266410573982347986961626103235544694309 none) := by decide +kernel

set_option maxRecDepth 20000 in
theorem nist384p_run6 : mulLoop nist384p.curve (.aff nist384p.gx nist384p.gy none) (.aff nist384p.gx (-nist384p.gy) none) (3 * nist384p.order) nist384p.order 24 1766847064778384329583297500742918515827483896875618958121606201292619776
    (.aff 12059780239277012467036050361446776005316809679588975294490851862862939260445731423276921562895860686687911436215702 12687754779522248594352439089343809123937187030632784595472031610885545629990266410573982347986961626103235544694309 none) = .ok (.aff 27681458033825848608123052255359874345692449245835166220292328238102199392562351107185052184264329919340989069809282 18118043378983960084947988858265825976434252773243237591113212073609425223385526593036884300364659198837161247707268 none) := by decide +kernel

set_option maxRecDepth 20000 in
theorem nist384p_run7 : mulLoop nist384p.curve (.aff nist384p.gx nist384p.gy none) (.aff nist384p.gx (-nist384p.gy) none) (3 * nist384p.order) nist384p.order 24 105312291668557186697918027683670432318895095400549111254310977536
    (.aff 27681458033825848608123052255359874345692449245835166220292328238102199392562351107185052184264329919340989069809282 18118043378983960084947988858265825976434252773243237591113212073609425223385526593036884300364659198837161247707268 none) = .ok (.aff 29800439120167702428720262112386561543222335631694676980504248111652014238609811792419866255442967720336350192581971 3532803978117873830102656264949890445628401255995400571765748658786069872297730484192328444420680700225129231715393 none) := by decide +kernel

set_option maxRecDepth 20000 in
theorem nist384p_run8 : mulLoop nist384p.curve (.aff nist384p.gx nist384p.gy none) (.aff nist384p.gx (-nist384p.gy) none) (3 * nist384p.order) nist384p.order 24 6277101735386680763835789423207666416102355444464034512896
    (.aff 29800439120167702428720262112386561543222335631694676980504248111652014238609811792419866255442967720336350192581971 3532803978117873830102656264949890445628401255995400571765748658786069872297730484192328444420680700225129231715393 none) = .ok (.aff 4916508323468502686332886115319541459587422654429842865314036052893870642849063986093086564086380729957626138152284 621099304171334271911681630220998472693279606795122856726957675306030297254925455953321777979081024114530060285373 none) := by decide +kernel

set_option maxRecDepth 20000 in
theorem nist384p_run9 : mulLoop nist384p.curve (.aff nist384p.gx nist384p.gy none) (.aff nist384p.gx (-nist384p.gy) none) (3 * nist384p.order) nist384p.order 24 374144419156711147060143317175368453031918731001856
    (.aff 4916508323468502686332886115319541459587422654429842865314036052893870642849063986093086564086380729957626138152284 621099304171334271911681630220998472693279606795122856726957675306030297254925455953321777979081024114530060285373 none) = .ok (.aff 33227734633184743365052270836513364166380748869717836320722998992586907129320177934198622317119040179629792877711045 9114139603238090423016704353272184080589906417231361736539341148192498642403757011015390861060912125072769841420319 none) := by decide +kernel

set_option maxRecDepth 20000 in
theorem nist384p_run10 : mulLoop nist384p.curve (.aff nist384p.gx nist384p.gy none) (.aff nist384p.gx (-nist384p.gy) none) (3 * nist384p.order) nist384p.order 24 22300745198530623141535718272648361505980416
    (.aff 33227734633184743365052270836513364166380748869717836320722998992586907129320177934198622317119040179629792877711045 9114139603238090423016704353272184080589906417231361736539341148192498642403757011015390861060912125072769841420319 none) = .ok (.aff 35010192502406034280584389759706016718590359126126431333458688771589870834596009781086065595973475190699670931631803 14851286376379011517225010673841721183905132298064774996424411442467716753175213680554974914327667686700302491543519 none) := by decide +kernel

set_option maxRecDepth 20000 in
theorem nist384p_run11 : mulLoop nist384p.curve (.aff nist384p.gx nist384p.gy none) (.aff nist384p.gx (-nist384p.gy) none) (3 * nist384p.order) nist384p.order 24 1329227995784915872903807060280344576
    (.aff 35010192502406034280584389759706016718590359126126431333458688771589870834596009781086065595973475190699670931631803 14851286376379011517225010673841721183905132298064774996424411442467716753175213680554974914327667686700302491543519 none) = .ok (.aff 38322895929261921962876978807181415053555878101140905683759266214528001580633402523940270597185052623967692142317250 31943302152815288429753399353565890612021940775975034067361170837441034911048577317893579714082566151560340740912715 none) := by decide +kernel

set_option maxRecDepth 20000 in
theorem nist384p_run12 : mulLoop nist384p.curve (.aff nist384p.gx nist384p.gy none) (.aff nist384p.gx (-nist384p.gy) none) (3 * nist384p.order) nist384p.order 24 79228162514264337593543950336
    (.aff 38322895929261921962876978807181415053555878101140905683759266214528001580633402523940270597185052623967692142317250 31943302152815288429753399353565890612021940775975034067361170837441034911048577317893579714082566151560340740912715 none) = .ok (.aff 28067438515614383623998388621252578849047669284523936552620478635406006630239719377917079698061655310656701740781922 28000605978153579018844253578721630170916305606650797235692045211386292516338742194253210519978770436305588989915736 none) := by decide +kernel

set_option maxRecDepth 20000 in
theorem nist384p_run13 : mulLoop nist384p.curve (.aff nist384p.gx nist384p.gy none) (.aff nist384p.gx (-nist384p.gy) none) (3 * nist384p.order) nist384p.order 24 4722366482869645213696
    (.aff 28067438515614383623998388621252578849047669284523936552620478635406006630239719377917079698061655310656701740781922 28000605978153579018844253578721630170916305606650797235692045211386292516338742194253210519978770436305588989915736 none) = .ok (.aff 22573772656837705678362278159094650227786538136084515903118416868723535267470506489430071865140294437449474238806627 21400956108724395007803069188400574514899294290271920566559846369803359237934694625938326292520899293502445364054999 none) := by decide +kernel

set_option maxRecDepth 20000 in
theorem nist384p_run14 : mulLoop nist384p.curve (.aff nist384p.gx nist384p.gy none) (.aff nist384p.gx (-nist384p.gy) none) (3 * nist384p.order) nist384p.order 24 281474976710656
    (.aff 22573772656837705678362278159094650227786538136084515903118416868723535267470506489430071865140294437449474238806627 21400956108724395007803069188400574514899294290271920566559846369803359237934694625938326292520899293502445364054999 none) = .ok (.aff 15637472305384813683073102226959231600891025850839942334290790236433423966456286952759460800293258767148453512892757 25612755584631576415843724730634451371449902412098882438281516874901484892181692442499012696324695737252441025304901 none) := by decide +kernel

set_option maxRecDepth 20000 in
theorem nist384p_run15 : mulLoop nist384p.curve (.aff nist384p.gx nist384p.gy none) (.aff nist384p.gx (-nist384p.gy) none) (3 * nist384p.order) nist384p.order 24 16777216
    (.aff 15637472305384813683073102226959231600891025850839942334290790236433423966456286952759460800293258767148453512892757 25612755584631576415843724730634451371449902412098882438281516874901484892181692442499012696324695737252441025304901 none) = .ok .inf := by decide +kernel

theorem nist384p_mul_order :
    EC.mul nist384p.curve (.aff nist384p.gx nist384p.gy none) (nist384p.order : Int) = .ok .inf := by
  refine (mul_start (i := 39402006196394479212279040100143613805079739270465446667948293404245721771497210611414266254884915640806627990306816) (by decide +kernel) (by decide +kernel) (by decide +kernel)).trans ?_
  refine (mulLoop_cut 24 39402006196394479212279040100143613805079739270465446667948293404245721771497210611414266254884915640806627990306792 (j := 2348542582773833227889480596789337027375682548908319870707290971532209025114608443463698998384768703031934976) nist384p_run0 (by decide +kernel) (by decide +kernel)).trans ?_
  refine (mulLoop_cut 24 39402006196394479212279040100143613805079739270465446667948293404245721771497210611414266254884915640806627990306768 (j := 139984046386112763159840142535527767382602843577165595931249318810236991948760059086304843329475444736) nist384p_run1 (by decide +kernel) (by decide +kernel)).trans ?_
  refine (mulLoop_cut 24 39402006196394479212279040100143613805079739270465446667948293404245721771497210611414266254884915640806627990306744 (j := 8343699359066055009355553539724812947666814540455674882605631280555545803830627148527195652096) nist384p_run2 (by decide +kernel) (by decide +kernel)).trans ?_
  refine (mulLoop_cut 24 39402006196394479212279040100143613805079739270465446667948293404245721771497210611414266254884915640806627990306720 (j := 497323236409786642155382248146820840100456150797347717440463976893159497012533375533056) nist384p_run3 (by decide +kernel) (by decide +kernel)).trans ?_
  refine (mulLoop_cut 24 39402006196394479212279040100143613805079739270465446667948293404245721771497210611414266254884915640806627990306696 (j := 29642774844752946028434172162224104410437116074403984394101141506025761187823616) nist384p_run4 (by decide +kernel) (by decide +kernel)).trans ?_
  refine (mulLoop_cut 24 39402006196394479212279040100143613805079739270465446667948293404245721771497210611414266254884915640806627990306672 (j := 1766847064778384329583297500742918515827483896875618958121606201292619776) nist384p_run5 (by decide +kernel) (by decide +kernel)).trans ?_
  refine (mulLoop_cut 24 39402006196394479212279040100143613805079739270465446667948293404245721771497210611414266254884915640806627990306648 (j := 105312291668557186697918027683670432318895095400549111254310977536) nist384p_run6 (by decide +kernel) (by decide +kernel)).trans ?_
  refine (mulLoop_cut 24 39402006196394479212279040100143613805079739270465446667948293404245721771497210611414266254884915640806627990306624 (j := 6277101735386680763835789423207666416102355444464034512896) nist384p_run7 (by decide +kernel) (by decide +kernel)).trans ?_
  refine (mulLoop_cut 24 39402006196394479212279040100143613805079739270465446667948293404245721771497210611414266254884915640806627990306600 (j := 374144419156711147060143317175368453031918731001856) nist384p_run8 (by decide +kernel) (by decide +kernel)).trans ?_
  refine (mulLoop_cut 24 39402006196394479212279040100143613805079739270465446667948293404245721771497210611414266254884915640806627990306576 (j := 22300745198530623141535718272648361505980416) nist384p_run9 (by decide +kernel) (by decide +kernel)).trans ?_
  refine (mulLoop_cut 24 39402006196394479212279040100143613805079739270465446667948293404245721771497210611414266254884915640806627990306552 (j := 1329227995784915872903807060280344576) nist384p_run10 (by decide +kernel) (by decide +kernel)).trans ?_
  refine (mulLoop_cut 24 39402006196394479212279040100143613805079739270465446667948293404245721771497210611414266254884915640806627990306528 (j := 79228162514264337593543950336) nist384p_run11 (by decide +kernel) (by decide +kernel)).trans ?_
  refine (mulLoop_cut 24 39402006196394479212279040100143613805079739270465446667948293404245721771497210611414266254884915640806627990306504 (j := 4722366482869645213696) nist384p_run12 (by decide +kernel) (by decide +kernel)).trans ?_
  refine (mulLoop_cut 24 39402006196394479212279040100143613805079739270465446667948293404245721771497210611414266254884915640806627990306480 (j := 281474976710656) nist384p_run13 (by decide +kernel) (by decide +kernel)).trans ?_
  refine (mulLoop_cut 24 39402006196394479212279040100143613805079739270465446667948293404245721771497210611414266254884915640806627990306456 (j := 16777216) nist384p_run14 (by decide +kernel) (by decide +kernel)).trans ?_
  refine (mulLoop_cut 24 39402006196394479212279040100143613805079739270465446667948293404245721771497210611414266254884915640806627990306432 (j := 1) nist384p_run15 (by decide +kernel) (by decide +kernel)).trans ?_
  exact mulLoop_small _ _ _ _ _ _ _ _ (by decide)

end NBC.Ecdsa
