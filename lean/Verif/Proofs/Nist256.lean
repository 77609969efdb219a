import Verif.Proofs.MulChain

/-! # The order of the generator of nist256p, by the code's own multiplication

Written by tools/gen_order_chains.py. -/

namespace NBC.Ecdsa
open NBC EC

set_option maxRecDepth 20000 in
theorem nist256p_run0 : mulLoop nist256p.curve (.aff nist256p.gx nist256p.gy none) (.aff nist256p.gx (-nist256p.gy) none) (3 * nist256p.order) nist256p.order 24 115792089237316195423570985008687907853269984665640564039457584007913129639936
    (.aff nist256p.gx nist256p.gy none) = .ok (.aff 112607987952473600112633811304579709354947280056396786048007260552010776369157 103808385594532261808417197518044123929568276946600525334048096014844982592250 none) := by decide +kernel

set_option maxRecDepth 20000 in
theorem nist256p_run1 : mulLoop nist256p.curve (.aff nist256p.gx nist256p.gy none) (.aff nist256p.gx (-nist256p.gy) none) (3 * nist256p.order) nist256p.order 24 6901746346790563787434755862277025452451108972170386555162524223799296
    (.aff 112607987952473600112633811304579709354947280056396786048007260552010776369157 103808385594532261808417197518044123929568276946600525334048096014844982592250 none) = .ok (.aff 109588424816090538885093160628364655428517118218400121296829432697232479719971 52307477765675135970886943883631864339115510512956737803804564363777923625000 none) := by decide +kernel

set_option maxRecDepth 20000 in
theorem nist256p_run2 : mulLoop nist256p.curve (.aff nist256p.gx nist256p.gy none) (.aff nist256p.gx (-nist256p.gy) none) (3 * nist256p.order) nist256p.order 24 411376139330301510538742295639337626245683966408394965837152256
    (.aff 109588424816090538885093160628364655428517118218400121296829432697232479719971 52307477765675135970886943883631864339115510512956737803804564363777923625000 none) = .ok (.aff 29009774005509710553864916771062748922409450527742375970544339530923217004895 24448431323649535723152766740817444779958817164272091288953403837111019410324 none) := by decide +kernel

set_option maxRecDepth 20000 in
theorem nist256p_run3 : mulLoop nist256p.curve (.aff nist256p.gx nist256p.gy none) (.aff nist256p.gx (-nist256p.gy) none) (3 * nist256p.order) nist256p.order 24 24519928653854221733733552434404946937899825954937634816
    (.aff 29009774005509710553864916771062748922409450527742375970544339530923217004895 24448431323649535723152766740817444779958817164272091288953403837111019410324 none) = .ok (.aff 3414753254379199030119738725231823795219601845886950848197695696739939915069 97888941727107545247703503344013314544895312591550389105546194316228384420416 none) := by decide +kernel

set_option maxRecDepth 20000 in
theorem nist256p_run4 : mulLoop nist256p.curve (.aff nist256p.gx nist256p.gy none) (.aff nist256p.gx (-nist256p.gy) none) (3 * nist256p.order) nist256p.order 24 1461501637330902918203684832716283019655932542976
    (.aff 3414753254379199030119738725231823795219601845886950848197695696739939915069 97888941727107545247703503344013314544895312591550389105546194316228384420416 none) = .ok (.aff 80744802822452416715448040711225943811190050382078969694390973408790257038340 12786597033004645628299202062629220819255276600481361940328231095893887820932 none) := by decide +kernel

set_option maxRecDepth 20000 in
theorem nist256p_run5 : mulLoop nist256p.curve (.aff nist256p.gx nist256p.gy none) (.aff nist256p.gx (-nist256p.gy) none) (3 * nist256p.order) nist256p.order 24 87112285931760246646623899502532662132736
    (.aff 80744802822452416715448040711225943811190050382078969694390973408790257038340 12786597033004645628299202062629220819255276600481361940328231095893887820932 none) = .ok (.aff 77943297217249664808216603611167933421830419294617349190303166090332352729277 33649547453656831794867055761010849091504049056032909083281343800434501739049 none) := by decide +kernel

set_option maxRecDepth 20000 in
theorem nist256p_run6 : mulLoop nist256p.curve (.aff nist256p.gx nist256p.gy none) (.aff nist256p.gx (-nist256p.gy) none) (3 * nist256p.order) nist256p.order 24 5192296858534827628530496329220096
    (.aff 77943297217249664808216603611167933421830419294617349190303166090332352729277 33649547453656831794867055761010849091504049056032909083281343800434501739049 none) = .ok (.aff 94703641072739546673642392909775703517117816126078559554590631629293671112084 44030134307828451019369041256269027862022696881353797329118104720094176288368 none) := by decide +kernel

set_option maxRecDepth 20000 in
theorem nist256p_run7 : mulLoop nist256p.curve (.aff nist256p.gx nist256p.gy none) (.aff nist256p.gx (-nist256p.gy) none) (3 * nist256p.order) nist256p.order 24 309485009821345068724781056
    (.aff 94703641072739546673642392909775703517117816126078559554590631629293671112084 44030134307828451019369041256269027862022696881353797329118104720094176288368 none) = .ok (.aff 105880834043787840983722550244787092198093991694095258784718935319428296565044 66902032153344700094858498865263135722868071258169090051196716629922552315227 none) := by decide +kernel

set_option maxRecDepth 20000 in
theorem nist256p_run8 : mulLoop nist256p.curve (.aff nist256p.gx nist256p.gy none) (.aff nist256p.gx (-nist256p.gy) none) (3 * nist256p.order) nist256p.order 24 18446744073709551616
    (.aff 105880834043787840983722550244787092198093991694095258784718935319428296565044 66902032153344700094858498865263135722868071258169090051196716629922552315227 none) = .ok (.aff 67309699573579263893130509925291411322816659397050604015751478220654647741239 52883335038660816555582975987725325450438792596378691775556417828526744392568 none) := by decide +kernel

set_option maxRecDepth 20000 in
theorem nist256p_run9 : mulLoop nist256p.curve (.aff nist256p.gx nist256p.gy none) (.aff nist256p.gx (-nist256p.gy) none) (3 * nist256p.order) nist256p.order 24 1099511627776
    (.aff 67309699573579263893130509925291411322816659397050604015751478220654647741239 52883335038660816555582975987725325450438792596378691775556417828526744392568 none) = .ok (.aff 80282742286740886701420613645070437419798084593121114001718904087019081745316 85643353520939436462808928856837217363622791613368701251100813458379994411209 none) := by decide +kernel

set_option maxRecDepth 20000 in
theorem nist256p_run10 : mulLoop nist256p.curve (.aff nist256p.gx nist256p.gy none) (.aff nist256p.gx (-nist256p.gy) none) (3 * nist256p.order) nist256p.order 16 65536
    (.aff 80282742286740886701420613645070437419798084593121114001718904087019081745316 85643353520939436462808928856837217363622791613368701251100813458379994411209 none) = .ok .inf := by decide +kernel

theorem nist256p_mul_order :
    EC.mul nist256p.curve (.aff nist256p.gx nist256p.gy none) (nist256p.order : Int) = .ok .inf := by
  refine (mul_start (i := 115792089237316195423570985008687907853269984665640564039457584007913129639936) (by decide +kernel) (by decide +kernel) (by decide +kernel)).trans ?_
  refine (mulLoop_cut 24 115792089237316195423570985008687907853269984665640564039457584007913129639912 (j := 6901746346790563787434755862277025452451108972170386555162524223799296) nist256p_run0 (by decide +kernel) (by decide +kernel)).trans ?_
  refine (mulLoop_cut 24 115792089237316195423570985008687907853269984665640564039457584007913129639888 (j := 411376139330301510538742295639337626245683966408394965837152256) nist256p_run1 (by decide +kernel) (by decide +kernel)).trans ?_
  refine (mulLoop_cut 24 115792089237316195423570985008687907853269984665640564039457584007913129639864 (j := 24519928653854221733733552434404946937899825954937634816) nist256p_run2 (by decide +kernel) (by decide +kernel)).trans ?_
  refine (mulLoop_cut 24 115792089237316195423570985008687907853269984665640564039457584007913129639840 (j := 1461501637330902918203684832716283019655932542976) nist256p_run3 (by decide +kernel) (by decide +kernel)).trans ?_
  refine (mulLoop_cut 24 115792089237316195423570985008687907853269984665640564039457584007913129639816 (j := 87112285931760246646623899502532662132736) nist256p_run4 (by decide +kernel) (by decide +kernel)).trans ?_
  refine (mulLoop_cut 24 115792089237316195423570985008687907853269984665640564039457584007913129639792 (j := 5192296858534827628530496329220096) nist256p_run5 (by decide +kernel) (by decide +kernel)).trans ?_
  refine (mulLoop_cut 24 115792089237316195423570985008687907853269984665640564039457584007913129639768 (j := 309485009821345068724781056) nist256p_run6 (by decide +kernel) (by decide +kernel)).trans ?_
  refine (mulLoop_cut 24 115792089237316195423570985008687907853269984665640564039457584007913129639744 (j := 18446744073709551616) nist256p_run7 (by decide +kernel) (by decide +kernel)).trans ?_
  refine (mulLoop_cut 24 115792089237316195423570985008687907853269984665640564039457584007913129639720 (j := 1099511627776) nist256p_run8 (by decide +kernel) (by decide +kernel)).trans ?_
  refine (mulLoop_cut 24 115792089237316195423570985008687907853269984665640564039457584007913129639696 (j := 65536) nist256p_run9 (by decide +kernel) (by decide +kernel)).trans ?_
  refine (mulLoop_cut 16 115792089237316195423570985008687907853269984665640564039457584007913129639680 (j := 1) nist256p_run10 (by decide +kernel) (by decide +kernel)).trans ?_
  exact mulLoop_small _ _ _ _ _ _ _ _ (by decide)

end NBC.Ecdsa
