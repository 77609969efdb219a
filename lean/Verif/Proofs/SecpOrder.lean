import Verif.Proofs.MulChain

/-! # The order of the generator of secp256k1, by the code's own multiplication

Written by tools/gen_order_chains.py. -/

namespace NBC.Ecdsa
open NBC EC

set_option maxRecDepth 20000 in
theorem secp256k1_run0 : mulLoop secp256k1.curve (.aff secp256k1.gx secp256k1.gy none) (.aff secp256k1.gx (-secp256k1.gy) none) (3 * secp256k1.order) secp256k1.order 24 115792089237316195423570985008687907853269984665640564039457584007913129639936
    (.aff secp256k1.gx secp256k1.gy none) = .ok (.aff 51670963786757573841189746283202124387362261809800652891978209018731111316698 68257551575553566084241009552849606333781498777275567535225153774080710909791 none) := by decide +kernel

set_option maxRecDepth 20000 in
theorem secp256k1_run1 : mulLoop secp256k1.curve (.aff secp256k1.gx secp256k1.gy none) (.aff secp256k1.gx (-secp256k1.gy) none) (3 * secp256k1.order) secp256k1.order 24 6901746346790563787434755862277025452451108972170386555162524223799296
    (.aff 51670963786757573841189746283202124387362261809800652891978209018731111316698 68257551575553566084241009552849606333781498777275567535225153774080710909791 none) = .ok (.aff 37796942232071066358676457518924870482193007026528914004372298991835746383808 41500641220791808004786750540350768710904110215016898096683828744807363604936 none) := by decide +kernel

set_option maxRecDepth 20000 in
theorem secp256k1_run2 : mulLoop secp256k1.curve (.aff secp256k1.gx secp256k1.gy none) (.aff secp256k1.gx (-secp256k1.gy) none) (3 * secp256k1.order) secp256k1.order 24 411376139330301510538742295639337626245683966408394965837152256
    (.aff 37796942232071066358676457518924870482193007026528914004372298991835746383808 41500641220791808004786750540350768710904110215016898096683828744807363604936 none) = .ok (.aff 4199350326672760747807816527418159685216655440503240677878553304602602121738 37834176166477149356292507688627259926034564110824553771704962901036071708041 none) := by decide +kernel

set_option maxRecDepth 20000 in
theorem secp256k1_run3 : mulLoop secp256k1.curve (.aff secp256k1.gx secp256k1.gy none) (.aff secp256k1.gx (-secp256k1.gy) none) (3 * secp256k1.order) secp256k1.order 24 24519928653854221733733552434404946937899825954937634816
    (.aff 4199350326672760747807816527418159685216655440503240677878553304602602121738 37834176166477149356292507688627259926034564110824553771704962901036071708041 none) = .ok (.aff 115183067000797961901920784023024616254245272923307973061240480176353201301430 49763971281659542105744668679966078286699279184665337082856648066049033156975 none) := by decide +kernel

set_option maxRecDepth 20000 in
theorem secp256k1_run4 : mulLoop secp256k1.curve (.aff secp256k1.gx secp256k1.gy none) (.aff secp256k1.gx (-secp256k1.gy) none) (3 * secp256k1.order) secp256k1.order 24 1461501637330902918203684832716283019655932542976
    (.aff 115183067000797961901920784023024616254245272923307973061240480176353201301430 49763971281659542105744668679966078286699279184665337082856648066049033156975 none) = .ok (.aff 73729489189146206306669255701359614973467519172738994441001234600131693731952 52215583774525796109567946288556659634043653399932078971590626905269875474081 none) := by decide +kernel

set_option maxRecDepth 20000 in
theorem secp256k1_run5 : mulLoop secp256k1.curve (.aff secp256k1.gx secp256k1.gy none) (.aff secp256k1.gx (-secp256k1.gy) none) (3 * secp256k1.order) secp256k1.order 24 87112285931760246646623899502532662132736
    (.aff 73729489189146206306669255701359614973467519172738994441001234600131693731952 52215583774525796109567946288556659634043653399932078971590626905269875474081 none) = .ok (.aff 90950456066948655616406534541155017122514075037888830175231256314356540520282 29967765680816686291576513240220269046607310991069799889230755616872714221533 none) := by decide +kernel

set_option maxRecDepth 20000 in
theorem secp256k1_run6 : mulLoop secp256k1.curve (.aff secp256k1.gx secp256k1.gy none) (.aff secp256k1.gx (-secp256k1.gy) none) (3 * secp256k1.order) secp256k1.order 24 5192296858534827628530496329220096
    (.aff 90950456066948655616406534541155017122514075037888830175231256314356540520282 29967765680816686291576513240220269046607310991069799889230755616872714221533 none) = .ok (.aff 26350209081013120674735201011644298446887875744908933420591969660546902140305 46381886268604108628367729865296031646043786933678222182103524894861734393770 none) := by decide +kernel

set_option maxRecDepth 20000 in
theorem secp256k1_run7 : mulLoop secp256k1.curve (.aff secp256k1.gx secp256k1.gy none) (.aff secp256k1.gx (-secp256k1.gy) none) (3 * secp256k1.order) secp256k1.order 24 309485009821345068724781056
    (.aff 26350209081013120674735201011644298446887875744908933420591969660546902140305 46381886268604108628367729865296031646043786933678222182103524894861734393770 none) = .ok (.aff 82838358327608195493097452201955099055567103896013261072736737159275078988753 50192689680740335989183727182194403286358228424919610509119542086285099714630 none) := by decide +kernel

set_option maxRecDepth 20000 in
theorem secp256k1_run8 : mulLoop secp256k1.curve (.aff secp256k1.gx secp256k1.gy none) (.aff secp256k1.gx (-secp256k1.gy) none) (3 * secp256k1.order) secp256k1.order 24 18446744073709551616
    (.aff 82838358327608195493097452201955099055567103896013261072736737159275078988753 50192689680740335989183727182194403286358228424919610509119542086285099714630 none) = .ok (.aff 68767323252525989285442623759883128600043375380431368050047815095147376753424 13618304609848439202123143871544034744741388227688727342095650882191752745504 none) := by decide +kernel

set_option maxRecDepth 20000 in
theorem secp256k1_run9 : mulLoop secp256k1.curve (.aff secp256k1.gx secp256k1.gy none) (.aff secp256k1.gx (-secp256k1.gy) none) (3 * secp256k1.order) secp256k1.order 24 1099511627776
    (.aff 68767323252525989285442623759883128600043375380431368050047815095147376753424 13618304609848439202123143871544034744741388227688727342095650882191752745504 none) = .ok (.aff 59391522668249385334376009645687768472252124611035097846394708269882073284523 106808109526191560568067197676741812315022724890485712949545067320012236917940 none) := by decide +kernel

set_option maxRecDepth 20000 in
theorem secp256k1_run10 : mulLoop secp256k1.curve (.aff secp256k1.gx secp256k1.gy none) (.aff secp256k1.gx (-secp256k1.gy) none) (3 * secp256k1.order) secp256k1.order 16 65536
    (.aff 59391522668249385334376009645687768472252124611035097846394708269882073284523 106808109526191560568067197676741812315022724890485712949545067320012236917940 none) = .ok .inf := by decide +kernel

theorem secp256k1_mul_order :
    EC.mul secp256k1.curve (.aff secp256k1.gx secp256k1.gy none) (secp256k1.order : Int) = .ok .inf := by
  refine (mul_start (i := 115792089237316195423570985008687907853269984665640564039457584007913129639936) (by decide +kernel) (by decide +kernel) (by decide +kernel)).trans ?_
  refine (mulLoop_cut 24 115792089237316195423570985008687907853269984665640564039457584007913129639912 (j := 6901746346790563787434755862277025452451108972170386555162524223799296) secp256k1_run0 (by decide +kernel) (by decide +kernel)).trans ?_
  refine (mulLoop_cut 24 115792089237316195423570985008687907853269984665640564039457584007913129639888 (j := 411376139330301510538742295639337626245683966408394965837152256) secp256k1_run1 (by decide +kernel) (by decide +kernel)).trans ?_
  refine (mulLoop_cut 24 115792089237316195423570985008687907853269984665640564039457584007913129639864 (j := 24519928653854221733733552434404946937899825954937634816) secp256k1_run2 (by decide +kernel) (by decide +kernel)).trans ?_
  refine (mulLoop_cut 24 115792089237316195423570985008687907853269984665640564039457584007913129639840 (j := 1461501637330902918203684832716283019655932542976) secp256k1_run3 (by decide +kernel) (by decide +kernel)).trans ?_
  refine (mulLoop_cut 24 115792089237316195423570985008687907853269984665640564039457584007913129639816 (j := 87112285931760246646623899502532662132736) secp256k1_run4 (by decide +kernel) (by decide +kernel)).trans ?_
  refine (mulLoop_cut 24 115792089237316195423570985008687907853269984665640564039457584007913129639792 (j := 5192296858534827628530496329220096) secp256k1_run5 (by decide +kernel) (by decide +kernel)).trans ?_
  refine (mulLoop_cut 24 115792089237316195423570985008687907853269984665640564039457584007913129639768 (j := 309485009821345068724781056) secp256k1_run6 (by decide +kernel) (by decide +kernel)).trans ?_
  refine (mulLoop_cut 24 115792089237316195423570985008687907853269984665640564039457584007913129639744 (j := 18446744073709551616) secp256k1_run7 (by decide +kernel) (by decide +kernel)).trans ?_
  refine (mulLoop_cut 24 115792089237316195423570985008687907853269984665640564039457584007913129639720 (j := 1099511627776) secp256k1_run8 (by decide +kernel) (by decide +kernel)).trans ?_
  refine (mulLoop_cut 24 115792089237316195423570985008687907853269984665640564039457584007913129639696 (j := 65536) secp256k1_run9 (by decide +kernel) (by decide +kernel)).trans ?_
  refine (mulLoop_cut 16 115792089237316195423570985008687907853269984665640564039457584007913129639680 (j := 1) secp256k1_run10 (by decide +kernel) (by decide +kernel)).trans ?_
  exact mulLoop_small _ _ _ _ _ _ _ _ (by decide)

end NBC.Ecdsa
