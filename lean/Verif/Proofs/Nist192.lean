import Verif.Proofs.MulChain

/-! # The order of the generator of nist192p, by the code's own multiplication

Written by tools/gen_order_chains.py. -/

namespace NBC.Ecdsa
open NBC EC

set_option maxRecDepth 20000 in
theorem nist192p_run0 : mulLoop nist192p.curve (.aff nist192p.gx nist192p.gy none) (.aff nist192p.gx (-nist192p.gy) none) (3 * nist192p.order) nist192p.order 24 6277101735386680763835789423207666416102355444464034512896
    (.aff nist192p.gx nist192p.gy none) = .ok (.aff 238434597665502788882039093165072247766180964513109712951 3077330796123240432124369692506049720697175846603098692301 none) := by decide +kernel

set_option maxRecDepth 20000 in
theorem nist192p_run1 : mulLoop nist192p.curve (.aff nist192p.gx nist192p.gy none) (.aff nist192p.gx (-nist192p.gy) none) (3 * nist192p.order) nist192p.order 24 374144419156711147060143317175368453031918731001856
    (.aff 238434597665502788882039093165072247766180964513109712951 3077330796123240432124369692506049720697175846603098692301 none) = .ok (.aff 2547299698952495952418912681194195963150468882469333256408 4148971933480170495509863748743884238391237674530829745789 none) := by decide +kernel

set_option maxRecDepth 20000 in
theorem nist192p_run2 : mulLoop nist192p.curve (.aff nist192p.gx nist192p.gy none) (.aff nist192p.gx (-nist192p.gy) none) (3 * nist192p.order) nist192p.order 24 22300745198530623141535718272648361505980416
    (.aff 2547299698952495952418912681194195963150468882469333256408 4148971933480170495509863748743884238391237674530829745789 none) = .ok (.aff 4636078802699157279999233813479267422045036002872720391139 4221626958255668545997064792404457381875208463767146107265 none) := by decide +kernel

set_option maxRecDepth 20000 in
theorem nist192p_run3 : mulLoop nist192p.curve (.aff nist192p.gx nist192p.gy none) (.aff nist192p.gx (-nist192p.gy) none) (3 * nist192p.order) nist192p.order 24 1329227995784915872903807060280344576
    (.aff 4636078802699157279999233813479267422045036002872720391139 4221626958255668545997064792404457381875208463767146107265 none) = .ok (.aff 2001966663141981343627664962418892968058151998268677153600 2252013753217366475943237410412145013382707956397681218213 none) := by decide +kernel

set_option maxRecDepth 20000 in
theorem nist192p_run4 : mulLoop nist192p.curve (.aff nist192p.gx nist192p.gy none) (.aff nist192p.gx (-nist192p.gy) none) (3 * nist192p.order) nist192p.order 24 79228162514264337593543950336
    (.aff 2001966663141981343627664962418892968058151998268677153600 2252013753217366475943237410412145013382707956397681218213 none) = .ok (.aff 1431884718505023537294013015956888661167545571683769347560 333224893491091312460387536902637767271257364673918736437 none) := by decide +kernel

set_option maxRecDepth 20000 in
theorem nist192p_run5 : mulLoop nist192p.curve (.aff nist192p.gx nist192p.gy none) (.aff nist192p.gx (-nist192p.gy) none) (3 * nist192p.order) nist192p.order 24 4722366482869645213696
    (.aff 1431884718505023537294013015956888661167545571683769347560 333224893491091312460387536902637767271257364673918736437 none) = .ok (.aff 5026241943852504688250102722581702671847884713807898714976 224160364734034654097832500301365948548808944774699440187 none) := by decide +kernel

set_option maxRecDepth 20000 in
theorem nist192p_run6 : mulLoop nist192p.curve (.aff nist192p.gx nist192p.gy none) (.aff nist192p.gx (-nist192p.gy) none) (3 * nist192p.order) nist192p.order 24 281474976710656
    (.aff 5026241943852504688250102722581702671847884713807898714976 224160364734034654097832500301365948548808944774699440187 none) = .ok (.aff 535201517506638088514900234758806332910950398371287356777 510878770461534125595265282124049189201869662352736240577 none) := by decide +kernel

set_option maxRecDepth 20000 in
theorem nist192p_run7 : mulLoop nist192p.curve (.aff nist192p.gx nist192p.gy none) (.aff nist192p.gx (-nist192p.gy) none) (3 * nist192p.order) nist192p.order 24 16777216
    (.aff 535201517506638088514900234758806332910950398371287356777 510878770461534125595265282124049189201869662352736240577 none) = .ok .inf := by decide +kernel

theorem nist192p_mul_order :
    EC.mul nist192p.curve (.aff nist192p.gx nist192p.gy none) (nist192p.order : Int) = .ok .inf := by
  refine (mul_start (i := 6277101735386680763835789423207666416102355444464034512896) (by decide +kernel) (by decide +kernel) (by decide +kernel)).trans ?_
  refine (mulLoop_cut 24 6277101735386680763835789423207666416102355444464034512872 (j := 374144419156711147060143317175368453031918731001856) nist192p_run0 (by decide +kernel) (by decide +kernel)).trans ?_
  refine (mulLoop_cut 24 6277101735386680763835789423207666416102355444464034512848 (j := 22300745198530623141535718272648361505980416) nist192p_run1 (by decide +kernel) (by decide +kernel)).trans ?_
  refine (mulLoop_cut 24 6277101735386680763835789423207666416102355444464034512824 (j := 1329227995784915872903807060280344576) nist192p_run2 (by decide +kernel) (by decide +kernel)).trans ?_
  refine (mulLoop_cut 24 6277101735386680763835789423207666416102355444464034512800 (j := 79228162514264337593543950336) nist192p_run3 (by decide +kernel) (by decide +kernel)).trans ?_
  refine (mulLoop_cut 24 6277101735386680763835789423207666416102355444464034512776 (j := 4722366482869645213696) nist192p_run4 (by decide +kernel) (by decide +kernel)).trans ?_
  refine (mulLoop_cut 24 6277101735386680763835789423207666416102355444464034512752 (j := 281474976710656) nist192p_run5 (by decide +kernel) (by decide +kernel)).trans ?_
  refine (mulLoop_cut 24 6277101735386680763835789423207666416102355444464034512728 (j := 16777216) nist192p_run6 (by decide +kernel) (by decide +kernel)).trans ?_
  refine (mulLoop_cut 24 6277101735386680763835789423207666416102355444464034512704 (j := 1) nist192p_run7 (by decide +kernel) (by decide +kernel)).trans ?_
  exact mulLoop_small _ _ _ _ _ _ _ _ (by decide)

end NBC.Ecdsa
