import Verif.Proofs.MulChain

/-! # The order of the generator of nist224p, by the code's own multiplication

Written by tools/gen_order_chains.py. -/

namespace NBC.Ecdsa
open NBC EC

set_option maxRecDepth 20000 in
theorem nist224p_run0 : mulLoop nist224p.curve (.aff nist224p.gx nist224p.gy none) (.aff nist224p.gx (-nist224p.gy) none) (3 * nist224p.order) nist224p.order 24 26959946667150639794667015087019630673637144422540572481103610249216
    (.aff nist224p.gx nist224p.gy none) = .ok (.aff 6717159312466752828511487844556470932687618424198081206822292605412 18833529395280095656668529946273982677684464990547901131898430960325 none) := by decide +kernel

set_option maxRecDepth 20000 in
theorem nist224p_run1 : mulLoop nist224p.curve (.aff nist224p.gx nist224p.gy none) (.aff nist224p.gx (-nist224p.gy) none) (3 * nist224p.order) nist224p.order 24 1606938044258990275541962092341162602522202993782792835301376
    (.aff 6717159312466752828511487844556470932687618424198081206822292605412 18833529395280095656668529946273982677684464990547901131898430960325 none) = .ok (.aff 11538617952171854957204340209581411397713150682006671917071632933651 17124898682683030415946585576209528059584236807661138367925217255672 none) := by decide +kernel

set_option maxRecDepth 20000 in
theorem nist224p_run2 : mulLoop nist224p.curve (.aff nist224p.gx nist224p.gy none) (.aff nist224p.gx (-nist224p.gy) none) (3 * nist224p.order) nist224p.order 24 95780971304118053647396689196894323976171195136475136
    (.aff 11538617952171854957204340209581411397713150682006671917071632933651 17124898682683030415946585576209528059584236807661138367925217255672 none) = .ok (.aff 19300776898735354324824095681719787731396586145016350902093660077474 20478129084861482974589767983353859028787816939491083736169580775972 none) := by decide +kernel

set_option maxRecDepth 20000 in
theorem nist224p_run3 : mulLoop nist224p.curve (.aff nist224p.gx nist224p.gy none) (.aff nist224p.gx (-nist224p.gy) none) (3 * nist224p.order) nist224p.order 24 5708990770823839524233143877797980545530986496
    (.aff 19300776898735354324824095681719787731396586145016350902093660077474 20478129084861482974589767983353859028787816939491083736169580775972 none) = .ok (.aff 22702778137269112989918672844763515713785807724839652299902488212339 24742598453193468976715219906044311969646256594708328071964016702210 none) := by decide +kernel

set_option maxRecDepth 20000 in
theorem nist224p_run4 : mulLoop nist224p.curve (.aff nist224p.gx nist224p.gy none) (.aff nist224p.gx (-nist224p.gy) none) (3 * nist224p.order) nist224p.order 24 340282366920938463463374607431768211456
    (.aff 22702778137269112989918672844763515713785807724839652299902488212339 24742598453193468976715219906044311969646256594708328071964016702210 none) = .ok (.aff 5968525052571710647349845974829562754180690211327142847064010841918 2919388714212392809257483443547124306811906679012689433366753937270 none) := by decide +kernel

set_option maxRecDepth 20000 in
theorem nist224p_run5 : mulLoop nist224p.curve (.aff nist224p.gx nist224p.gy none) (.aff nist224p.gx (-nist224p.gy) none) (3 * nist224p.order) nist224p.order 24 20282409603651670423947251286016
    (.aff 5968525052571710647349845974829562754180690211327142847064010841918 2919388714212392809257483443547124306811906679012689433366753937270 none) = .ok (.aff 24029511500538126081011767170718791203238083790706034030107005537519 23587501019041238722468768159380429687363093681963349280881239306181 none) := by decide +kernel

set_option maxRecDepth 20000 in
theorem nist224p_run6 : mulLoop nist224p.curve (.aff nist224p.gx nist224p.gy none) (.aff nist224p.gx (-nist224p.gy) none) (3 * nist224p.order) nist224p.order 24 1208925819614629174706176
    (.aff 24029511500538126081011767170718791203238083790706034030107005537519 23587501019041238722468768159380429687363093681963349280881239306181 none) = .ok (.aff 24451348315144143031031356652583503024898939182095331220635702781498 17735406579721999503670763957221764130523001564092978512172559766657 none) := by decide +kernel

set_option maxRecDepth 20000 in
theorem nist224p_run7 : mulLoop nist224p.curve (.aff nist224p.gx nist224p.gy none) (.aff nist224p.gx (-nist224p.gy) none) (3 * nist224p.order) nist224p.order 24 72057594037927936
    (.aff 24451348315144143031031356652583503024898939182095331220635702781498 17735406579721999503670763957221764130523001564092978512172559766657 none) = .ok (.aff 1061281962298609559957537626108430563673316316279036625326332411228 11165536195883894332429886412580745194471332082836023990521576847707 none) := by decide +kernel

set_option maxRecDepth 20000 in
theorem nist224p_run8 : mulLoop nist224p.curve (.aff nist224p.gx nist224p.gy none) (.aff nist224p.gx (-nist224p.gy) none) (3 * nist224p.order) nist224p.order 24 4294967296
    (.aff 1061281962298609559957537626108430563673316316279036625326332411228 11165536195883894332429886412580745194471332082836023990521576847707 none) = .ok (.aff 10381801331433161664364316902689403631397009648955209567628392195929 16711928107188217437584711929515289949616009114851630793131053777004 none) := by decide +kernel

set_option maxRecDepth 20000 in
theorem nist224p_run9 : mulLoop nist224p.curve (.aff nist224p.gx nist224p.gy none) (.aff nist224p.gx (-nist224p.gy) none) (3 * nist224p.order) nist224p.order 8 256
    (.aff 10381801331433161664364316902689403631397009648955209567628392195929 16711928107188217437584711929515289949616009114851630793131053777004 none) = .ok .inf := by decide +kernel

theorem nist224p_mul_order :
    EC.mul nist224p.curve (.aff nist224p.gx nist224p.gy none) (nist224p.order : Int) = .ok .inf := by
  refine (mul_start (i := 26959946667150639794667015087019630673637144422540572481103610249216) (by decide +kernel) (by decide +kernel) (by decide +kernel)).trans ?_
  refine (mulLoop_cut 24 26959946667150639794667015087019630673637144422540572481103610249192 (j := 1606938044258990275541962092341162602522202993782792835301376) nist224p_run0 (by decide +kernel) (by decide +kernel)).trans ?_
  refine (mulLoop_cut 24 26959946667150639794667015087019630673637144422540572481103610249168 (j := 95780971304118053647396689196894323976171195136475136) nist224p_run1 (by decide +kernel) (by decide +kernel)).trans ?_
  refine (mulLoop_cut 24 26959946667150639794667015087019630673637144422540572481103610249144 (j := 5708990770823839524233143877797980545530986496) nist224p_run2 (by decide +kernel) (by decide +kernel)).trans ?_
  refine (mulLoop_cut 24 26959946667150639794667015087019630673637144422540572481103610249120 (j := 340282366920938463463374607431768211456) nist224p_run3 (by decide +kernel) (by decide +kernel)).trans ?_
  refine (mulLoop_cut 24 26959946667150639794667015087019630673637144422540572481103610249096 (j := 20282409603651670423947251286016) nist224p_run4 (by decide +kernel) (by decide +kernel)).trans ?_
  refine (mulLoop_cut 24 26959946667150639794667015087019630673637144422540572481103610249072 (j := 1208925819614629174706176) nist224p_run5 (by decide +kernel) (by decide +kernel)).trans ?_
  refine (mulLoop_cut 24 26959946667150639794667015087019630673637144422540572481103610249048 (j := 72057594037927936) nist224p_run6 (by decide +kernel) (by decide +kernel)).trans ?_
  refine (mulLoop_cut 24 26959946667150639794667015087019630673637144422540572481103610249024 (j := 4294967296) nist224p_run7 (by decide +kernel) (by decide +kernel)).trans ?_
  refine (mulLoop_cut 24 26959946667150639794667015087019630673637144422540572481103610249000 (j := 256) nist224p_run8 (by decide +kernel) (by decide +kernel)).trans ?_
  refine (mulLoop_cut 8 26959946667150639794667015087019630673637144422540572481103610248992 (j := 1) nist224p_run9 (by decide +kernel) (by decide +kernel)).trans ?_
  exact mulLoop_small _ _ _ _ _ _ _ _ (by decide)

end NBC.Ecdsa
