import Verif.Proofs.Cofactor
import Verif.Proofs.Curves

/-!
# The number of points of the six curves

Certificates written by tools/gen_cofactor.py: an inverse of `X^p - X` modulo `X^3 - 3 X + b`, so that no point has
`y = 0`.
-/

namespace NBC.Ecdsa
open NBC EC Spec

theorem nist192p_cert : noRootCert nist192p.curve.p 3 (-nist192p.curve.b % nist192p.curve.p).toNat
    1818232898192651503243620443475887710596017136136333188329126357231450704114809659124102265079074284917479030308946015171995549503421973018345723228453477787674101750501727203839932972022526402811579436708631882219342152064034308806162778159822068125698203600625448567563423499492384401191846092821887499894940010243272408631347267319467071804385397025411167383117556290567074200671232753665052811814745345447424762137 = true := by decide +kernel

theorem nist224p_cert : noRootCert nist224p.curve.p 3 (-nist224p.curve.b % nist224p.curve.p).toNat
    162538821707696412763297930946232840788704557319537367567959706500810566605948557294579265815094836679968586480235976257301552599769315576439178841469066816676235652303598524639231208019744849505306766037171450921631165639318288380301240049284792912102880333455297088969048176306134492731275430480312410171473642078204364611441783874974318477554535006928164155073181612994113051165031957377298244332677972156148911842863727062472 = true := by decide +kernel

theorem nist256p_cert : noRootCert nist256p.curve.p 3 (-nist256p.curve.b % nist256p.curve.p).toNat
    598654495120048128164373579376790565907129618245651635729245580650160289205032451067028417734910790079968880630047810642750038172225822064245088336039110717282165075751225497534243159151798262319210961989033320134770923871847605067327569195834229386964786262020234819748358950800850716204429171267175857620552845491869167940275096975671254253051972323651135679434933895458017664669969471268916862807064330517679189082676681334204782867583 = true := by decide +kernel

theorem nist384p_cert : noRootCert nist384p.curve.p 3 (-nist384p.curve.b % nist384p.curve.p).toNat
    209331290904565578211341929932167394445608841100823442259150801365119672720677424721194289812601547161613597520059217388742771117969436933202302707971857306768359339588791972327486323167710036650270761374208032129984711251287040478042975982999088892041892642667739374848972765501937474544586195856023821962969673403868302580569718840888179772383934620510956316804567340288231717805374642131278313380731073226837169992420846866405032995983327628343246040147987946380216790345346 = true := by decide +kernel

theorem nist521p_cert : noRootCert nist521p.curve.p 3 (-nist521p.curve.b % nist521p.curve.p).toNat
    67485770979933996054326909778908728291637622347253474045624187592870692694548169260163739994920560948964458423046032200222544473091476287963495445207915251798881564974106226032296458812979925843632986602898500300581944083730941773533035299509238582055138652931521656759935024509501970230911511425997272587002668466634069443407868596356251795977679238136366485732260395276853138647015833427231297923532179337287297626911530802300525448882623256298606277625523608974875197706142701591230729502452963998971124015208741542 = true := by decide +kernel

theorem small_of_mem {c : Curve} (h : c ∈ curves) : c.curve.p < base ∧ 2 * c.curve.p + 1 < c.order * 3 := by
  have : ∀ c ∈ curves, c.curve.p < base ∧ 2 * c.curve.p + 1 < c.order * 3 := by decide +kernel
  exact this c h

theorem no_y_zero_of_mem {c : Curve} (h : c ∈ curves) [Fact c.curve.p.Prime] (x : ZMod c.curve.p) :
    ¬ (W c.curve).Equation x 0 := by
  have hb := (small_of_mem h).1
  simp only [curves, List.mem_cons, List.not_mem_nil, or_false] at h
  rcases h with rfl | rfl | rfl | rfl | rfl | rfl
  · exact no_y_zero_of_cert hb (by decide +kernel) (by decide +kernel) nist192p_cert x
  · exact no_y_zero_of_cert hb (by decide +kernel) (by decide +kernel) nist224p_cert x
  · exact no_y_zero_of_cert hb (by decide +kernel) (by decide +kernel) nist256p_cert x
  · exact no_y_zero_of_cert hb (by decide +kernel) (by decide +kernel) nist384p_cert x
  · exact no_y_zero_of_cert hb (by decide +kernel) (by decide +kernel) nist521p_cert x
  · exact fun he => Secp.no_y_zero he

end NBC.Ecdsa
