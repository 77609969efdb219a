import Mathlib.Tactic.NormNum.Prime
import Verif.Proofs.Pocklington

/-!
# Primality of the curve constants

Generated by `tools/emit_primes.py` from the certificates in `tools/certs.jsonl`.
-/

namespace NBC.NT

theorem prime_2657 : Nat.Prime 2657 := by norm_num

theorem prime_4423 : Nat.Prime 4423 := by norm_num

theorem prime_96557 : Nat.Prime 96557 := by norm_num

theorem prime_41201 : Nat.Prime 41201 := by norm_num

theorem prime_1627 : Nat.Prime 1627 := by norm_num

theorem prime_255515944373312847190720520512484175977 :
    Nat.Prime 255515944373312847190720520512484175977 := by
  refine prime_of_pockCheck _ [(96557, 2), (41201, 2), (4423, 2), (2657, 2), (1627, 2)] ?_ (by decide +kernel)
  intro qa h
  simp only [List.mem_cons, List.not_mem_nil, or_false] at h
  rcases h with rfl | rfl | rfl | rfl | rfl
  · exact prime_96557
  · exact prime_41201
  · exact prime_4423
  · exact prime_2657
  · exact prime_1627

theorem prime_205115282021455665897114700593932402728804164701536103180137503955397371 :
    Nat.Prime 205115282021455665897114700593932402728804164701536103180137503955397371 := by
  refine prime_of_pockCheck _ [(255515944373312847190720520512484175977, 2)] ?_ (by decide +kernel)
  intro qa h
  simp only [List.mem_cons, List.not_mem_nil, or_false] at h
  subst h
  exact prime_255515944373312847190720520512484175977

theorem prime_115792089237316195423570985008687907853269984665640564039457584007908834671663 :
    Nat.Prime 115792089237316195423570985008687907853269984665640564039457584007908834671663 := by
  refine prime_of_pockCheck _ [(205115282021455665897114700593932402728804164701536103180137503955397371, 2)] ?_ (by decide +kernel)
  intro qa h
  simp only [List.mem_cons, List.not_mem_nil, or_false] at h
  subst h
  exact prime_205115282021455665897114700593932402728804164701536103180137503955397371

theorem prime_16699 : Nat.Prime 16699 := by norm_num

theorem prime_85831 : Nat.Prime 85831 := by norm_num

theorem prime_107361793816595537 :
    Nat.Prime 107361793816595537 := by
  refine prime_of_pockCheck _ [(85831, 2), (16699, 2)] ?_ (by decide +kernel)
  intro qa h
  simp only [List.mem_cons, List.not_mem_nil, or_false] at h
  rcases h with rfl | rfl
  · exact prime_85831
  · exact prime_16699

theorem prime_120233 : Nat.Prime 120233 := by norm_num

theorem prime_4051 : Nat.Prime 4051 := by norm_num

theorem prime_59 : Nat.Prime 59 := by norm_num

theorem prime_174723607534414371449 :
    Nat.Prime 174723607534414371449 := by
  refine prime_of_pockCheck _ [(120233, 2), (4051, 2), (59, 2)] ?_ (by decide +kernel)
  intro qa h
  simp only [List.mem_cons, List.not_mem_nil, or_false] at h
  rcases h with rfl | rfl | rfl
  · exact prime_120233
  · exact prime_4051
  · exact prime_59

theorem prime_631 : Nat.Prime 631 := by norm_num

theorem prime_115792089237316195423570985008687907852837564279074904382605163141518161494337 :
    Nat.Prime 115792089237316195423570985008687907852837564279074904382605163141518161494337 := by
  refine prime_of_pockCheck _ [(174723607534414371449, 2), (107361793816595537, 2), (631, 2)] ?_ (by decide +kernel)
  intro qa h
  simp only [List.mem_cons, List.not_mem_nil, or_false] at h
  rcases h with rfl | rfl | rfl
  · exact prime_174723607534414371449
  · exact prime_107361793816595537
  · exact prime_631

theorem prime_149309 : Nat.Prime 149309 := by norm_num

theorem prime_379787 : Nat.Prime 379787 := by norm_num

theorem prime_11393611 :
    Nat.Prime 11393611 := by
  refine prime_of_pockCheck _ [(379787, 2)] ?_ (by decide +kernel)
  intro qa h
  simp only [List.mem_cons, List.not_mem_nil, or_false] at h
  subst h
  exact prime_379787

theorem prime_43 : Nat.Prime 43 := by norm_num

theorem prime_54251 : Nat.Prime 54251 := by norm_num

theorem prime_2477 : Nat.Prime 2477 := by norm_num

theorem prime_108341181769254293 :
    Nat.Prime 108341181769254293 := by
  refine prime_of_pockCheck _ [(54251, 2), (2477, 2), (43, 2)] ?_ (by decide +kernel)
  intro qa h
  simp only [List.mem_cons, List.not_mem_nil, or_false] at h
  rcases h with rfl | rfl | rfl
  · exact prime_54251
  · exact prime_2477
  · exact prime_43

theorem prime_6277101735386680763835789423207666416083908700390324961279 :
    Nat.Prime 6277101735386680763835789423207666416083908700390324961279 := by
  refine prime_of_pockCheck _ [(108341181769254293, 2), (11393611, 2), (149309, 2)] ?_ (by decide +kernel)
  intro qa h
  simp only [List.mem_cons, List.not_mem_nil, or_false] at h
  rcases h with rfl | rfl | rfl
  · exact prime_108341181769254293
  · exact prime_11393611
  · exact prime_149309

theorem prime_3 : Nat.Prime 3 := by norm_num

theorem prime_2 : Nat.Prime 2 := by norm_num

theorem prime_239 : Nat.Prime 239 := by norm_num

theorem prime_54623 : Nat.Prime 54623 := by norm_num

theorem prime_7244839476697597 :
    Nat.Prime 7244839476697597 := by
  refine prime_of_pockCheck _ [(54623, 2), (239, 2), (3, 2), (2, 2), (2, 2)] ?_ (by decide +kernel)
  intro qa h
  simp only [List.mem_cons, List.not_mem_nil, or_false] at h
  rcases h with rfl | rfl | rfl | rfl | rfl
  · exact prime_54623
  · exact prime_239
  · exact prime_3
  · exact prime_2
  · exact prime_2

theorem prime_9564682313913860059195669 :
    Nat.Prime 9564682313913860059195669 := by
  refine prime_of_pockCheck _ [(7244839476697597, 2)] ?_ (by decide +kernel)
  intro qa h
  simp only [List.mem_cons, List.not_mem_nil, or_false] at h
  subst h
  exact prime_7244839476697597

theorem prime_5 : Nat.Prime 5 := by norm_num

theorem prime_2389 : Nat.Prime 2389 := by norm_num

theorem prime_6277101735386680763835789423176059013767194773182842284081 :
    Nat.Prime 6277101735386680763835789423176059013767194773182842284081 := by
  refine prime_of_pockCheck _ [(9564682313913860059195669, 2), (2389, 2), (5, 2)] ?_ (by decide +kernel)
  intro qa h
  simp only [List.mem_cons, List.not_mem_nil, or_false] at h
  rcases h with rfl | rfl | rfl
  · exact prime_9564682313913860059195669
  · exact prime_2389
  · exact prime_5

theorem prime_65537 : Nat.Prime 65537 := by norm_num

theorem prime_641 : Nat.Prime 641 := by norm_num

theorem prime_257 : Nat.Prime 257 := by norm_num

theorem prime_17 : Nat.Prime 17 := by norm_num

theorem prime_26959946667150639794667015087019630673557916260026308143510066298881 :
    Nat.Prime 26959946667150639794667015087019630673557916260026308143510066298881 := by
  refine prime_of_pockCheck _ [(65537, 2), (641, 2), (257, 2), (17, 2), (5, 2), (3, 2), (2, 11), (2, 11), (2, 11), (2, 11), (2, 11), (2, 11), (2, 11), (2, 11), (2, 11), (2, 11), (2, 11), (2, 11), (2, 11), (2, 11), (2, 11), (2, 11), (2, 11), (2, 11), (2, 11), (2, 11), (2, 11), (2, 11), (2, 11), (2, 11), (2, 11), (2, 11), (2, 11), (2, 11), (2, 11), (2, 11), (2, 11), (2, 11), (2, 11), (2, 11), (2, 11), (2, 11), (2, 11), (2, 11), (2, 11), (2, 11), (2, 11), (2, 11), (2, 11), (2, 11), (2, 11), (2, 11), (2, 11), (2, 11), (2, 11), (2, 11), (2, 11), (2, 11), (2, 11), (2, 11), (2, 11), (2, 11), (2, 11), (2, 11), (2, 11), (2, 11), (2, 11), (2, 11), (2, 11), (2, 11), (2, 11), (2, 11), (2, 11), (2, 11), (2, 11), (2, 11), (2, 11)] ?_ (by decide +kernel)
  intro qa h
  simp only [List.mem_cons, List.not_mem_nil, or_false] at h
  rcases h with rfl | rfl | rfl | rfl | rfl | rfl | rfl | rfl | rfl | rfl | rfl | rfl | rfl | rfl | rfl | rfl | rfl | rfl | rfl | rfl | rfl | rfl | rfl | rfl | rfl | rfl | rfl | rfl | rfl | rfl | rfl | rfl | rfl | rfl | rfl | rfl | rfl | rfl | rfl | rfl | rfl | rfl | rfl | rfl | rfl | rfl | rfl | rfl | rfl | rfl | rfl | rfl | rfl | rfl | rfl | rfl | rfl | rfl | rfl | rfl | rfl | rfl | rfl | rfl | rfl | rfl | rfl | rfl | rfl | rfl | rfl | rfl | rfl | rfl | rfl | rfl | rfl
  · exact prime_65537
  · exact prime_641
  · exact prime_257
  · exact prime_17
  · exact prime_5
  · exact prime_3
  · exact prime_2
  · exact prime_2
  · exact prime_2
  · exact prime_2
  · exact prime_2
  · exact prime_2
  · exact prime_2
  · exact prime_2
  · exact prime_2
  · exact prime_2
  · exact prime_2
  · exact prime_2
  · exact prime_2
  · exact prime_2
  · exact prime_2
  · exact prime_2
  · exact prime_2
  · exact prime_2
  · exact prime_2
  · exact prime_2
  · exact prime_2
  · exact prime_2
  · exact prime_2
  · exact prime_2
  · exact prime_2
  · exact prime_2
  · exact prime_2
  · exact prime_2
  · exact prime_2
  · exact prime_2
  · exact prime_2
  · exact prime_2
  · exact prime_2
  · exact prime_2
  · exact prime_2
  · exact prime_2
  · exact prime_2
  · exact prime_2
  · exact prime_2
  · exact prime_2
  · exact prime_2
  · exact prime_2
  · exact prime_2
  · exact prime_2
  · exact prime_2
  · exact prime_2
  · exact prime_2
  · exact prime_2
  · exact prime_2
  · exact prime_2
  · exact prime_2
  · exact prime_2
  · exact prime_2
  · exact prime_2
  · exact prime_2
  · exact prime_2
  · exact prime_2
  · exact prime_2
  · exact prime_2
  · exact prime_2
  · exact prime_2
  · exact prime_2
  · exact prime_2
  · exact prime_2
  · exact prime_2
  · exact prime_2
  · exact prime_2
  · exact prime_2
  · exact prime_2
  · exact prime_2
  · exact prime_2

theorem prime_3769 : Nat.Prime 3769 := by norm_num

theorem prime_107 : Nat.Prime 107 := by norm_num

theorem prime_204061199 :
    Nat.Prime 204061199 := by
  refine prime_of_pockCheck _ [(3769, 2), (107, 2)] ?_ (by decide +kernel)
  intro qa h
  simp only [List.mem_cons, List.not_mem_nil, or_false] at h
  rcases h with rfl | rfl
  · exact prime_3769
  · exact prime_107

theorem prime_34282281433 :
    Nat.Prime 34282281433 := by
  refine prime_of_pockCheck _ [(204061199, 2)] ?_ (by decide +kernel)
  intro qa h
  simp only [List.mem_cons, List.not_mem_nil, or_false] at h
  subst h
  exact prime_204061199

theorem prime_197 : Nat.Prime 197 := by norm_num

theorem prime_3677 : Nat.Prime 3677 := by norm_num

theorem prime_66417393611 :
    Nat.Prime 66417393611 := by
  refine prime_of_pockCheck _ [(3677, 2), (197, 2)] ?_ (by decide +kernel)
  intro qa h
  simp only [List.mem_cons, List.not_mem_nil, or_false] at h
  rcases h with rfl | rfl
  · exact prime_3677
  · exact prime_197

theorem prime_11290956913871 :
    Nat.Prime 11290956913871 := by
  refine prime_of_pockCheck _ [(66417393611, 2)] ?_ (by decide +kernel)
  intro qa h
  simp only [List.mem_cons, List.not_mem_nil, or_false] at h
  subst h
  exact prime_66417393611

theorem prime_774023187263532362759620327192479577272145303 :
    Nat.Prime 774023187263532362759620327192479577272145303 := by
  refine prime_of_pockCheck _ [(11290956913871, 2), (34282281433, 2)] ?_ (by decide +kernel)
  intro qa h
  simp only [List.mem_cons, List.not_mem_nil, or_false] at h
  rcases h with rfl | rfl
  · exact prime_11290956913871
  · exact prime_34282281433

theorem prime_835945042244614951780389953367877943453916927241 :
    Nat.Prime 835945042244614951780389953367877943453916927241 := by
  refine prime_of_pockCheck _ [(774023187263532362759620327192479577272145303, 2)] ?_ (by decide +kernel)
  intro qa h
  simp only [List.mem_cons, List.not_mem_nil, or_false] at h
  subst h
  exact prime_774023187263532362759620327192479577272145303

theorem prime_115792089210356248762697446949407573530086143415290314195533631308867097853951 :
    Nat.Prime 115792089210356248762697446949407573530086143415290314195533631308867097853951 := by
  refine prime_of_pockCheck _ [(835945042244614951780389953367877943453916927241, 2)] ?_ (by decide +kernel)
  intro qa h
  simp only [List.mem_cons, List.not_mem_nil, or_false] at h
  subst h
  exact prime_835945042244614951780389953367877943453916927241

theorem prime_17449 : Nat.Prime 17449 := by norm_num

theorem prime_38189 : Nat.Prime 38189 := by norm_num

theorem prime_3407 : Nat.Prime 3407 := by norm_num

theorem prime_104471 : Nat.Prime 104471 := by norm_num

theorem prime_3969899 :
    Nat.Prime 3969899 := by
  refine prime_of_pockCheck _ [(104471, 2)] ?_ (by decide +kernel)
  intro qa h
  simp only [List.mem_cons, List.not_mem_nil, or_false] at h
  subst h
  exact prime_104471

theorem prime_1002328039319 :
    Nat.Prime 1002328039319 := by
  refine prime_of_pockCheck _ [(3969899, 2)] ?_ (by decide +kernel)
  intro qa h
  simp only [List.mem_cons, List.not_mem_nil, or_false] at h
  subst h
  exact prime_3969899

theorem prime_29 : Nat.Prime 29 := by norm_num

theorem prime_311 : Nat.Prime 311 := by norm_num

theorem prime_311245691 :
    Nat.Prime 311245691 := by
  refine prime_of_pockCheck _ [(311, 2), (29, 2), (29, 2)] ?_ (by decide +kernel)
  intro qa h
  simp only [List.mem_cons, List.not_mem_nil, or_false] at h
  rcases h with rfl | rfl | rfl
  · exact prime_311
  · exact prime_29
  · exact prime_29

theorem prime_622491383 :
    Nat.Prime 622491383 := by
  refine prime_of_pockCheck _ [(311245691, 2)] ?_ (by decide +kernel)
  intro qa h
  simp only [List.mem_cons, List.not_mem_nil, or_false] at h
  subst h
  exact prime_311245691

theorem prime_1201 : Nat.Prime 1201 := by norm_num

theorem prime_229 : Nat.Prime 229 := by norm_num

theorem prime_9350987 :
    Nat.Prime 9350987 := by
  refine prime_of_pockCheck _ [(1201, 2), (229, 2)] ?_ (by decide +kernel)
  intro qa h
  simp only [List.mem_cons, List.not_mem_nil, or_false] at h
  rcases h with rfl | rfl
  · exact prime_1201
  · exact prime_229

theorem prime_187019741 :
    Nat.Prime 187019741 := by
  refine prime_of_pockCheck _ [(9350987, 2)] ?_ (by decide +kernel)
  intro qa h
  simp only [List.mem_cons, List.not_mem_nil, or_false] at h
  subst h
  exact prime_9350987

theorem prime_115792089210356248762697446949407573529996955224135760342422259061068512044369 :
    Nat.Prime 115792089210356248762697446949407573529996955224135760342422259061068512044369 := by
  refine prime_of_pockCheck _ [(1002328039319, 2), (622491383, 2), (187019741, 2), (38189, 2), (17449, 2), (3407, 2)] ?_ (by decide +kernel)
  intro qa h
  simp only [List.mem_cons, List.not_mem_nil, or_false] at h
  rcases h with rfl | rfl | rfl | rfl | rfl | rfl
  · exact prime_1002328039319
  · exact prime_622491383
  · exact prime_187019741
  · exact prime_38189
  · exact prime_17449
  · exact prime_3407

theorem prime_131 : Nat.Prime 131 := by norm_num

theorem prime_521 : Nat.Prime 521 := by norm_num

theorem prime_858001 : Nat.Prime 858001 := by norm_num

theorem prime_42641 : Nat.Prime 42641 := by norm_num

theorem prime_51481 : Nat.Prime 51481 := by norm_num

theorem prime_157 : Nat.Prime 157 := by norm_num

theorem prime_31 : Nat.Prime 31 := by norm_num

theorem prime_409891 : Nat.Prime 409891 := by norm_num

theorem prime_41 : Nat.Prime 41 := by norm_num

theorem prime_37 : Nat.Prime 37 := by norm_num

theorem prime_317 : Nat.Prime 317 := by norm_num

theorem prime_7623851 :
    Nat.Prime 7623851 := by
  refine prime_of_pockCheck _ [(317, 3), (37, 3)] ?_ (by decide +kernel)
  intro qa h
  simp only [List.mem_cons, List.not_mem_nil, or_false] at h
  rcases h with rfl | rfl
  · exact prime_317
  · exact prime_37

theorem prime_2731 : Nat.Prime 2731 := by norm_num

theorem prime_53 : Nat.Prime 53 := by norm_num

theorem prime_1613 : Nat.Prime 1613 := by norm_num

theorem prime_13 : Nat.Prime 13 := by norm_num

theorem prime_5746001 :
    Nat.Prime 5746001 := by
  refine prime_of_pockCheck _ [(17, 3), (13, 3), (13, 3)] ?_ (by decide +kernel)
  intro qa h
  simp only [List.mem_cons, List.not_mem_nil, or_false] at h
  rcases h with rfl | rfl | rfl
  · exact prime_17
  · exact prime_13
  · exact prime_13

theorem prime_49481 : Nat.Prime 49481 := by norm_num

theorem prime_308761441 :
    Nat.Prime 308761441 := by
  refine prime_of_pockCheck _ [(49481, 3)] ?_ (by decide +kernel)
  intro qa h
  simp only [List.mem_cons, List.not_mem_nil, or_false] at h
  subst h
  exact prime_49481

theorem prime_19 : Nat.Prime 19 := by norm_num

theorem prime_1381 : Nat.Prime 1381 := by norm_num

theorem prime_34110701 :
    Nat.Prime 34110701 := by
  refine prime_of_pockCheck _ [(1381, 3), (19, 3)] ?_ (by decide +kernel)
  intro qa h
  simp only [List.mem_cons, List.not_mem_nil, or_false] at h
  rcases h with rfl | rfl
  · exact prime_1381
  · exact prime_19

theorem prime_61681 : Nat.Prime 61681 := by norm_num

theorem prime_8191 : Nat.Prime 8191 := by norm_num

theorem prime_6864797660130609714981900799081393217269435300143305409394463459185543183397656052122559640661454554977296311391480858037121987999716643812574028291115057151 :
    Nat.Prime 6864797660130609714981900799081393217269435300143305409394463459185543183397656052122559640661454554977296311391480858037121987999716643812574028291115057151 := by
  refine prime_of_pockCheck _ [(308761441, 3), (34110701, 3), (7623851, 3), (5746001, 3), (858001, 3), (409891, 3), (61681, 3), (51481, 3), (42641, 3), (8191, 3), (2731, 3), (1613, 3), (521, 2), (157, 3), (131, 3), (53, 3), (41, 3), (31, 3), (17, 3)] ?_ (by decide +kernel)
  intro qa h
  simp only [List.mem_cons, List.not_mem_nil, or_false] at h
  rcases h with rfl | rfl | rfl | rfl | rfl | rfl | rfl | rfl | rfl | rfl | rfl | rfl | rfl | rfl | rfl | rfl | rfl | rfl | rfl
  · exact prime_308761441
  · exact prime_34110701
  · exact prime_7623851
  · exact prime_5746001
  · exact prime_858001
  · exact prime_409891
  · exact prime_61681
  · exact prime_51481
  · exact prime_42641
  · exact prime_8191
  · exact prime_2731
  · exact prime_1613
  · exact prime_521
  · exact prime_157
  · exact prime_131
  · exact prime_53
  · exact prime_41
  · exact prime_31
  · exact prime_17

theorem prime_312289 : Nat.Prime 312289 := by norm_num

theorem prime_8389 : Nat.Prime 8389 := by norm_num

theorem prime_661 : Nat.Prime 661 := by norm_num

theorem prime_599 : Nat.Prime 599 := by norm_num

theorem prime_513928823 :
    Nat.Prime 513928823 := by
  refine prime_of_pockCheck _ [(661, 2), (599, 2)] ?_ (by decide +kernel)
  intro qa h
  simp only [List.mem_cons, List.not_mem_nil, or_false] at h
  rcases h with rfl | rfl
  · exact prime_661
  · exact prime_599

theorem prime_53448597593 :
    Nat.Prime 53448597593 := by
  refine prime_of_pockCheck _ [(513928823, 2)] ?_ (by decide +kernel)
  intro qa h
  simp only [List.mem_cons, List.not_mem_nil, or_false] at h
  subst h
  exact prime_513928823

theorem prime_1357291859799823621 :
    Nat.Prime 1357291859799823621 := by
  refine prime_of_pockCheck _ [(53448597593, 2)] ?_ (by decide +kernel)
  intro qa h
  simp only [List.mem_cons, List.not_mem_nil, or_false] at h
  subst h
  exact prime_53448597593

theorem prime_7 : Nat.Prime 7 := by norm_num

theorem prime_181 : Nat.Prime 181 := by norm_num

theorem prime_881 : Nat.Prime 881 := by norm_num

theorem prime_211 : Nat.Prime 211 := by norm_num

theorem prime_105957871 :
    Nat.Prime 105957871 := by
  refine prime_of_pockCheck _ [(881, 2), (211, 2)] ?_ (by decide +kernel)
  intro qa h
  simp only [List.mem_cons, List.not_mem_nil, or_false] at h
  rcases h with rfl | rfl
  · exact prime_881
  · exact prime_211

theorem prime_529709925838459440593 :
    Nat.Prime 529709925838459440593 := by
  refine prime_of_pockCheck _ [(105957871, 2), (181, 2), (7, 2)] ?_ (by decide +kernel)
  intro qa h
  simp only [List.mem_cons, List.not_mem_nil, or_false] at h
  rcases h with rfl | rfl | rfl
  · exact prime_105957871
  · exact prime_181
  · exact prime_7

theorem prime_38557 : Nat.Prime 38557 := by norm_num

theorem prime_19173790298027098165721053155794528970226934547887232785722672956982046098136719667167519737147526097 :
    Nat.Prime 19173790298027098165721053155794528970226934547887232785722672956982046098136719667167519737147526097 := by
  refine prime_of_pockCheck _ [(529709925838459440593, 2), (1357291859799823621, 2), (312289, 2), (38557, 2), (8389, 2)] ?_ (by decide +kernel)
  intro qa h
  simp only [List.mem_cons, List.not_mem_nil, or_false] at h
  rcases h with rfl | rfl | rfl | rfl | rfl
  · exact prime_529709925838459440593
  · exact prime_1357291859799823621
  · exact prime_312289
  · exact prime_38557
  · exact prime_8389

theorem prime_39402006196394479212279040100143613805079739270465446667948293404245721771496870329047266088258938001861606973112319 :
    Nat.Prime 39402006196394479212279040100143613805079739270465446667948293404245721771496870329047266088258938001861606973112319 := by
  refine prime_of_pockCheck _ [(19173790298027098165721053155794528970226934547887232785722672956982046098136719667167519737147526097, 2)] ?_ (by decide +kernel)
  intro qa h
  simp only [List.mem_cons, List.not_mem_nil, or_false] at h
  subst h
  exact prime_19173790298027098165721053155794528970226934547887232785722672956982046098136719667167519737147526097

theorem prime_10909 : Nat.Prime 10909 := by norm_num

theorem prime_11105363 :
    Nat.Prime 11105363 := by
  refine prime_of_pockCheck _ [(10909, 2)] ?_ (by decide +kernel)
  intro qa h
  simp only [List.mem_cons, List.not_mem_nil, or_false] at h
  subst h
  exact prime_10909

theorem prime_821796863 :
    Nat.Prime 821796863 := by
  refine prime_of_pockCheck _ [(11105363, 2)] ?_ (by decide +kernel)
  intro qa h
  simp only [List.mem_cons, List.not_mem_nil, or_false] at h
  subst h
  exact prime_11105363

theorem prime_432621809776543 :
    Nat.Prime 432621809776543 := by
  refine prime_of_pockCheck _ [(821796863, 2)] ?_ (by decide +kernel)
  intro qa h
  simp only [List.mem_cons, List.not_mem_nil, or_false] at h
  subst h
  exact prime_821796863

theorem prime_136401162692544977256234449 :
    Nat.Prime 136401162692544977256234449 := by
  refine prime_of_pockCheck _ [(432621809776543, 2)] ?_ (by decide +kernel)
  intro qa h
  simp only [List.mem_cons, List.not_mem_nil, or_false] at h
  subst h
  exact prime_432621809776543

theorem prime_34646440928557194402992574983797 :
    Nat.Prime 34646440928557194402992574983797 := by
  refine prime_of_pockCheck _ [(136401162692544977256234449, 2)] ?_ (by decide +kernel)
  intro qa h
  simp only [List.mem_cons, List.not_mem_nil, or_false] at h
  subst h
  exact prime_136401162692544977256234449

theorem prime_375503554633724504423937478103159147573209 :
    Nat.Prime 375503554633724504423937478103159147573209 := by
  refine prime_of_pockCheck _ [(34646440928557194402992574983797, 2)] ?_ (by decide +kernel)
  intro qa h
  simp only [List.mem_cons, List.not_mem_nil, or_false] at h
  subst h
  exact prime_34646440928557194402992574983797

theorem prime_50520606258875818707470860153287666700917696099933389351507 :
    Nat.Prime 50520606258875818707470860153287666700917696099933389351507 := by
  refine prime_of_pockCheck _ [(375503554633724504423937478103159147573209, 2)] ?_ (by decide +kernel)
  intro qa h
  simp only [List.mem_cons, List.not_mem_nil, or_false] at h
  subst h
  exact prime_375503554633724504423937478103159147573209

theorem prime_26959946667150639794667015087019625940457807714424391721682722368061 :
    Nat.Prime 26959946667150639794667015087019625940457807714424391721682722368061 := by
  refine prime_of_pockCheck _ [(50520606258875818707470860153287666700917696099933389351507, 2)] ?_ (by decide +kernel)
  intro qa h
  simp only [List.mem_cons, List.not_mem_nil, or_false] at h
  subst h
  exact prime_50520606258875818707470860153287666700917696099933389351507

theorem prime_37447 : Nat.Prime 37447 := by norm_num

theorem prime_8463023 :
    Nat.Prime 8463023 := by
  refine prime_of_pockCheck _ [(37447, 2)] ?_ (by decide +kernel)
  intro qa h
  simp only [List.mem_cons, List.not_mem_nil, or_false] at h
  subst h
  exact prime_37447

theorem prime_251 : Nat.Prime 251 := by norm_num

theorem prime_248431 : Nat.Prime 248431 := by norm_num

theorem prime_9863677 :
    Nat.Prime 9863677 := by
  refine prime_of_pockCheck _ [(881, 2), (311, 2)] ?_ (by decide +kernel)
  intro qa h
  simp only [List.mem_cons, List.not_mem_nil, or_false] at h
  rcases h with rfl | rfl
  · exact prime_881
  · exact prime_311

theorem prime_37344768852931 :
    Nat.Prime 37344768852931 := by
  refine prime_of_pockCheck _ [(9863677, 2)] ?_ (by decide +kernel)
  intro qa h
  simp only [List.mem_cons, List.not_mem_nil, or_false] at h
  subst h
  exact prime_9863677

theorem prime_55942463741690639 :
    Nat.Prime 55942463741690639 := by
  refine prime_of_pockCheck _ [(37344768852931, 2)] ?_ (by decide +kernel)
  intro qa h
  simp only [List.mem_cons, List.not_mem_nil, or_false] at h
  subst h
  exact prime_37344768852931

theorem prime_1059392654943455286185473617842338478315215895509773412096307 :
    Nat.Prime 1059392654943455286185473617842338478315215895509773412096307 := by
  refine prime_of_pockCheck _ [(55942463741690639, 2), (8463023, 2), (248431, 2), (251, 2)] ?_ (by decide +kernel)
  intro qa h
  simp only [List.mem_cons, List.not_mem_nil, or_false] at h
  rcases h with rfl | rfl | rfl | rfl
  · exact prime_55942463741690639
  · exact prime_8463023
  · exact prime_248431
  · exact prime_251

theorem prime_3055465788140352002733946906144561090641249606160407884365391979704929268480326390471 :
    Nat.Prime 3055465788140352002733946906144561090641249606160407884365391979704929268480326390471 := by
  refine prime_of_pockCheck _ [(1059392654943455286185473617842338478315215895509773412096307, 2)] ?_ (by decide +kernel)
  intro qa h
  simp only [List.mem_cons, List.not_mem_nil, or_false] at h
  subst h
  exact prime_1059392654943455286185473617842338478315215895509773412096307

theorem prime_39402006196394479212279040100143613805079739270465446667946905279627659399113263569398956308152294913554433653942643 :
    Nat.Prime 39402006196394479212279040100143613805079739270465446667946905279627659399113263569398956308152294913554433653942643 := by
  refine prime_of_pockCheck _ [(3055465788140352002733946906144561090641249606160407884365391979704929268480326390471, 2)] ?_ (by decide +kernel)
  intro qa h
  simp only [List.mem_cons, List.not_mem_nil, or_false] at h
  subst h
  exact prime_3055465788140352002733946906144561090641249606160407884365391979704929268480326390471

end NBC.NT
