import Verif.Props.HDWallet

/-!
# C138: what the private key of a child says about the parent
-/

namespace NBC.Props
open NBC Key Ecdsa EC Aes Spec NBC.Secp Wallet NT Base58

/-- Following a path of indices, each with the random number that the constructor of that child draws. -/
def descend (H : Hashes) : HDWallet → List (Int × Nat) → Py HDWallet
  | w, [] => .ok w
  | w, (i, rnd) :: path => do descend H (← w.child H i rnd) path

/-- What anybody who holds a public wallet and the private key of one of its descendants can compute. -/
def ancestorKey (H : Hashes) : HDWallet → List Int → Int → Py Int
  | _, [], key => .ok key
  | v, i :: path, key => do
    let msg ← v.childMsg i false
    let m ← stringToNumber ((H.hmacSha512 v.chain msg).take 32)
    let k ← ancestorKey H (← v.child H i 0) path key
    return (k - m) % (secp256k1.order : Int)

theorem child_vcn (H : Hashes) (v : HDWallet) (z : Int) (i : Int) (r : Nat) :
    ({ v with vcn := z }).child H i r = v.child H i r := rfl

/-- One step. -/
theorem child_key_step (H : Hashes) (w v c : HDWallet) (k : Int) (hw : HDMade w) (hk : w.key = .prv k)
    (hv : PublicPart w { v with vcn := w.vcn }) (i : Int) (hi : i < 2 ^ 31) (rnd : Nat) (hr : rnd < 65536)
    (hc : w.child H i rnd = .ok c) : ∃ kc d msg, c.key = .prv kc ∧ HDMade c ∧ v.child H i 0 = .ok d ∧
      PublicPart c { d with vcn := c.vcn } ∧ v.childMsg i false = .ok msg ∧
      (kc - bytesVal ((H.hmacSha512 v.chain msg).take 32)) % (n : Int) = k := by
  obtain ⟨h1, h2⟩ := hw.inv.1 k hk
  rcases C47_derivation H w _ k hw hk hv i hi rnd with ⟨c', d, e1, e2, ⟨k', hk'⟩, hp⟩ | ⟨e, e1, -⟩
  swap
  · rw [hc] at e1; cases e1
  rw [hc] at e1
  cases e1
  rw [child_vcn] at e2
  have hd0 : v.child H i 0 = .ok { d with vcn := ((0 : Nat) : Int) } := by
    rcases C48_deterministic_partial H v i rnd 0 with ⟨d', f1, -, f2⟩ | ⟨e, f1, -⟩
    · rw [e2] at f1; cases f1; exact f2
    · rw [e2] at f1; cases f1
  obtain ⟨hi0, -, -, -, msg, key, fp, hm, hck, -, hinit, rfl⟩ := child_inv hc
  obtain ⟨⟨x, y, o, o', hP, hvk⟩, hch, -⟩ := hv
  have hch : v.chain = w.chain := hch
  have hvk : v.key = .pub (.aff x y o') := hvk
  have hvp : v.point = .ok (.aff x y o') := by unfold HDWallet.point; rw [hvk]
  rw [show i.toNat &&& 0x80000000 = 0 from not_hardened (by omega)] at hm
  have hm : w.childMsg i false = .ok msg := hm
  obtain ⟨x', y', o'', hpt, hP'⟩ := point_prv hk h1 h2
  rw [hP'] at hP
  injection hP with hP
  injection hP with hx hy ho
  have hx : x = x' := by exact_mod_cast hx.symm
  have hy : y = y' := by exact_mod_cast hy.symm
  subst hx hy
  refine ⟨k', _, msg, hk', ⟨_, _, _, rnd, _, _, hr, hinit⟩, hd0, ?_, ?_, ?_⟩
  · obtain ⟨q1, q2, q3, q4, q5, q6, q7⟩ := hp
    exact ⟨q1, q2, rfl, q4, q5, q6, q7⟩
  · unfold HDWallet.childMsg at hm ⊢
    simp only [Bool.false_eq_true, if_false] at hm ⊢
    rw [hvp]
    rw [hP'] at hm
    simp only [ok_bind, pointCompress_ok hpt.1] at hm ⊢
    exact hm
  · rw [hch]
    rw [childKey_prv hk] at hck
    split at hck
    · cases hck
    · have : key = .prv k' := hk'
      rw [this] at hck
      have hk2 : (k + (bytesVal ((H.hmacSha512 w.chain msg).take 32) : Int)) % (n : Nat) = k' := by
        injection hck with hck
        injection hck
      rw [← hk2, Int.emod_sub_emod, add_sub_cancel_right, Int.emod_eq_of_lt (by omega) h2]

/-- C138 is false below hardened derivation: for every private wallet and every path of indices below `2 ^ 31`, the
public part of the wallet and the private key of the descendant together give the private key of the wallet (and so
the wallet itself, with all its other descendants). -/
theorem C138_descendant_false (H : Hashes) (path : List (Int × Nat)) (w v c : HDWallet) (k kc : Int) (hw : HDMade w)
    (hk : w.key = .prv k) (hv : PublicPart w v) (hpath : ∀ s ∈ path, s.1 < 2 ^ 31 ∧ s.2 < 65536)
    (hc : descend H w path = .ok c) (hkc : c.key = .prv kc) :
    ancestorKey H v (path.map Prod.fst) kc = .ok k ∧ { v with key := .prv k } = w := by
  constructor
  · have hv' : PublicPart w { v with vcn := w.vcn } := by
      obtain ⟨q1, q2, q3, q4, q5, q6, q7⟩ := hv
      exact ⟨q1, q2, rfl, q4, q5, q6, q7⟩
    clear hv
    induction path generalizing w v k with
    | nil =>
      cases hc
      rw [hk] at hkc
      cases hkc
      rfl
    | cons s path ih =>
      obtain ⟨i, rnd⟩ := s
      obtain ⟨hi, hr⟩ := hpath (i, rnd) (List.mem_cons_self ..)
      simp only [descend, bind_ok_iff] at hc
      obtain ⟨c1, hc1, hc⟩ := hc
      obtain ⟨k1, d, msg, e1, e2, e3, e4, e5, e6⟩ := child_key_step H w v c1 k hw hk hv' i hi rnd hr hc1
      have := ih c1 d k1 e2 e1 (fun s hs => hpath s (List.mem_cons_of_mem _ hs)) hc e4
      rw [List.map_cons, ancestorKey, e5, ok_bind, stringToNumber_eq _ (by
        intro h0
        have := congrArg List.length h0
        rw [List.length_take, H.hmacSha512_length] at this
        simp at this), ok_bind, e3, ok_bind, this, ok_bind, show secp256k1.order = n from rfl, e6]
      rfl
  · obtain ⟨-, q2, q3, q4, q5, q6, q7⟩ := hv
    cases w
    cases v
    simp only at *
    subst hk q2 q3 q4 q5 q6 q7
    rfl

/-- Derivations that succeed. -/
theorem child_one (w : HDWallet) (k : Int) (hk : w.key = .prv k) (h1 : 1 ≤ k) (h2 : k < n) (hd : w.depth < 255)
    (hne : (k + bytesVal (List.replicate 32 1)) % (n : Int) ≠ 0) (i : Nat) (hi : i < 2 ^ 31) (r : Nat) :
    ∃ c, w.child hashesOne i r = .ok c ∧ c.key = .prv ((k + bytesVal (List.replicate 32 1)) % (n : Int)) ∧
      c.depth = w.depth + 1 := by
  obtain ⟨x, y, o, hp, hP⟩ := point_prv hk h1 h2
  have h := child_eq (H := hashesOne) hp.1 hP hi r
  have hm : bytesVal ((hashesOne.hmacSha512 w.chain (compressedKey x y ++ beBytes 4 i)).take 32) =
      bytesVal (List.replicate 32 1) := rfl
  have hm2 : ¬ n ≤ bytesVal (List.replicate 32 1) := by decide
  have hn0 : (0 : Int) < (n : Nat) := by decide
  rw [if_pos hd, hm, childKey_prv hk, if_neg (fun h => h.elim hm2 (fun h => hne (Int.emod_eq_zero_of_dvd h)))] at h
  simp only [Except.bind] at h
  have hnn := Int.emod_nonneg (k + bytesVal (List.replicate 32 1)) (show ((n : Nat) : Int) ≠ 0 by omega)
  have hlt := Int.emod_lt_of_pos (k + bytesVal (List.replicate 32 1)) hn0
  rw [init_ok' _ _ _ (by intro k' hk'; injection hk' with hk'; rw [← hk']; exact ⟨by omega, hlt⟩) (drop32_length _ _ _) _ _ _
    (by omega)] at h
  exact ⟨_, h, rfl, rfl⟩

/-- The hypotheses are met: two steps from a wallet, and its public part. -/
example : ∃ c kc v, descend hashesOne (HDWallet.mk (.prv 1) (List.replicate 32 1) 5 false 3 [1, 2, 3, 4] 7) [(6, 11), (9, 12)]
      = .ok c ∧ c.key = .prv kc ∧ kc ≠ 1 ∧
      PublicPart (HDWallet.mk (.prv 1) (List.replicate 32 1) 5 false 3 [1, 2, 3, 4] 7) v ∧
      ancestorKey hashesOne v [6, 9] kc = .ok 1 := by
  obtain ⟨c, hc, k1, d1⟩ := child_one (HDWallet.mk (.prv 1) (List.replicate 32 1) 5 false 3 [1, 2, 3, 4] 7) 1 rfl
    (by decide) (by decide) (by decide) (by decide +kernel) 6 (by decide) 11
  obtain ⟨e, he, k2, d2⟩ := child_one c _ k1 (by decide +kernel) (by decide +kernel) (by rw [d1]; decide)
    (by decide +kernel) 9 (by decide) 12
  obtain ⟨x, y, o, -, hP⟩ := point_prv (w := HDWallet.mk (.prv 1) (List.replicate 32 1) 5 false 3 [1, 2, 3, 4] 7)
    (k := 1) rfl (by decide) (by decide)
  have hd : descend hashesOne (HDWallet.mk (.prv 1) (List.replicate 32 1) 5 false 3 [1, 2, 3, 4] 7) [(6, 11), (9, 12)]
      = .ok e := by
    have hc' : (HDWallet.mk (.prv 1) (List.replicate 32 1) 5 false 3 [1, 2, 3, 4] 7).child hashesOne 6 11 = .ok c := hc
    have he' : c.child hashesOne 9 12 = .ok e := he
    simp only [descend, hc', he', ok_bind]
  have hv : PublicPart (HDWallet.mk (.prv 1) (List.replicate 32 1) 5 false 3 [1, 2, 3, 4] 7)
      (HDWallet.mk (.pub (.aff x y none)) (List.replicate 32 1) 5 false 3 [1, 2, 3, 4] 7) :=
    ⟨⟨x, y, o, none, hP, rfl⟩, rfl, rfl, rfl, rfl, rfl, rfl⟩
  refine ⟨e, _, _, hd, k2, by decide +kernel, hv, ?_⟩
  exact (C138_descendant_false hashesOne [(6, 11), (9, 12)] _ _ e 1 _
    ⟨.prv 1, List.replicate 32 1, some 5, 0, false, some (3, [1, 2, 3, 4], 7), by decide,
      init_ok' _ _ _ (by intro k hk; cases hk; decide) rfl _ _ _ (by decide)⟩ rfl hv (by decide) hd k2).1

end NBC.Props
