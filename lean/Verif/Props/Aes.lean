import Verif.Proofs.AesFeeder

/-!
# C36-C42: AES, its modes, counter, padding and feeders
-/

namespace NBC.Props
open NBC Aes Spec Spec.Aes

/-! ### C36 -/

/-- C36, all keys of 16 and 24 bytes in both Python versions and of 32 bytes in Python 2: the key is
accepted and decryption inverts encryption, in both orders. -/
theorem C36_decrypt_encrypt_partial (ver : PyVer) (key : Bytes)
    (hk : key.length = 16 ∨ key.length = 24 ∨ (key.length = 32 ∧ ver = .py2)) :
    ∃ A, AES.init ver key = .ok A ∧ ∀ b : Bytes, b.length = 16 →
      (∃ c, A.encrypt b = .ok c ∧ c.length = 16 ∧ A.decrypt c = .ok b) ∧
      (∃ p, A.decrypt b = .ok p ∧ p.length = 16 ∧ A.encrypt p = .ok b) := by
  obtain ⟨A, E, D, h1, h⟩ := init_blk (show KeyOk ver key from hk)
  refine ⟨A, h1, fun b hb => ⟨⟨E b, h.enc b hb, h.elen b hb, ?_⟩, ⟨D b, h.dec b hb, h.dlen b hb, ?_⟩⟩⟩
  · rw [h.dec _ (h.elen b hb), h.de b hb]
  · rw [h.enc _ (h.dlen b hb), h.ed b hb]

/-- C36 is false of 32-byte keys in Python 3: `KC / 2` is a float and the key schedule raises
`TypeError` for every such key. -/
theorem C36_python3_false (key : Bytes) (hk : key.length = 32) :
    AES.init .py3 key = .error .typeError := init_error_py3 hk

/-- Other key lengths and block lengths are refused with `ValueError`. -/
theorem C36_refused (ver : PyVer) (key b : Bytes) :
    ((key.length ≠ 16 ∧ key.length ≠ 24 ∧ key.length ≠ 32) → AES.init ver key = .error .valueError) ∧
    (∀ A, AES.init ver key = .ok A → b.length ≠ 16 →
      A.encrypt b = .error .valueError ∧ A.decrypt b = .error .valueError) := by
  refine ⟨init_error_len, fun A _ hb => ⟨?_, ?_⟩⟩
  · unfold AES.encrypt; rw [if_pos hb]
  · unfold AES.decrypt; rw [if_pos hb]

/-! ### C37 -/

/-- C37, same keys as C36: encryption and decryption are those of FIPS-197. -/
theorem C37_fips197_partial (ver : PyVer) (key : Bytes)
    (hk : key.length = 16 ∨ key.length = 24 ∨ (key.length = 32 ∧ ver = .py2)) :
    ∃ A, AES.init ver key = .ok A ∧ ∀ b : Bytes, b.length = 16 →
      (∃ c, encryptBlock key b = some c ∧ A.encrypt b = .ok c) ∧
      (∃ p, decryptBlock key b = some p ∧ A.decrypt b = .ok p) := by
  obtain ⟨A, h1, h⟩ := init_ok (show KeyOk ver key from hk)
  refine ⟨A, h1, fun b hb => ?_⟩
  obtain ⟨s, hs, _⟩ := toState_isSome hb
  exact ⟨⟨_, by unfold encryptBlock; rw [hs]; rfl, encrypt_ok h hs⟩,
    ⟨_, by unfold decryptBlock; rw [hs]; rfl, decrypt_ok h hs⟩⟩

/-- C37.  Under Python 3 the 32 byte keys are lost: FIPS 197 defines the cipher for every one of
them and every block, and no `AES` object is ever made. -/
theorem C37_python3_false (key b : Bytes) (hk : key.length = 32) (hb : b.length = 16) :
    (∃ c, encryptBlock key b = some c) ∧ ¬ ∃ A, AES.init .py3 key = .ok A := by
  obtain ⟨s, hs, _⟩ := toState_isSome hb
  refine ⟨⟨_, by unfold encryptBlock; rw [hs]; rfl⟩, ?_⟩
  rintro ⟨A, h⟩
  rw [init_error_py3 hk] at h
  cases h

/-- Such a key and block. -/
example : (List.replicate 32 (0 : UInt8)).length = 32 ∧ (List.replicate 16 (7 : UInt8)).length = 16 := by
  decide

/-- C37: the specification's inverse is the inverse in GF(2^8), and the S-box is its affine image. -/
theorem C37_inverse (a : UInt8) :
    (a ≠ 0 → gmul a (ginv a) = 1) ∧ (ginv 0 = 0) ∧ invSbox (sbox a) = a := by
  refine ⟨fun ha => ?_, by decide +kernel, invSbox_sbox a⟩
  have h := inverse_tab a.toNat a.toNat_lt
  rw [UInt8.ofNat_toNat] at h
  rcases h with h | h
  · exact absurd (UInt8.toNat_inj.1 (by rw [h]; rfl)) ha
  · exact h

/-- The example of FIPS-197 appendix C.1 on the specification. -/
example : encryptBlock ((List.range 16).map UInt8.ofNat)
    ((List.range 16).map (fun i => UInt8.ofNat (0x11 * i))) =
    some [0x69, 0xc4, 0xe0, 0xd8, 0x6a, 0x7b, 0x04, 0x30, 0xd8, 0xcd, 0xb7, 0x80, 0x70, 0xb4, 0xc5,
      0x5a] := by decide +kernel

/-- The example of FIPS-197 appendix C.3 (a 256-bit key) on the specification. -/
example : encryptBlock ((List.range 32).map UInt8.ofNat)
    ((List.range 16).map (fun i => UInt8.ofNat (0x11 * i))) =
    some [0x8e, 0xa2, 0xb7, 0xca, 0x51, 0x67, 0x45, 0xbf, 0xea, 0xfc, 0x49, 0x90, 0x4b, 0x49, 0x60,
      0x89] := by decide +kernel

/-! ### Objects of the modes -/

theorem keyOk_of_init {ver : PyVer} {key : Bytes} {A : AES} (h : AES.init ver key = .ok A) :
    KeyOk ver key := by
  by_contra hk
  by_cases hl : key.length ≠ 16 ∧ key.length ≠ 24 ∧ key.length ≠ 32
  · rw [init_error_len hl] at h; cases h
  · have h32 : key.length = 32 ∧ ver = .py3 := by
      unfold KeyOk at hk
      cases ver <;> simp_all
    obtain ⟨h32, rfl⟩ := h32
    rw [init_error_py3 h32] at h; cases h

theorem blk_of_init {ver : PyVer} {key : Bytes} {A : AES} (h : AES.init ver key = .ok A) :
    ∃ E D, Blk A E D := by
  obtain ⟨A', E, D, h1, h2⟩ := init_blk (keyOk_of_init h)
  rw [h] at h1; injection h1 with h1; subst h1
  exact ⟨E, D, h2⟩

theorem ivBlock_length {iv : Option Bytes} {l : Bytes} (h : ivBlock iv = .ok l) : l.length = 16 := by
  unfold ivBlock at h
  cases iv with
  | none => injection h with h; rw [← h]; rfl
  | some v =>
    simp only at h
    split_ifs at h with hv
    injection h with h
    rw [← h]; omega

theorem cbc_of_init {ver : PyVer} {key : Bytes} {iv : Option Bytes} {s : CBC}
    (h : CBC.init ver key iv = .ok s) : ∃ A E D, Blk A E D ∧ cbcInv A s := by
  unfold CBC.init at h
  rw [bind_ok_iff] at h; obtain ⟨l, hl, h⟩ := h
  rw [bind_ok_iff] at h; obtain ⟨A, hA, h⟩ := h
  injection h with h; subst h
  obtain ⟨E, D, hb⟩ := blk_of_init hA
  exact ⟨A, E, D, hb, rfl, ivBlock_length hl⟩

theorem cfb_of_init {ver : PyVer} {key : Bytes} {iv : Option Bytes} {n : Nat} {s : CFB}
    (h : CFB.init ver key iv n = .ok s) : ∃ A E D, Blk A E D ∧ cfbInv A (max n 1) s := by
  unfold CFB.init at h
  rw [bind_ok_iff] at h; obtain ⟨l, hl, h⟩ := h
  rw [bind_ok_iff] at h; obtain ⟨A, hA, h⟩ := h
  injection h with h; subst h
  obtain ⟨E, D, hb⟩ := blk_of_init hA
  refine ⟨A, E, D, hb, rfl, ivBlock_length hl, ?_⟩
  show (if n = 0 then 1 else n) = max n 1
  split_ifs <;> omega

theorem ofb_of_init {ver : PyVer} {key : Bytes} {iv : Option Bytes} {s : OFB}
    (h : OFB.init ver key iv = .ok s) : ∃ A E D, Blk A E D ∧ ofbInv A s := by
  unfold OFB.init at h
  rw [bind_ok_iff] at h; obtain ⟨l, hl, h⟩ := h
  rw [bind_ok_iff] at h; obtain ⟨A, hA, h⟩ := h
  injection h with h; subst h
  obtain ⟨E, D, hb⟩ := blk_of_init hA
  exact ⟨A, E, D, hb, rfl, by simp [ivBlock_length hl]⟩

theorem ctr_of_init {ver : PyVer} {key : Bytes} {v : Option Int} {s : CTR}
    (h : CTR.init ver key v = .ok s) : ∃ A E D, Blk A E D ∧ ctrInv A s := by
  unfold CTR.init at h
  rw [bind_ok_iff] at h; obtain ⟨A, hA, h⟩ := h
  injection h with h; subst h
  obtain ⟨E, D, hb⟩ := blk_of_init hA
  exact ⟨A, E, D, hb, rfl, counterInit_length _⟩

theorem eq_of_flatten {l m : List Bytes} (h : l.flatten = m.flatten)
    (hl : l.map List.length = m.map List.length) : l = m := by
  induction l generalizing m with
  | nil => cases m <;> simp_all
  | cons a l ih =>
    cases m with
    | nil => simp at hl
    | cons b m =>
      simp only [List.map_cons, List.cons.injEq] at hl
      simp only [List.flatten_cons] at h
      obtain ⟨h1, h2⟩ := List.append_inj h hl.1
      rw [h1, ih h2 hl.2]

theorem roundTrip_units {σ : Type} {u : Nat} {Inv : σ → Prop} {e d : σ → Bytes → Bytes × σ}
    {enc dec : Call σ} (he : UnitOk u Inv e) (hd : UnitOk u Inv d) {P : Bytes → Prop}
    (hP : ∀ d, P d → u ∣ d.length) (hPl : ∀ d d' : Bytes, d.length = d'.length → P d → P d')
    (hce : ∀ s x, Inv s → P x → enc s x = .ok (runUnits u e s x))
    (hcd : ∀ s x, Inv s → P x → dec s x = .ok (runUnits u d s x))
    (hinv : ∀ s x, Inv s → x.length = u → d s (e s x).1 = (x, (e s x).2)) (s : σ) (hs : Inv s)
    (ds : List Bytes) (hds : ∀ x ∈ ds, P x) :
    ∃ outs s', runCalls enc s ds = .ok (outs, s') ∧ runCalls dec s outs = .ok (ds, s') := by
  obtain ⟨outs, e1, e2, e3⟩ := runCalls_units he hP hce s hs ds hds
  have hflat : u ∣ ds.flatten.length := by
    rw [List.length_flatten]
    clear e1 e2 e3
    induction ds with
    | nil => simp
    | cons x xs ih =>
      simp only [List.map_cons, List.sum_cons]
      exact Dvd.dvd.add (hP x (hds x (by simp))) (ih (fun y hy => hds y (by simp [hy])))
  have houts : ∀ x ∈ outs, P x := by
    clear e1 e2
    induction ds generalizing outs with
    | nil => cases outs <;> simp_all
    | cons y ys ih =>
      cases outs with
      | nil => simp
      | cons o os =>
        simp only [List.map_cons, List.cons.injEq] at e3
        intro x hx
        rcases List.mem_cons.1 hx with rfl | hx
        · exact hPl y x e3.1.symm (hds y (by simp))
        · refine ih (fun z hz => hds z (by simp [hz])) os e3.2 ?_ x hx
          simp only [List.flatten_cons, List.length_append] at hflat
          exact (Nat.dvd_add_right (hP y (hds y (by simp)))).1 hflat
  obtain ⟨back, f1, f2, f3⟩ := runCalls_units hd hP hcd s hs outs houts
  rw [e2, runUnits_inverse he hinv s _ hs hflat] at f1 f2
  have : back = ds := eq_of_flatten f2 (f3.trans e3)
  subst this
  exact ⟨outs, _, e1, f1⟩

/-! ### C38 -/

/-- Decrypting call by call, with an object in the same state, what `enc` returned call by call. -/
def RoundTrips {σ : Type} (enc dec : Call σ) (s : σ) (chunk : Bytes → Prop) : Prop :=
  ∀ chunks : List Bytes, (∀ c ∈ chunks, chunk c) →
    ∃ outs s', runCalls enc s chunks = .ok (outs, s') ∧ runCalls dec s outs = .ok (chunks, s')

/-- C38, ECB: every sequence of 16-byte blocks. -/
theorem C38_ecb (ver : PyVer) (key : Bytes) (A : AES) (h : AES.init ver key = .ok A) :
    RoundTrips ecbEncrypt ecbDecrypt A (fun c => c.length = 16) := by
  obtain ⟨E, D, hb⟩ := blk_of_init h
  intro chunks hc
  refine roundTrip_units (ecb_unit hb) (ecb_unit_dec hb) (fun d hd => by rw [hd])
    (fun d d' h h' => by rw [← h, h']) ?_ ?_ ?_ A rfl chunks hc
  · rintro _ x rfl hx
    rw [ecbEncrypt_eq hb x hx, runUnits_one (by omega) _ _ x hx]
  · rintro _ x rfl hx
    rw [ecbDecrypt_eq hb x hx, runUnits_one (by omega) _ _ x hx]
  · rintro _ x rfl hx
    simp only [ecbE, hb.de x hx]

/-- C38, CBC: every IV and sequence of 16-byte blocks. -/
theorem C38_cbc (ver : PyVer) (key : Bytes) (iv : Option Bytes) (s : CBC)
    (h : CBC.init ver key iv = .ok s) :
    RoundTrips CBC.encrypt CBC.decrypt s (fun c => c.length = 16) := by
  obtain ⟨A, E, D, hb, hs⟩ := cbc_of_init h
  intro chunks hc
  refine roundTrip_units (cbc_unit hb) (cbc_unit_dec hb) (fun d hd => by rw [hd])
    (fun d d' h h' => by rw [← h, h']) ?_ ?_ (cbc_inverse hb) s hs chunks hc
  · intro s x hs hx
    rw [cbcEncrypt_eq hb s hs x hx, runUnits_one (by omega) _ _ x hx]
  · intro s x hs hx
    rw [cbcDecrypt_eq hb s hs x hx, runUnits_one (by omega) _ _ x hx]

/-- C38, CFB: every IV, segment size up to 16 and sequence of chunks made of whole segments (a segment
size of 0 counts as 1). -/
theorem C38_cfb (ver : PyVer) (key : Bytes) (iv : Option Bytes) (seg : Nat) (hseg : seg ≤ 16) (s : CFB)
    (h : CFB.init ver key iv seg = .ok s) :
    RoundTrips CFB.encrypt CFB.decrypt s (fun c => max seg 1 ∣ c.length) := by
  obtain ⟨A, E, D, hb, hs⟩ := cfb_of_init h
  have h1 : 0 < max seg 1 := by omega
  have h16 : max seg 1 ≤ 16 := by omega
  intro chunks hc
  exact roundTrip_units (cfb_unit hb h1 h16) (cfb_unit_dec hb h1 h16) (fun d hd => hd)
    (fun d d' h h' => by rw [← h]; exact h') (fun s x hs hx => cfbEncrypt_eq hb h1 h16 s hs x hx)
    (fun s x hs hx => cfbDecrypt_eq hb h1 h16 s hs x hx) (cfb_inverse hb h16) s hs chunks hc

/-- C38, OFB: every IV and sequence of chunks of any length. -/
theorem C38_ofb (ver : PyVer) (key : Bytes) (iv : Option Bytes) (s : OFB)
    (h : OFB.init ver key iv = .ok s) :
    RoundTrips OFB.encrypt OFB.decrypt s (fun _ => True) := by
  obtain ⟨A, E, D, hb, hs⟩ := ofb_of_init h
  intro chunks hc
  exact roundTrip_units (ofb_unit hb) (ofb_unit hb) (fun d _ => one_dvd _) (fun _ _ _ h => h)
    (fun s x hs _ => ofbEncrypt_eq hb s hs x) (fun s x hs _ => ofbEncrypt_eq hb s hs x)
    (ofb_inverse hb) s hs chunks hc

/-- C38, CTR: every initial counter and sequence of chunks of any length. -/
theorem C38_ctr (ver : PyVer) (key : Bytes) (v : Option Int) (s : CTR)
    (h : CTR.init ver key v = .ok s) :
    RoundTrips CTR.encrypt CTR.decrypt s (fun _ => True) := by
  obtain ⟨A, E, D, hb, hs⟩ := ctr_of_init h
  intro chunks hc
  exact roundTrip_units (ctr_unit hb) (ctr_unit hb) (fun d _ => one_dvd _) (fun _ _ _ h => h)
    (fun s x hs _ => ctrEncrypt_eq hb s hs x) (fun s x hs _ => ctrEncrypt_eq hb s hs x)
    (ctr_inverse hb) s hs chunks hc

/-- The objects of C38 exist. -/
theorem C38_objects (ver : PyVer) (key iv : Bytes) (v : Int) (seg : Nat)
    (hk : key.length = 16 ∨ key.length = 24 ∨ (key.length = 32 ∧ ver = .py2))
    (hiv : iv.length = 16) :
    (∃ s, AES.init ver key = .ok s) ∧ (∃ s, CBC.init ver key (some iv) = .ok s) ∧
    (∃ s, CFB.init ver key (some iv) seg = .ok s) ∧ (∃ s, OFB.init ver key (some iv) = .ok s) ∧
    (∃ s, CTR.init ver key (some v) = .ok s) := by
  obtain ⟨A, h, _⟩ := init_ok (show KeyOk ver key from hk)
  have hb : ivBlock (some iv) = .ok iv := by
    unfold ivBlock; simp only; rw [if_neg (by omega)]
  refine ⟨⟨A, h⟩, ?_, ?_, ?_, ?_⟩
  · exact ⟨_, by unfold CBC.init; rw [hb, ok_bind, h, ok_bind]⟩
  · exact ⟨_, by unfold CFB.init; rw [hb, ok_bind, h, ok_bind]⟩
  · exact ⟨_, by unfold OFB.init; rw [hb, ok_bind, h, ok_bind]⟩
  · exact ⟨_, by unfold CTR.init; rw [h, ok_bind]⟩

/-- A CBC object and a sequence of two blocks, to which `C38_cbc` applies. -/
example : ∃ s, CBC.init .py2 (List.replicate 16 7) (some (List.replicate 16 1)) = .ok s ∧
    ∀ c ∈ [List.replicate 16 (2 : UInt8), List.replicate 16 3], c.length = 16 := by
  obtain ⟨s, hs⟩ := (C38_objects .py2 (List.replicate 16 7) (List.replicate 16 1) 0 8 (by simp)
    (by simp)).2.1
  exact ⟨s, hs, by simp⟩

/-! ### C39 -/

/-- The concatenated output and the final state depend only on the concatenated input. -/
def SplitFree {σ : Type} (call : Call σ) (s : σ) (chunk : Bytes → Prop) : Prop :=
  ∀ xs ys : List Bytes, (∀ c ∈ xs, chunk c) → (∀ c ∈ ys, chunk c) → xs.flatten = ys.flatten →
    ∃ us vs t, runCalls call s xs = .ok (us, t) ∧ runCalls call s ys = .ok (vs, t) ∧
      us.flatten = vs.flatten ∧ us.map List.length = xs.map List.length

theorem splitFree_units {σ : Type} {u : Nat} {Inv : σ → Prop} {f : σ → Bytes → Bytes × σ}
    {call : Call σ} (hu : UnitOk u Inv f) {P : Bytes → Prop} (hP : ∀ d, P d → u ∣ d.length)
    (hcall : ∀ s d, Inv s → P d → call s d = .ok (runUnits u f s d)) (s : σ) (hs : Inv s) :
    SplitFree call s P := by
  intro xs ys hx hy hxy
  obtain ⟨us, a1, a2, a3⟩ := runCalls_units hu hP hcall s hs xs hx
  obtain ⟨vs, b1, b2, _⟩ := runCalls_units hu hP hcall s hs ys hy
  exact ⟨us, vs, _, a1, by rw [b1, hxy], by rw [a2, b2, hxy], a3⟩

/-- C39, OFB. -/
theorem C39_ofb (ver : PyVer) (key : Bytes) (iv : Option Bytes) (s : OFB)
    (h : OFB.init ver key iv = .ok s) :
    SplitFree OFB.encrypt s (fun _ => True) ∧ SplitFree OFB.decrypt s (fun _ => True) := by
  obtain ⟨A, E, D, hb, hs⟩ := ofb_of_init h
  exact ⟨splitFree_units (ofb_unit hb) (fun _ _ => one_dvd _)
      (fun s x hs _ => ofbEncrypt_eq hb s hs x) s hs,
    splitFree_units (ofb_unit hb) (fun _ _ => one_dvd _)
      (fun s x hs _ => ofbEncrypt_eq hb s hs x) s hs⟩

/-- C39, CTR. -/
theorem C39_ctr (ver : PyVer) (key : Bytes) (v : Option Int) (s : CTR)
    (h : CTR.init ver key v = .ok s) :
    SplitFree CTR.encrypt s (fun _ => True) ∧ SplitFree CTR.decrypt s (fun _ => True) := by
  obtain ⟨A, E, D, hb, hs⟩ := ctr_of_init h
  exact ⟨splitFree_units (ctr_unit hb) (fun _ _ => one_dvd _)
      (fun s x hs _ => ctrEncrypt_eq hb s hs x) s hs,
    splitFree_units (ctr_unit hb) (fun _ _ => one_dvd _)
      (fun s x hs _ => ctrEncrypt_eq hb s hs x) s hs⟩

/-- C39, CFB on chunks made of whole segments. -/
theorem C39_cfb (ver : PyVer) (key : Bytes) (iv : Option Bytes) (seg : Nat) (hseg : seg ≤ 16) (s : CFB)
    (h : CFB.init ver key iv seg = .ok s) :
    SplitFree CFB.encrypt s (fun c => max seg 1 ∣ c.length) ∧
    SplitFree CFB.decrypt s (fun c => max seg 1 ∣ c.length) := by
  obtain ⟨A, E, D, hb, hs⟩ := cfb_of_init h
  have h1 : 0 < max seg 1 := by omega
  have h16 : max seg 1 ≤ 16 := by omega
  exact ⟨splitFree_units (cfb_unit hb h1 h16) (fun _ hd => hd)
      (fun s x hs hx => cfbEncrypt_eq hb h1 h16 s hs x hx) s hs,
    splitFree_units (cfb_unit_dec hb h1 h16) (fun _ hd => hd)
      (fun s x hs hx => cfbDecrypt_eq hb h1 h16 s hs x hx) s hs⟩

/-- Two splits of one input, to which C39 applies. -/
example : [[1, 2, 3], [], [4, 5]].flatten = [[(1 : UInt8)], [2, 3, 4, 5]].flatten := rfl

/-! ### C40 -/

/-- C40: `increment` adds one modulo `2^128`. -/
theorem C40_increment (c : Bytes) (h : c.length = 16) :
    (counterIncrement c).length = 16 ∧
    bytesVal (counterIncrement c) = (bytesVal c + 1) % 2 ^ 128 := by
  refine ⟨by rw [counterIncrement, counterLoop_length, h], ?_⟩
  rw [counterIncrement_val, h]; rfl

/-- C40: `Counter(v)` starts at `v mod 2^128`. -/
theorem C40_init (v : Int) :
    (counterInit v).length = 16 ∧ (bytesVal (counterInit v) : Int) = v % 2 ^ 128 :=
  ⟨counterInit_length v, counterInit_val v⟩

/-- C40: the counter of block `k`. -/
theorem C40_blocks (v : Int) (k : Nat) :
    (counterIncrement^[k] (counterInit v)).length = 16 ∧
    (bytesVal (counterIncrement^[k] (counterInit v)) : Int) = (v + k) % 2 ^ 128 := by
  induction k with
  | zero => simpa using C40_init v
  | succ k ih =>
    rw [Function.iterate_succ_apply']
    obtain ⟨h1, h2⟩ := C40_increment _ ih.1
    refine ⟨h1, ?_⟩
    rw [h2]
    have h3 := ih.2
    omega

/-- C40: `2^128` consecutive blocks use distinct counters. -/
theorem C40_distinct (v : Int) (i j : Nat) (hi : i < 2 ^ 128) (hj : j < 2 ^ 128)
    (h : counterIncrement^[i] (counterInit v) = counterIncrement^[j] (counterInit v)) : i = j := by
  have h1 := (C40_blocks v i).2
  have h2 := (C40_blocks v j).2
  rw [h, h2] at h1
  omega

/-- A counter that carries through every byte. -/
example : counterIncrement (List.replicate 16 255) = List.replicate 16 0 ∧
    counterIncrement (List.replicate 15 9 ++ [255]) = List.replicate 14 9 ++ [10, 0] := by decide

/-! ### C41 -/

/-- Feeding a message in non-empty chunks and the result, split into any non-empty chunks, back. -/
def FeederRoundTrip {σ : Type} (ver : PyVer) (k : Kind) (enc dec : Call σ) (s : σ) : Prop :=
  ∀ chunks : List Bytes, (∀ c ∈ chunks, c ≠ []) →
    ∃ ct, encrypterRun k enc s chunks = .ok ct ∧
      ∀ cs : List Bytes, (∀ c ∈ cs, c ≠ []) → cs.flatten = ct →
        decrypterRun ver k dec s cs = .ok chunks.flatten

/-- C41, ECB in Python 2, non-empty chunks. -/
theorem C41_ecb_partial (key : Bytes) (A : AES) (h : AES.init .py2 key = .ok A) :
    FeederRoundTrip .py2 .block ecbEncrypt ecbDecrypt A := by
  obtain ⟨E, D, hb⟩ := blk_of_init h
  intro chunks hne
  refine feeder_block (ecb_unit hb) (ecb_unit_dec hb) ?_ ?_ ?_ A rfl chunks hne
  · rintro _ x rfl hx; exact ecbEncrypt_eq hb x hx
  · rintro _ x rfl hx; exact ecbDecrypt_eq hb x hx
  · rintro _ x rfl hx; simp only [ecbE, hb.de x hx]

/-- C41, CBC in Python 2, non-empty chunks. -/
theorem C41_cbc_partial (key : Bytes) (iv : Option Bytes) (s : CBC)
    (h : CBC.init .py2 key iv = .ok s) :
    FeederRoundTrip .py2 .block CBC.encrypt CBC.decrypt s := by
  obtain ⟨A, E, D, hb, hs⟩ := cbc_of_init h
  intro chunks hne
  exact feeder_block (cbc_unit hb) (cbc_unit_dec hb) (fun s x hs hx => cbcEncrypt_eq hb s hs x hx)
    (fun s x hs hx => cbcDecrypt_eq hb s hs x hx) (cbc_inverse hb) s hs chunks hne

/-- C41, CFB in Python 2, segment size up to 16, non-empty chunks of any length. -/
theorem C41_cfb_partial (key : Bytes) (iv : Option Bytes) (seg : Nat) (hseg : seg ≤ 16) (s : CFB)
    (h : CFB.init .py2 key iv seg = .ok s) :
    FeederRoundTrip .py2 (.segment s.seg) CFB.encrypt CFB.decrypt s := by
  obtain ⟨A, E, D, hb, hs⟩ := cfb_of_init h
  have h1 : 0 < max seg 1 := by omega
  have h16 : max seg 1 ≤ 16 := by omega
  intro chunks hne
  rw [hs.2.2]
  exact feeder_segment (cfb_unit hb h1 h16) (cfb_unit_dec hb h1 h16)
    (fun s x hs hx => cfbEncrypt_eq hb h1 h16 s hs x hx)
    (fun s x hs hx => cfbDecrypt_eq hb h1 h16 s hs x hx) (cfb_inverse hb h16) (cfb_prefix E) .py2 s hs
    chunks hne

/-- C41, OFB in Python 2, non-empty chunks. -/
theorem C41_ofb_partial (key : Bytes) (iv : Option Bytes) (s : OFB)
    (h : OFB.init .py2 key iv = .ok s) :
    FeederRoundTrip .py2 .stream OFB.encrypt OFB.decrypt s := by
  obtain ⟨A, E, D, hb, hs⟩ := ofb_of_init h
  intro chunks hne
  exact feeder_stream (ofb_unit hb) (fun s d hs => ofbEncrypt_eq hb s hs d) (ofb_inverse hb) .py2 s hs
    chunks hne

/-- C41, CTR in Python 2, non-empty chunks. -/
theorem C41_ctr_partial (key : Bytes) (v : Option Int) (s : CTR)
    (h : CTR.init .py2 key v = .ok s) :
    FeederRoundTrip .py2 .stream CTR.encrypt CTR.decrypt s := by
  obtain ⟨A, E, D, hb, hs⟩ := ctr_of_init h
  intro chunks hne
  exact feeder_stream (ctr_unit hb) (fun s d hs => ctrEncrypt_eq hb s hs d) (ctr_inverse hb) .py2 s hs
    chunks hne

/-- C41 is false of empty chunks: an empty chunk finishes the feeder, so the message `m` fed as an empty
chunk followed by `m` raises `ValueError`, in every mode that can finish. -/
theorem C41_empty_chunk_false {σ : Type} (k : Kind) (call final : Call σ) (f : Feeder σ) (r : Bytes)
    (f' : Feeder σ) (m : Option Bytes) (h : f.feed k call final (some []) = .ok (r, f')) :
    f'.feed k call final m = .error .valueError := by
  unfold Feeder.feed at h ⊢
  cases hb : f.buffer with
  | none => rw [hb] at h; cases h
  | some buf =>
    rw [hb] at h
    simp only at h
    rw [bind_ok_iff] at h
    obtain ⟨x, _, hx⟩ := h
    injection hx with hx
    injection hx with _ hx
    rw [← hx]

/-- An OFB feeder finishes on an empty chunk, so `C41_empty_chunk_false` applies to it. -/
example (s : OFB) : Feeder.feed .stream OFB.encrypt OFB.encrypt { mode := s, buffer := some [] }
    (some []) = .ok ([], { mode := s, buffer := none }) := rfl

/-- C41 is false in Python 3: feeding any non-empty chunk raises `TypeError`. -/
theorem C41_python3_false (k : Kind) (c : Bytes) (hc : c ≠ []) :
    feedPy3 k false (some c) = .error .typeError := by
  cases c with
  | nil => exact absurd rfl hc
  | cons x xs => rfl

/-- Chunks to which C41 applies. -/
example : ∀ c ∈ [[(1 : UInt8)], List.replicate 40 2], c ≠ [] := by decide

/-! ### C42 -/

/-- C42, Python 2: stripping inverts appending. -/
theorem C42_strip_append_partial (d : Bytes) :
    16 ∣ (appendPadding d).length ∧ d.length < (appendPadding d).length ∧
    (appendPadding d).length ≤ d.length + 16 ∧
    stripPadding .py2 (appendPadding d) = .ok d := by
  have hl := appendPadding_length d
  have h16 : 16 ∣ (appendPadding d).length := by omega
  refine ⟨h16, by omega, by omega, ?_⟩
  set pad := 16 - d.length % 16 with hpad
  have hpadN : (UInt8.ofNat pad).toNat = pad := ofNat_toNat_lt (by omega)
  have hlast : (appendPadding d).getLast? = some (UInt8.ofNat pad) := by
    unfold appendPadding
    simp only [← hpad]
    obtain ⟨q, hq⟩ : ∃ q, pad = q + 1 := ⟨pad - 1, by omega⟩
    rw [hq, List.replicate_succ', ← List.append_assoc, List.getLast?_append]
    simp
  unfold stripPadding
  rw [if_neg (by omega), hlast]
  simp only [hpadN]
  rw [if_neg (by omega), if_neg (by omega), hl, show d.length + pad - pad = d.length from by omega]
  unfold appendPadding
  rw [List.take_left' rfl]

/-- C42, Python 2: what is rejected — a length that is not a multiple of 16, the empty string, and a
last byte above 16.  The other padding bytes are not looked at. -/
theorem C42_rejected_partial (d : Bytes) :
    (∃ e, stripPadding .py2 d = .error e) ↔
      ¬ 16 ∣ d.length ∨ d = [] ∨ ∃ b, d.getLast? = some b ∧ 16 < b.toNat := by
  unfold stripPadding
  by_cases h : d.length % 16 ≠ 0
  · rw [if_pos h]
    exact ⟨fun _ => .inl (by omega), fun _ => ⟨_, rfl⟩⟩
  · rw [if_neg h]
    cases hg : d.getLast? with
    | none => exact ⟨fun _ => .inr (.inl (List.getLast?_eq_none_iff.1 hg)), fun _ => ⟨_, rfl⟩⟩
    | some b =>
      simp only
      constructor
      · rintro ⟨e, he⟩
        split_ifs at he with hb
        exact .inr (.inr ⟨b, rfl, hb⟩)
      · rintro (hd | rfl | ⟨b', hb', h16⟩)
        · exact absurd hd (by omega)
        · simp at hg
        · injection hb' with hb'; subst hb'
          exact ⟨_, by rw [if_pos h16]⟩

/-- C42 is false: malformed padding is accepted.  No message pads to fifteen zeros and a 2, nor to
sixteen zeros, yet both are stripped without an error. -/
theorem C42_malformed_false :
    (stripPadding .py2 (List.replicate 15 0 ++ [2]) = .ok (List.replicate 14 0) ∧
      ∀ d, appendPadding d ≠ List.replicate 15 0 ++ [2]) ∧
    (stripPadding .py2 (List.replicate 16 0) = .ok [] ∧
      ∀ d, appendPadding d ≠ List.replicate 16 0) := by
  have key : ∀ d x r, appendPadding d = x → stripPadding .py2 x = .ok r → r = d := by
    rintro d x r rfl h
    rw [(C42_strip_append_partial d).2.2.2] at h
    injection h with h; exact h.symm
  have h1 : stripPadding .py2 (List.replicate 15 0 ++ [2]) = .ok (List.replicate 14 0) := by decide
  have h2 : stripPadding .py2 (List.replicate 16 0) = .ok [] := by decide
  refine ⟨⟨h1, fun d hd => ?_⟩, h2, fun d hd => ?_⟩
  · have := key d _ _ hd h1
    subst this
    revert hd; decide
  · have := key d _ _ hd h2
    subst this
    revert hd; decide

/-- C42 is false in Python 3: `ord` of an `int` raises `TypeError` on every padded string. -/
theorem C42_python3_false (d : Bytes) :
    stripPadding .py3 (appendPadding d) = .error .typeError := by
  have hl := appendPadding_length d
  unfold stripPadding
  rw [if_neg (by omega)]
  cases hg : (appendPadding d).getLast? with
  | none =>
    rw [List.getLast?_eq_none_iff.1 hg] at hl
    simp at hl; omega
  | some b => rfl

end NBC.Props
