import Verif.Model.AesModes
import Verif.Proofs.AesInit

/-!
# Modes of operation: every mode is a fold over units of data

`runUnits u f s d` cuts `d` into pieces of `u` bytes and threads the state through `f`.  Each mode is
shown to compute such a fold, from which the round trips and the independence of chunk boundaries
follow for every mode at once.
-/

namespace NBC.Aes

open NBC.Spec.Aes

/-! ### Folding over units -/

/-- Thread the state through the pieces of `u` bytes of `d`; `n` bounds the number of pieces. -/
def runUnitsN {σ : Type} (u : Nat) (f : σ → Bytes → Bytes × σ) : Nat → σ → Bytes → Bytes × σ
  | 0, s, _ => ([], s)
  | n + 1, s, d =>
    if d = [] then ([], s)
    else
      let r := f s (d.take u)
      let q := runUnitsN u f n r.2 (d.drop u)
      (r.1 ++ q.1, q.2)

/-- Thread the state through the pieces of `u` bytes of `d`. -/
def runUnits {σ : Type} (u : Nat) (f : σ → Bytes → Bytes × σ) (s : σ) (d : Bytes) : Bytes × σ :=
  runUnitsN u f d.length s d

theorem runUnitsN_stable {σ : Type} {u : Nat} (hu : 0 < u) (f : σ → Bytes → Bytes × σ) (n m : Nat)
    (s : σ) (d : Bytes) (hn : d.length ≤ n) (hm : d.length ≤ m) :
    runUnitsN u f n s d = runUnitsN u f m s d := by
  induction n generalizing m s d with
  | zero =>
    have : d = [] := List.length_eq_zero_iff.1 (by omega)
    subst this
    cases m <;> simp [runUnitsN]
  | succ n ih =>
    cases m with
    | zero =>
      have : d = [] := List.length_eq_zero_iff.1 (by omega)
      subst this
      simp [runUnitsN]
    | succ m =>
      simp only [runUnitsN]
      by_cases h : d = []
      · simp [h]
      · have : 0 < d.length := List.length_pos_iff.2 h
        rw [if_neg h, if_neg h, ih m _ _ (by rw [List.length_drop]; omega)
          (by rw [List.length_drop]; omega)]

theorem runUnits_nil {σ : Type} (u : Nat) (f : σ → Bytes → Bytes × σ) (s : σ) :
    runUnits u f s [] = ([], s) := rfl

theorem runUnits_step {σ : Type} {u : Nat} (hu : 0 < u) (f : σ → Bytes → Bytes × σ) (s : σ)
    (d : Bytes) (h : d ≠ []) :
    runUnits u f s d = ((f s (d.take u)).1 ++ (runUnits u f (f s (d.take u)).2 (d.drop u)).1,
      (runUnits u f (f s (d.take u)).2 (d.drop u)).2) := by
  have hpos : 0 < d.length := List.length_pos_iff.2 h
  obtain ⟨n, hn⟩ : ∃ n, d.length = n + 1 := ⟨d.length - 1, by omega⟩
  unfold runUnits
  rw [hn]
  simp only [runUnitsN]
  rw [if_neg h]
  rw [runUnitsN_stable hu f n (d.drop u).length _ _ (by rw [List.length_drop]; omega) (le_refl _)]

theorem runUnits_append {σ : Type} {u : Nat} (hu : 0 < u) (f : σ → Bytes → Bytes × σ) (s : σ)
    (a b : Bytes) (ha : u ∣ a.length) :
    runUnits u f s (a ++ b) = ((runUnits u f s a).1 ++ (runUnits u f (runUnits u f s a).2 b).1,
      (runUnits u f (runUnits u f s a).2 b).2) := by
  induction hn : a.length using Nat.strong_induction_on generalizing a s with
  | _ n ih =>
    by_cases h : a = []
    · subst h; simp [runUnits_nil]
    · have hpos : 0 < a.length := List.length_pos_iff.2 h
      have hle : u ≤ a.length := Nat.le_of_dvd hpos ha
      have hne : a ++ b ≠ [] := by simp [h]
      rw [runUnits_step hu f s (a ++ b) hne, runUnits_step hu f s a h,
        List.take_append_of_le_length hle, List.drop_append_of_le_length hle,
        ih (a.drop u).length (by rw [List.length_drop]; omega) (f s (a.take u)).2 (a.drop u)
          (by rw [List.length_drop]; exact Nat.dvd_sub ha (dvd_refl u)) rfl]
      simp

theorem runUnits_one {σ : Type} {u : Nat} (hu : 0 < u) (f : σ → Bytes → Bytes × σ) (s : σ)
    (a : Bytes) (ha : a.length = u) : runUnits u f s a = f s a := by
  have h : a ≠ [] := by intro h; subst h; simp at ha; omega
  have e : a.drop u = [] := List.drop_eq_nil_of_le (by omega)
  rw [runUnits_step hu f s a h, List.take_of_length_le (by omega), e, runUnits_nil]
  simp

/-- An invariant of the state and the length of the output of one unit. -/
structure UnitOk {σ : Type} (u : Nat) (Inv : σ → Prop) (f : σ → Bytes → Bytes × σ) : Prop where
  pos : 0 < u
  len : ∀ s d, Inv s → d.length = u → (f s d).1.length = u
  inv : ∀ s d, Inv s → d.length = u → Inv (f s d).2

theorem UnitOk.run {σ : Type} {u : Nat} {Inv : σ → Prop} {f : σ → Bytes → Bytes × σ}
    (h : UnitOk u Inv f) (s : σ) (d : Bytes) (hs : Inv s) (hd : u ∣ d.length) :
    (runUnits u f s d).1.length = d.length ∧ Inv (runUnits u f s d).2 := by
  induction hn : d.length using Nat.strong_induction_on generalizing d s with
  | _ n ih =>
    by_cases he : d = []
    · subst he; simp only [runUnits_nil]; exact ⟨hn, hs⟩
    · have hpos : 0 < d.length := List.length_pos_iff.2 he
      have hle : u ≤ d.length := Nat.le_of_dvd hpos hd
      have hu := h.pos
      have htl : (d.take u).length = u := by rw [List.length_take]; omega
      rw [runUnits_step h.pos f s d he]
      have := ih (d.drop u).length (by rw [List.length_drop]; omega) (f s (d.take u)).2 (d.drop u)
        (h.inv s _ hs htl) (by rw [List.length_drop]; exact Nat.dvd_sub hd (dvd_refl u)) rfl
      refine ⟨?_, this.2⟩
      simp only [List.length_append]
      rw [h.len s _ hs htl, this.1, List.length_drop]
      omega

/-- Decrypting unit by unit undoes encrypting, and both objects go through the same states. -/
theorem runUnits_inverse {σ : Type} {u : Nat} {Inv : σ → Prop} {e d : σ → Bytes → Bytes × σ}
    (he : UnitOk u Inv e)
    (hinv : ∀ s x, Inv s → x.length = u → d s (e s x).1 = (x, (e s x).2))
    (s : σ) (x : Bytes) (hs : Inv s) (hx : u ∣ x.length) :
    runUnits u d s (runUnits u e s x).1 = (x, (runUnits u e s x).2) := by
  induction hn : x.length using Nat.strong_induction_on generalizing x s with
  | _ n ih =>
    by_cases hne : x = []
    · subst hne; simp [runUnits_nil]
    · have hpos : 0 < x.length := List.length_pos_iff.2 hne
      have hle : u ≤ x.length := Nat.le_of_dvd hpos hx
      have hu := he.pos
      have htl : (x.take u).length = u := by rw [List.length_take]; omega
      have hdl : u ∣ (x.drop u).length := by
        rw [List.length_drop]; exact Nat.dvd_sub hx (dvd_refl u)
      have := ih (x.drop u).length (by rw [List.length_drop]; omega) (e s (x.take u)).2 (x.drop u)
        (he.inv s _ hs htl) hdl rfl
      rw [runUnits_step he.pos e s x hne]
      simp only
      have hl := he.len s _ hs htl
      rw [runUnits_append he.pos d s _ _ (by rw [hl]), runUnits_one he.pos d s _ hl,
        hinv s _ hs htl]
      simp only
      rw [this]
      simp

/-! ### Block ciphers -/

/-- `A` computes the permutation `E` of 16-byte blocks and its inverse `D`. -/
structure Blk (A : AES) (E D : Bytes → Bytes) : Prop where
  enc : ∀ b : Bytes, b.length = 16 → A.encrypt b = .ok (E b)
  dec : ∀ b : Bytes, b.length = 16 → A.decrypt b = .ok (D b)
  elen : ∀ b : Bytes, b.length = 16 → (E b).length = 16
  dlen : ∀ b : Bytes, b.length = 16 → (D b).length = 16
  de : ∀ b : Bytes, b.length = 16 → D (E b) = b
  ed : ∀ b : Bytes, b.length = 16 → E (D b) = b

theorem ofState_length (s : State) : (ofState s).length = 16 := rfl

theorem AesOk.blk {A : AES} {w : List Word} {nr : Nat} (h : AesOk A w nr) :
    ∃ E D, Blk A E D := by
  let f : (State → State) → Bytes → Bytes := fun g b =>
    match toState b with
    | some s => ofState (g s)
    | none => []
  have hf : ∀ g (b : Bytes), b.length = 16 → ∃ s, toState b = some s ∧ ofState s = b ∧
      f g b = ofState (g s) := by
    intro g b hb
    obtain ⟨s, h1, h2⟩ := toState_isSome hb
    exact ⟨s, h1, h2, by simp only [f, h1]⟩
  refine ⟨f (cipher w nr), f (invCipher w nr), ?_, ?_, ?_, ?_, ?_, ?_⟩
  · intro b hb
    obtain ⟨s, h1, _, h3⟩ := hf (cipher w nr) b hb
    rw [h3, encrypt_ok h h1]
  · intro b hb
    obtain ⟨s, h1, _, h3⟩ := hf (invCipher w nr) b hb
    rw [h3, decrypt_ok h h1]
  · intro b hb
    obtain ⟨s, _, _, h3⟩ := hf (cipher w nr) b hb
    rw [h3, ofState_length]
  · intro b hb
    obtain ⟨s, _, _, h3⟩ := hf (invCipher w nr) b hb
    rw [h3, ofState_length]
  · intro b hb
    obtain ⟨s, _, h2, h3⟩ := hf (cipher w nr) b hb
    rw [h3]
    show f (invCipher w nr) (ofState (cipher w nr s)) = b
    simp only [f, toState_ofState, invCipher_cipher, h2]
  · intro b hb
    obtain ⟨s, _, h2, h3⟩ := hf (invCipher w nr) b hb
    rw [h3]
    show f (cipher w nr) (ofState (invCipher w nr s)) = b
    simp only [f, toState_ofState, cipher_invCipher, h2]

theorem init_blk {ver : PyVer} {key : Bytes} (h : KeyOk ver key) :
    ∃ A E D, AES.init ver key = .ok A ∧ Blk A E D := by
  obtain ⟨A, h1, h2⟩ := init_ok h
  obtain ⟨E, D, h3⟩ := h2.blk
  exact ⟨A, E, D, h1, h3⟩

/-! ### Exclusive or of byte strings -/

theorem xorBytes_length (a b : Bytes) : (xorBytes a b).length = min a.length b.length := by
  simp [xorBytes]

theorem xorBytes_cancel (a b : Bytes) (h : a.length ≤ b.length) : xorBytes (xorBytes a b) b = a := by
  induction a generalizing b with
  | nil => simp [xorBytes]
  | cons x xs ih =>
    cases b with
    | nil => simp at h
    | cons y ys =>
      have := ih ys (by simpa using h)
      unfold xorBytes at this ⊢
      simp only [List.zipWith_cons_cons, this, UInt8.xor_assoc, UInt8.xor_self, UInt8.xor_zero]

theorem xorBytes_take (a b : Bytes) (n : Nat) :
    (xorBytes a b).take n = xorBytes (a.take n) (b.take n) := by
  simp [xorBytes, List.take_zipWith]

theorem xorBytes_take_right (a b : Bytes) : xorBytes a (b.take a.length) = xorBytes a b := by
  induction a generalizing b with
  | nil => simp [xorBytes]
  | cons x xs ih =>
    cases b with
    | nil => simp [xorBytes]
    | cons y ys =>
      have := ih ys
      unfold xorBytes at this ⊢
      simp [this]

/-! ### The units of the modes -/

variable {A : AES} {E D : Bytes → Bytes}

/-- One unit of ECB. -/
def ecbE (E : Bytes → Bytes) : AES → Bytes → Bytes × AES := fun s d => (E d, s)

theorem ecb_unit (h : Blk A E D) : UnitOk 16 (fun s => s = A) (ecbE E) :=
  ⟨by omega, fun _ d _ hd => h.elen d hd, fun _ _ hs _ => hs⟩

theorem ecb_unit_dec (h : Blk A E D) : UnitOk 16 (fun s => s = A) (ecbE D) :=
  ⟨by omega, fun _ d _ hd => h.dlen d hd, fun _ _ hs _ => hs⟩

theorem ecbEncrypt_eq (h : Blk A E D) (d : Bytes) (hd : d.length = 16) :
    ecbEncrypt A d = .ok (ecbE E A d) := by
  unfold ecbEncrypt
  rw [if_neg (by omega), h.enc d hd]; rfl

theorem ecbDecrypt_eq (h : Blk A E D) (d : Bytes) (hd : d.length = 16) :
    ecbDecrypt A d = .ok (ecbE D A d) := by
  unfold ecbDecrypt
  rw [if_neg (by omega), h.dec d hd]; rfl

/-- One unit of CBC encryption. -/
def cbcE (E : Bytes → Bytes) : CBC → Bytes → Bytes × CBC :=
  fun s d => (E (xorBytes d s.last), { s with last := E (xorBytes d s.last) })

/-- One unit of CBC decryption. -/
def cbcD (D : Bytes → Bytes) : CBC → Bytes → Bytes × CBC :=
  fun s d => (xorBytes (D d) s.last, { s with last := d })

/-- The states of CBC objects. -/
def cbcInv (A : AES) (s : CBC) : Prop := s.aes = A ∧ s.last.length = 16

theorem cbc_unit (h : Blk A E D) : UnitOk 16 (cbcInv A) (cbcE E) := by
  refine ⟨by omega, ?_, ?_⟩
  · intro s d hs hd
    exact h.elen _ (by rw [xorBytes_length, hd, hs.2]; rfl)
  · intro s d hs hd
    exact ⟨hs.1, h.elen _ (by rw [xorBytes_length, hd, hs.2]; rfl)⟩

theorem cbc_unit_dec (h : Blk A E D) : UnitOk 16 (cbcInv A) (cbcD D) := by
  refine ⟨by omega, ?_, fun s d hs hd => ⟨hs.1, hd⟩⟩
  intro s d hs hd
  show (xorBytes (D d) s.last).length = 16
  rw [xorBytes_length, h.dlen d hd, hs.2]; rfl

theorem cbcEncrypt_eq (h : Blk A E D) (s : CBC) (hs : cbcInv A s) (d : Bytes) (hd : d.length = 16) :
    s.encrypt d = .ok (cbcE E s d) := by
  unfold CBC.encrypt
  obtain ⟨a, l⟩ := s
  obtain ⟨rfl, hl⟩ := hs
  rw [if_neg (by omega), h.enc _ (by rw [xorBytes_length, hd, hl]; rfl)]; rfl

theorem cbcDecrypt_eq (h : Blk A E D) (s : CBC) (hs : cbcInv A s) (d : Bytes) (hd : d.length = 16) :
    s.decrypt d = .ok (cbcD D s d) := by
  unfold CBC.decrypt
  obtain ⟨a, l⟩ := s
  obtain ⟨rfl, hl⟩ := hs
  rw [if_neg (by omega), h.dec _ hd]; rfl

theorem cbc_inverse (h : Blk A E D) (s : CBC) (x : Bytes) (hs : cbcInv A s) (hx : x.length = 16) :
    cbcD D s (cbcE E s x).1 = (x, (cbcE E s x).2) := by
  have hl : (xorBytes x s.last).length = 16 := by rw [xorBytes_length, hx, hs.2]; rfl
  unfold cbcD cbcE
  simp only [h.de _ hl, xorBytes_cancel x s.last (by rw [hx, hs.2])]

/-- One unit of CFB encryption. -/
def cfbE (E : Bytes → Bytes) : CFB → Bytes → Bytes × CFB :=
  fun s d => (xorBytes d (E s.reg),
    { s with reg := s.reg.drop (xorBytes d (E s.reg)).length ++ xorBytes d (E s.reg) })

/-- One unit of CFB decryption. -/
def cfbD (E : Bytes → Bytes) : CFB → Bytes → Bytes × CFB :=
  fun s d => (xorBytes d (E s.reg), { s with reg := s.reg.drop d.length ++ d })

/-- The states of CFB objects with segments of `seg` bytes. -/
def cfbInv (A : AES) (seg : Nat) (s : CFB) : Prop := s.aes = A ∧ s.reg.length = 16 ∧ s.seg = seg

theorem cfb_unit (h : Blk A E D) {seg : Nat} (h1 : 0 < seg) (h16 : seg ≤ 16) :
    UnitOk seg (cfbInv A seg) (cfbE E) := by
  refine ⟨h1, ?_, ?_⟩
  · intro s d hs hd
    show (xorBytes d (E s.reg)).length = seg
    rw [xorBytes_length, hd, h.elen _ hs.2.1]; omega
  · intro s d hs hd
    have : (xorBytes d (E s.reg)).length = seg := by
      rw [xorBytes_length, hd, h.elen _ hs.2.1]; omega
    refine ⟨hs.1, ?_, hs.2.2⟩
    show (s.reg.drop (xorBytes d (E s.reg)).length ++ xorBytes d (E s.reg)).length = 16
    rw [List.length_append, List.length_drop, this, hs.2.1]; omega

theorem cfb_unit_dec (h : Blk A E D) {seg : Nat} (h1 : 0 < seg) (h16 : seg ≤ 16) :
    UnitOk seg (cfbInv A seg) (cfbD E) := by
  refine ⟨h1, ?_, ?_⟩
  · intro s d hs hd
    show (xorBytes d (E s.reg)).length = seg
    rw [xorBytes_length, hd, h.elen _ hs.2.1]; omega
  · intro s d hs hd
    refine ⟨hs.1, ?_, hs.2.2⟩
    show (s.reg.drop d.length ++ d).length = 16
    rw [List.length_append, List.length_drop, hd, hs.2.1]; omega

theorem cfb_inverse (h : Blk A E D) {seg : Nat} (h16 : seg ≤ 16) (s : CFB) (x : Bytes)
    (hs : cfbInv A seg s) (hx : x.length = seg) :
    cfbD E s (cfbE E s x).1 = (x, (cfbE E s x).2) := by
  unfold cfbD cfbE
  simp only
  rw [xorBytes_cancel x _ (by rw [hx, h.elen _ hs.2.1]; omega)]

theorem cfbEncLoop_eq (h : Blk A E D) {seg : Nat} (h1 : 0 < seg) (h16 : seg ≤ 16) (n : Nat) (s : CFB)
    (hs : cfbInv A seg s) (d : Bytes) (hd : seg ∣ d.length) :
    CFB.encLoop n s d = .ok (runUnitsN seg (cfbE E) n s d) := by
  induction n generalizing s d with
  | zero => rfl
  | succ n ih =>
    simp only [CFB.encLoop, runUnitsN]
    by_cases hne : d = []
    · simp [hne]
    · have hpos : 0 < d.length := List.length_pos_iff.2 hne
      have hle : seg ≤ d.length := Nat.le_of_dvd hpos hd
      have htl : (d.take seg).length = seg := by rw [List.length_take]; omega
      have hi := (cfb_unit h h1 h16).inv s _ hs htl
      rw [if_neg hne, if_neg hne, hs.1, h.enc _ hs.2.1, ok_bind, hs.2.2]
      simp only [xorBytes_take_right]
      have := ih (cfbE E s (d.take seg)).2 hi (d.drop seg)
        (by rw [List.length_drop]; exact Nat.dvd_sub hd (dvd_refl seg))
      rw [show ({ aes := A, reg := s.reg.drop (xorBytes (d.take seg) (E s.reg)).length ++
          xorBytes (d.take seg) (E s.reg), seg := seg } : CFB) = (cfbE E s (d.take seg)).2 by
        unfold cfbE; rw [← hs.1, ← hs.2.2], this, ok_bind]
      rfl

theorem cfbDecLoop_eq (h : Blk A E D) {seg : Nat} (h1 : 0 < seg) (h16 : seg ≤ 16) (n : Nat) (s : CFB)
    (hs : cfbInv A seg s) (d : Bytes) (hd : seg ∣ d.length) :
    CFB.decLoop n s d = .ok (runUnitsN seg (cfbD E) n s d) := by
  induction n generalizing s d with
  | zero => rfl
  | succ n ih =>
    simp only [CFB.decLoop, runUnitsN]
    by_cases hne : d = []
    · simp [hne]
    · have hpos : 0 < d.length := List.length_pos_iff.2 hne
      have hle : seg ≤ d.length := Nat.le_of_dvd hpos hd
      have htl : (d.take seg).length = seg := by rw [List.length_take]; omega
      have hi := (cfb_unit_dec h h1 h16).inv s _ hs htl
      rw [if_neg hne, if_neg hne, hs.1, h.enc _ hs.2.1, ok_bind, hs.2.2]
      simp only [xorBytes_take_right]
      have := ih (cfbD E s (d.take seg)).2 hi (d.drop seg)
        (by rw [List.length_drop]; exact Nat.dvd_sub hd (dvd_refl seg))
      rw [show ({ aes := A, reg := s.reg.drop (d.take seg).length ++ d.take seg, seg := seg } : CFB) =
          (cfbD E s (d.take seg)).2 by
        unfold cfbD; rw [← hs.1, ← hs.2.2], this, ok_bind]
      rfl

theorem cfbEncrypt_eq (h : Blk A E D) {seg : Nat} (h1 : 0 < seg) (h16 : seg ≤ 16) (s : CFB)
    (hs : cfbInv A seg s) (d : Bytes) (hd : seg ∣ d.length) :
    s.encrypt d = .ok (runUnits seg (cfbE E) s d) := by
  unfold CFB.encrypt
  rw [hs.2.2, if_neg (by rw [Nat.mod_eq_zero_of_dvd hd]; simp)]
  exact cfbEncLoop_eq h h1 h16 _ s hs d hd

theorem cfbDecrypt_eq (h : Blk A E D) {seg : Nat} (h1 : 0 < seg) (h16 : seg ≤ 16) (s : CFB)
    (hs : cfbInv A seg s) (d : Bytes) (hd : seg ∣ d.length) :
    s.decrypt d = .ok (runUnits seg (cfbD E) s d) := by
  unfold CFB.decrypt
  rw [hs.2.2, if_neg (by rw [Nat.mod_eq_zero_of_dvd hd]; simp)]
  exact cfbDecLoop_eq h h1 h16 _ s hs d hd

/-- The OFB object once the keystream is refilled. -/
def ofbFill (E : Bytes → Bytes) (s : OFB) : OFB :=
  if s.remaining.length = 0 then { s with remaining := E s.last, last := [] } else s

/-- One byte of OFB. -/
def ofbE (E : Bytes → Bytes) : OFB → Bytes → Bytes × OFB :=
  fun s d =>
    let s' := ofbFill E s
    (xorBytes d s'.remaining,
      { s' with remaining := s'.remaining.drop 1, last := s'.last ++ s'.remaining.take 1 })

/-- The states of OFB objects. -/
def ofbInv (A : AES) (s : OFB) : Prop := s.aes = A ∧ s.last.length + s.remaining.length = 16

theorem ofbFill_inv (h : Blk A E D) (s : OFB) (hs : ofbInv A s) :
    ofbInv A (ofbFill E s) ∧ 0 < (ofbFill E s).remaining.length := by
  unfold ofbFill
  by_cases hr : s.remaining.length = 0
  · rw [if_pos hr]
    have : s.last.length = 16 := by have := hs.2; omega
    have he := h.elen _ this
    refine ⟨⟨hs.1, ?_⟩, ?_⟩
    · simp [he]
    · show 0 < (E s.last).length
      omega
  · rw [if_neg hr]
    exact ⟨hs, by omega⟩

theorem ofb_unit (h : Blk A E D) : UnitOk 1 (ofbInv A) (ofbE E) := by
  refine ⟨by omega, ?_, ?_⟩
  · intro s d hs hd
    have := (ofbFill_inv h s hs).2
    show (xorBytes d (ofbFill E s).remaining).length = 1
    rw [xorBytes_length, hd]; omega
  · intro s d hs _
    obtain ⟨⟨ha, hb⟩, hc⟩ := ofbFill_inv h s hs
    refine ⟨ha, ?_⟩
    show ((ofbFill E s).last ++ (ofbFill E s).remaining.take 1).length +
      ((ofbFill E s).remaining.drop 1).length = 16
    rw [List.length_append, List.length_take, List.length_drop]; omega

theorem ofbEncrypt_eq (h : Blk A E D) (s : OFB) (hs : ofbInv A s) (d : Bytes) :
    s.encrypt d = .ok (runUnits 1 (ofbE E) s d) := by
  induction d generalizing s with
  | nil => rfl
  | cons c cs ih =>
    rw [runUnits_step (by omega) _ _ _ (by simp)]
    simp only [List.take_succ_cons, List.take_zero, List.drop_succ_cons, List.drop_zero]
    unfold OFB.encrypt
    have hfill : (if s.remaining.length = 0 then do
        let r ← s.aes.encrypt s.last
        .ok { s with remaining := r, last := [] }
      else .ok s : Py OFB) = .ok (ofbFill E s) := by
      unfold ofbFill
      by_cases hr : s.remaining.length = 0
      · have : s.last.length = 16 := by have := hs.2; omega
        rw [if_pos hr, if_pos hr, hs.1, h.enc _ this]; rfl
      · rw [if_neg hr, if_neg hr]
    rw [hfill, ok_bind]
    obtain ⟨hi, hp⟩ := ofbFill_inv h s hs
    have hu := (ofb_unit h).inv s [c] hs rfl
    unfold ofbE at hu ⊢
    simp only at hu ⊢
    cases hr : (ofbFill E s).remaining with
    | nil => rw [hr] at hp; simp at hp
    | cons k ks =>
      rw [hr] at hu
      simp only [List.drop_succ_cons, List.drop_zero, List.take_succ_cons, List.take_zero] at hu ⊢
      have := ih _ hu
      unfold ofbE at this
      simp only at this
      rw [this, ok_bind]
      rfl

theorem ofb_inverse (h : Blk A E D) (s : OFB) (x : Bytes) (hs : ofbInv A s) (hx : x.length = 1) :
    ofbE E s (ofbE E s x).1 = (x, (ofbE E s x).2) := by
  have := (ofbFill_inv h s hs).2
  unfold ofbE
  simp only
  rw [xorBytes_cancel x _ (by omega)]

/-- The CTR object once there is keystream. -/
def ctrFill (E : Bytes → Bytes) (s : CTR) : CTR :=
  if s.remaining.length = 0 then
    { s with remaining := E s.counter, counter := counterIncrement s.counter }
  else s

/-- One byte of CTR. -/
def ctrE (E : Bytes → Bytes) : CTR → Bytes → Bytes × CTR :=
  fun s d =>
    let s' := ctrFill E s
    (xorBytes d s'.remaining, { s' with remaining := s'.remaining.drop 1 })

/-- The states of CTR objects. -/
def ctrInv (A : AES) (s : CTR) : Prop := s.aes = A ∧ s.counter.length = 16

theorem counterLoop_length (i : Nat) (c : Bytes) : (counterLoop c i).length = c.length := by
  induction i generalizing c with
  | zero => simp [counterLoop]
  | succ i ih =>
    simp only [counterLoop]
    split_ifs
    · simp
    · rw [ih]; simp

theorem ctrFill_inv (h : Blk A E D) (s : CTR) (hs : ctrInv A s) :
    ctrInv A (ctrFill E s) ∧ 0 < (ctrFill E s).remaining.length := by
  unfold ctrFill
  by_cases hr : s.remaining.length = 0
  · rw [if_pos hr]
    have he := h.elen _ hs.2
    refine ⟨⟨hs.1, ?_⟩, ?_⟩
    · show (counterIncrement s.counter).length = 16
      rw [counterIncrement, counterLoop_length, hs.2]
    · show 0 < (E s.counter).length
      omega
  · rw [if_neg hr]
    exact ⟨hs, by omega⟩

theorem ctr_unit (h : Blk A E D) : UnitOk 1 (ctrInv A) (ctrE E) := by
  refine ⟨by omega, ?_, ?_⟩
  · intro s d hs hd
    have := (ctrFill_inv h s hs).2
    show (xorBytes d (ctrFill E s).remaining).length = 1
    rw [xorBytes_length, hd]; omega
  · intro s d hs _
    exact (ctrFill_inv h s hs).1

/-- `CTR.fill` once the keystream is long enough. -/
theorem ctrFill_done (n fuel : Nat) (s : CTR) (h : n ≤ s.remaining.length) :
    CTR.fill n fuel s = .ok s := by
  cases fuel with
  | zero => rfl
  | succ f => simp only [CTR.fill]; rw [if_neg (by omega)]

theorem ctr_fill_ok (h : Blk A E D) (n fuel : Nat) (s : CTR) (hs : ctrInv A s)
    (hf : n ≤ s.remaining.length + fuel) :
    ∃ s', CTR.fill n fuel s = .ok s' ∧ ctrInv A s' ∧ n ≤ s'.remaining.length ∧
      (∃ t, s'.remaining = s.remaining ++ t) ∧ (n ≤ s.remaining.length → s' = s) := by
  induction fuel generalizing s with
  | zero => exact ⟨s, rfl, hs, by omega, ⟨[], by simp⟩, fun _ => rfl⟩
  | succ f ih =>
    simp only [CTR.fill]
    by_cases hc : s.remaining.length < n
    · rw [if_pos hc, hs.1, h.enc _ hs.2, ok_bind]
      have hl := h.elen _ hs.2
      obtain ⟨s', e, a, b, ⟨t, c⟩, _⟩ := ih
        { s with aes := A, remaining := s.remaining ++ E s.counter,
                 counter := counterIncrement s.counter }
        ⟨rfl, by show (counterIncrement s.counter).length = 16
                 rw [counterIncrement, counterLoop_length, hs.2]⟩
        (by simp only [List.length_append]; omega)
      exact ⟨s', e, a, b, ⟨E s.counter ++ t, by rw [c]; simp⟩, fun hh => by omega⟩
    · rw [if_neg hc]
      exact ⟨s, rfl, hs, by omega, ⟨[], by simp⟩, fun _ => rfl⟩

/-- Filling in one go and filling one byte at a time: dropping a byte from the keystream and asking
for one byte less commutes. -/
theorem ctr_fill_drop (h : Blk A E D) (n fuel : Nat) (s s' : CTR) (hs : ctrInv A s)
    (hpos : 0 < s.remaining.length)
    (e : CTR.fill (n + 1) fuel s = .ok s') :
    CTR.fill n fuel { s with remaining := s.remaining.drop 1 } =
      .ok { s' with remaining := s'.remaining.drop 1 } := by
  induction fuel generalizing s with
  | zero => simp only [CTR.fill, Except.ok.injEq] at e ⊢; rw [e]
  | succ f ih =>
    simp only [CTR.fill] at e ⊢
    rw [List.length_drop]
    by_cases hc : s.remaining.length < n + 1
    · rw [if_pos hc, hs.1, h.enc _ hs.2, ok_bind] at e
      rw [if_pos (by omega), hs.1, h.enc _ hs.2, ok_bind]
      have := ih { s with aes := A, remaining := s.remaining ++ E s.counter,
                          counter := counterIncrement s.counter }
        ⟨rfl, by show (counterIncrement s.counter).length = 16
                 rw [counterIncrement, counterLoop_length, hs.2]⟩
        (by simp only [List.length_append]; omega) e
      rw [← this]
      simp only
      rw [List.drop_append_of_le_length (by omega)]
    · rw [if_neg hc] at e
      injection e with e
      rw [if_neg (by omega), e]

theorem ctr_fill_fuel (h : Blk A E D) (n f g : Nat) (s : CTR) (hs : ctrInv A s)
    (hf : n ≤ s.remaining.length + f) (hg : n ≤ s.remaining.length + g) :
    CTR.fill n f s = CTR.fill n g s := by
  induction f generalizing s g with
  | zero => rw [ctrFill_done _ _ _ (by omega), ctrFill_done _ _ _ (by omega)]
  | succ f ih =>
    by_cases hc : s.remaining.length < n
    · cases g with
      | zero => omega
      | succ g =>
        simp only [CTR.fill]
        rw [if_pos hc, if_pos hc, hs.1, h.enc _ hs.2, ok_bind, ok_bind]
        have hl := h.elen _ hs.2
        exact ih g _ ⟨rfl, by show (counterIncrement s.counter).length = 16
                              rw [counterIncrement, counterLoop_length, hs.2]⟩
          (by simp only [List.length_append]; omega) (by simp only [List.length_append]; omega)
    · rw [ctrFill_done _ _ _ (by omega), ctrFill_done _ _ _ (by omega)]

theorem ctrEncrypt_eq (h : Blk A E D) (s : CTR) (hs : ctrInv A s) (d : Bytes) :
    s.encrypt d = .ok (runUnits 1 (ctrE E) s d) := by
  induction d generalizing s with
  | nil =>
    unfold CTR.encrypt
    simp only [List.length_nil, CTR.fill, ok_bind]
    rfl
  | cons c cs ih =>
    rw [runUnits_step (by omega) _ _ _ (by simp)]
    simp only [List.take_succ_cons, List.take_zero, List.drop_succ_cons, List.drop_zero]
    obtain ⟨hi, hp⟩ := ctrFill_inv h s hs
    have hu := (ctr_unit h).inv s [c] hs rfl
    have IH := ih _ hu
    unfold CTR.encrypt at IH ⊢
    -- the filled object
    obtain ⟨s', e, a, b, ⟨t, ht⟩, _⟩ := ctr_fill_ok h (cs.length + 1) (cs.length + 1) (ctrFill E s) hi
      (by omega)
    have hstart : CTR.fill (cs.length + 1) (cs.length + 1) s = .ok s' := by
      rw [← e]
      unfold ctrFill
      by_cases hr : s.remaining.length = 0
      · obtain ⟨sa, sc, sr⟩ := s
        obtain ⟨rfl, hsc⟩ := hs
        rw [if_pos hr]
        conv_lhs => rw [CTR.fill]
        simp only at hr hsc ⊢
        rw [if_pos (by omega), h.enc _ hsc, ok_bind]
        have hnil : sr = [] := List.length_eq_zero_iff.1 hr
        have hl := h.elen _ hsc
        rw [hnil, List.nil_append]
        refine ctr_fill_fuel h _ _ _ _ ⟨rfl, ?_⟩ (by simp only; omega) (by simp only; omega)
        show (counterIncrement sc).length = 16
        rw [counterIncrement, counterLoop_length, hsc]
      · rw [if_neg hr]
    have hdrop := ctr_fill_drop h cs.length (cs.length + 1) (ctrFill E s) s' hi hp e
    have hfuel := ctr_fill_fuel h cs.length cs.length (cs.length + 1)
      { ctrFill E s with remaining := (ctrFill E s).remaining.drop 1 }
      (show ctrInv A _ from hi) (by omega) (by omega)
    have hnext : CTR.fill cs.length cs.length (ctrE E s [c]).2 =
        .ok { s' with remaining := s'.remaining.drop 1 } := by
      rw [← hdrop, ← hfuel]
      rfl
    rw [hnext, ok_bind] at IH
    injection IH with IH
    rw [List.length_cons, hstart, ok_bind, ← IH]
    obtain ⟨k, ks, hk⟩ : ∃ k ks, (ctrFill E s).remaining = k :: ks := by
      cases hr : (ctrFill E s).remaining with
      | nil => rw [hr] at hp; simp at hp
      | cons k ks => exact ⟨k, ks, rfl⟩
    have hs' : s'.remaining = k :: (ks ++ t) := by rw [ht, hk]; rfl
    have h1 : (ctrE E s [c]).1 = [c ^^^ k] := by
      unfold ctrE
      simp only [hk]
      simp [xorBytes]
    rw [h1, hs']
    simp [xorBytes]

theorem ctr_inverse (h : Blk A E D) (s : CTR) (x : Bytes) (hs : ctrInv A s) (hx : x.length = 1) :
    ctrE E s (ctrE E s x).1 = (x, (ctrE E s x).2) := by
  have := (ctrFill_inv h s hs).2
  unfold ctrE
  simp only
  rw [xorBytes_cancel x _ (by omega)]

/-! ### Calls in sequence -/

theorem runCalls_units {σ : Type} {u : Nat} {Inv : σ → Prop} {f : σ → Bytes → Bytes × σ}
    {call : Call σ} (hu : UnitOk u Inv f) {P : Bytes → Prop} (hP : ∀ d, P d → u ∣ d.length)
    (hcall : ∀ s d, Inv s → P d → call s d = .ok (runUnits u f s d)) (s : σ) (hs : Inv s)
    (ds : List Bytes) (hd : ∀ d ∈ ds, P d) :
    ∃ outs, runCalls call s ds = .ok (outs, (runUnits u f s ds.flatten).2) ∧
      outs.flatten = (runUnits u f s ds.flatten).1 ∧ outs.map List.length = ds.map List.length := by
  induction ds generalizing s with
  | nil => exact ⟨[], rfl, rfl, rfl⟩
  | cons d ds ih =>
    have hPd := hd d (by simp)
    have hdv := hP d hPd
    have hr := hu.run s d hs hdv
    obtain ⟨outs, e1, e2, e3⟩ := ih (runUnits u f s d).2 hr.2 (fun x hx => hd x (by simp [hx]))
    refine ⟨(runUnits u f s d).1 :: outs, ?_, ?_, ?_⟩
    · simp only [runCalls]
      rw [hcall s d hs hPd, ok_bind]
      simp only [List.flatten_cons]
      rw [e1, ok_bind]
      rw [runUnits_append hu.pos f s d _ hdv]
    · simp only [List.flatten_cons]
      rw [runUnits_append hu.pos f s d _ hdv, e2]
    · simp only [List.map_cons, e3, hr.1]

end NBC.Aes
