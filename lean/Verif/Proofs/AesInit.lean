import Verif.Proofs.AesKeys

/-!
# `AES(key).encrypt` and `AES(key).decrypt` are the ciphers of FIPS-197
-/

namespace NBC.Aes

open NBC.Spec.Aes

/-- The keys that `AES(key)` accepts and can expand. -/
def KeyOk (ver : PyVer) (key : Bytes) : Prop :=
  key.length = 16 ∨ key.length = 24 ∨ (key.length = 32 ∧ ver = .py2)

theorem words_length (key : Bytes) : (words key).length = key.length / 4 := by
  induction key using words.induct with
  | case1 a b c d rest ih => simp only [words, List.length_cons, ih]; omega
  | case2 t h =>
    match t, h with
    | [], _ => rfl
    | [_], _ => simp [words]
    | [_, _], _ => simp [words]
    | [_, _, _], _ => simp [words]
    | a :: b :: c :: d :: r, h => exact absurd rfl (h a b c d r)

theorem words_getD (key : Bytes) (i : Nat) (h : i < key.length / 4) :
    (words key).getD i ⟨0, 0, 0, 0⟩ = toWord (unpackI ((key.drop (4 * i)).take 4)) := by
  induction key using words.induct generalizing i with
  | case1 a b c d rest ih =>
    cases i with
    | zero =>
      simp only [words, List.getD_cons_zero, Nat.mul_zero, List.drop_zero, List.take, unpackI_eq]
    | succ i =>
      have : 4 * (i + 1) = 4 * i + 1 + 1 + 1 + 1 := by omega
      rw [words, List.getD_cons_succ, ih i (by simp only [List.length_cons] at h; omega), this]
      rfl
  | case2 t ht =>
    match t, ht with
    | [], _ => simp at h
    | [_], _ => simp at h
    | [_, _], _ => simp at h
    | [_, _, _], _ => simp at h
    | a :: b :: c :: d :: r, ht => exact absurd rfl (ht a b c d r)

/-! ### The decryption keys -/

theorem invRow {rounds : Nat} {K : List (List Int)} (h : Shape rounds K) (r : Nat)
    (hr : r < rounds + 1) :
    let K' := (List.range 4).foldl (fun K j => setRC K r j (uWord (getRC K r j))) K
    Shape rounds K' ∧ ∀ r', keyOf K' r' = if r' = r then (keyOf K r).map invMixColumn
      else keyOf K r' := by
  have e : List.range 4 = [0, 1, 2, 3] := by decide
  simp only [e, List.foldl_cons, List.foldl_nil]
  have s0 := h.set r 0 (uWord (getRC K r 0)) hr
  set K0 := setRC K r 0 (uWord (getRC K r 0)) with hK0
  have s1 := s0.set r 1 (uWord (getRC K0 r 1)) hr
  set K1 := setRC K0 r 1 (uWord (getRC K0 r 1)) with hK1
  have s2 := s1.set r 2 (uWord (getRC K1 r 2)) hr
  set K2 := setRC K1 r 2 (uWord (getRC K1 r 2)) with hK2
  have s3 := s2.set r 3 (uWord (getRC K2 r 3)) hr
  refine ⟨s3, fun r' => ?_⟩
  have g : ∀ r' c, getRC (setRC K2 r 3 (uWord (getRC K2 r 3))) r' c =
      if r' = r ∧ c < 4 then uWord (getRC K r c) else getRC K r' c := by
    intro r' c
    rw [getRC_setRC s2 _ _ _ _ _ hr (by omega), hK2, getRC_setRC s1 _ _ _ _ _ hr (by omega),
      getRC_setRC s1 _ _ _ _ _ hr (by omega), hK1, getRC_setRC s0 _ _ _ _ _ hr (by omega),
      getRC_setRC s0 _ _ _ _ _ hr (by omega), getRC_setRC s0 _ _ _ _ _ hr (by omega), hK0,
      getRC_setRC h _ _ _ _ _ hr (by omega), getRC_setRC h _ _ _ _ _ hr (by omega),
      getRC_setRC h _ _ _ _ _ hr (by omega), getRC_setRC h _ _ _ _ _ hr (by omega)]
    by_cases hrr : r' = r
    · subst hrr
      rcases Nat.lt_or_ge c 4 with hc | hc
      · have : c = 0 ∨ c = 1 ∨ c = 2 ∨ c = 3 := by omega
        rcases this with rfl | rfl | rfl | rfl <;> simp
      · have h0 : c ≠ 0 := by omega
        have h1 : c ≠ 1 := by omega
        have h2 : c ≠ 2 := by omega
        have h3 : c ≠ 3 := by omega
        have h4 : ¬ c < 4 := by omega
        simp [h0, h1, h2, h3, h4]
    · simp [hrr]
  unfold keyOf
  simp only [g]
  by_cases hrr : r' = r
  · subst hrr
    simp [uWord_eq, State.map]
  · simp [hrr]

theorem invKeys_ok {rounds : Nat} {K : List (List Int)} (h : Shape rounds K) :
    Shape rounds (invKeys rounds K) ∧ ∀ r, keyOf (invKeys rounds K) r =
      if 1 ≤ r ∧ r < rounds then (keyOf K r).map invMixColumn else keyOf K r := by
  unfold invKeys
  have : ∀ n, n ≤ rounds - 1 →
      let K' := (List.range' 1 n).foldl (fun K r =>
        (List.range 4).foldl (fun K j => setRC K r j (uWord (getRC K r j))) K) K
      Shape rounds K' ∧ ∀ r, keyOf K' r =
        if 1 ≤ r ∧ r < n + 1 then (keyOf K r).map invMixColumn else keyOf K r := by
    intro n
    induction n with
    | zero =>
      intro _
      refine ⟨h, fun r => ?_⟩
      rw [if_neg (by omega)]
      rfl
    | succ n ih =>
      intro hn
      obtain ⟨a, b⟩ := ih (by omega)
      rw [List.range'_1_concat, List.foldl_append]
      simp only [List.foldl_cons, List.foldl_nil]
      obtain ⟨a', b'⟩ := invRow a (1 + n) (by omega)
      refine ⟨a', fun r => ?_⟩
      rw [b' r]
      by_cases hr : r = 1 + n
      · subst hr
        rw [if_pos rfl, if_pos (by omega), b, if_neg (by omega)]
      · rw [if_neg hr, b r]
        by_cases hc : 1 ≤ r ∧ r < n + 1
        · rw [if_pos hc, if_pos (by omega)]
        · rw [if_neg hc, if_neg (by omega)]
  obtain ⟨a, b⟩ := this (rounds - 1) (le_refl _)
  refine ⟨a, fun r => ?_⟩
  rw [b r]
  by_cases hr : 1 ≤ r ∧ r < rounds
  · rw [if_pos (by omega), if_pos hr]
  · rw [if_neg (by omega), if_neg hr]

/-! ### The object -/

/-- What the constructor establishes. -/
structure AesOk (A : AES) (w : List Word) (nr : Nat) : Prop where
  ke_len : A.Ke.length = nr + 1
  kd_len : A.Kd.length = nr + 1
  nr_pos : 1 ≤ nr
  enc : ∀ r ≤ nr, keyOf A.Ke r = rk w r
  dec_first : keyOf A.Kd 0 = rk w nr
  dec_mid : ∀ r, 1 ≤ r → r < nr → keyOf A.Kd r = (rk w (nr - r)).map invMixColumn
  dec_last : keyOf A.Kd nr = rk w 0

theorem Holds.keys {rounds : Nat} {W : Nat → Word} {Ke Kd : List (List Int)} {w : List Word}
    (h : Holds rounds W ((rounds + 1) * 4) Ke Kd)
    (hw : ∀ i < (rounds + 1) * 4, w.getD i ⟨0, 0, 0, 0⟩ = W i) (r : Nat) (hr : r ≤ rounds) :
    keyOf Ke r = rk w r ∧ keyOf Kd (rounds - r) = rk w r := by
  obtain ⟨_, _, h3⟩ := h
  have g : ∀ c < 4, toWord (getRC Ke r c) = w.getD (4 * r + c) ⟨0, 0, 0, 0⟩ ∧
      toWord (getRC Kd (rounds - r) c) = w.getD (4 * r + c) ⟨0, 0, 0, 0⟩ := by
    intro c hc
    have := h3 (4 * r + c) (by omega)
    rw [show (4 * r + c) / 4 = r by omega, show (4 * r + c) % 4 = c by omega] at this
    rw [hw _ (by omega)]
    exact this
  unfold keyOf rk
  rw [(g 0 (by omega)).1, (g 1 (by omega)).1, (g 2 (by omega)).1, (g 3 (by omega)).1,
    (g 0 (by omega)).2, (g 1 (by omega)).2, (g 2 (by omega)).2, (g 3 (by omega)).2]
  exact ⟨rfl, rfl⟩

theorem numberOfRounds_eq {ver : PyVer} {key : Bytes} (h : KeyOk ver key) :
    numberOfRounds key.length = .ok (Nr (key.length / 4)) := by
  rcases h with h | h | ⟨h, _⟩ <;> rw [h] <;> rfl

theorem shape_replicate (rounds : Nat) :
    Shape rounds (List.replicate (rounds + 1) (List.replicate 4 (0 : Int))) := by
  refine ⟨by simp, fun r hr => ?_⟩
  rw [List.getD_eq_getElem _ _ (by simpa using hr)]
  simp

theorem init_core {ver : PyVer} {KC rounds : Nat} {w : List Word} {tk : List Int}
    (hK : KC = 4 ∨ KC = 6 ∨ (KC = 8 ∧ ver = .py2)) (hr : rounds = KC + 6) (hwl : w.length = KC)
    (htkl : tk.length = KC) (htkj : ∀ j < KC, toWord (tk.getD j 0) = wAt KC w j)
    (K0 : List (List Int)) (hK0 : Shape rounds K0) :
    ∃ s, expandLoop ver rounds KC ((rounds + 1) * 4)
      { Ke := (initCopy rounds KC tk K0 K0).1, Kd := (initCopy rounds KC tk K0 K0).2,
        t := KC, rp := 0, tk := tk } = .ok s ∧
      Holds rounds (wAt KC w) ((rounds + 1) * 4) s.Ke s.Kd := by
  have hKn : KC = 4 ∨ KC = 6 ∨ KC = 8 := by
    rcases hK with h | h | ⟨h, _⟩
    · exact .inl h
    · exact .inr (.inl h)
    · exact .inr (.inr h)
  have h0 := initCopy_ok (rounds := rounds) (KC := KC) (W := wAt KC w) (tk := tk) (by omega) htkj
    (Ke := K0) (Kd := K0) ⟨hK0, hK0, fun i hi => by omega⟩
  refine expandLoop_ok hK hwl (by omega) _ _ 0 rfl (.inr ⟨?_, htkl, fun j hj => ?_⟩) h0 ?_ ?_
  · simp
  · have := htkj j hj
    rw [this]; congr 1; omega
  · show KC ≤ _
    omega
  · show _ ≤ KC + _
    omega

theorem aesOk_of_holds {KC nr : Nat} {w W : List Word} {Ke Kd : List (List Int)} (hpos : 1 ≤ nr)
    (hs : Holds nr (wAt KC w) ((nr + 1) * 4) Ke Kd)
    (hexp : ∀ i < (nr + 1) * 4, W.getD i ⟨0, 0, 0, 0⟩ = wAt KC w i) :
    AesOk { Ke := Ke, Kd := invKeys nr Kd } W nr := by
  have hk := fun r hr => hs.keys hexp r hr
  obtain ⟨sd, kd⟩ := invKeys_ok hs.2.1
  refine ⟨hs.1.1, sd.1, hpos, fun r hr => (hk r hr).1, ?_, ?_, ?_⟩
  · rw [kd, if_neg (by omega)]
    have := (hk nr (le_refl _)).2
    rwa [Nat.sub_self] at this
  · intro r h1 h2
    rw [kd, if_pos ⟨h1, h2⟩]
    have := (hk (nr - r) (by omega)).2
    rw [show nr - (nr - r) = r by omega] at this
    rw [this]
  · rw [kd, if_neg (by omega)]
    have := (hk 0 (by omega)).2
    rwa [Nat.sub_zero] at this

theorem tk_words {key : Bytes} {KC : Nat} (hKC : key.length / 4 = KC) :
    ∀ j < KC, toWord (((List.range KC).map
      (fun i => unpackI ((key.drop (4 * i)).take 4))).getD j 0) = wAt KC (words key) j := by
  intro j hj
  rw [wAt_lt _ _ _ (by rw [words_length, hKC]; exact hj), words_getD key j (by omega)]
  rw [List.getD_eq_getElem _ _ (by simpa using hj)]
  simp

theorem init_gen {ver : PyVer} {key : Bytes} {KC nr : Nat} (hKC : key.length / 4 = KC)
    (hK : KC = 4 ∨ KC = 6 ∨ (KC = 8 ∧ ver = .py2)) (hr : nr = KC + 6)
    (hn : numberOfRounds key.length = .ok nr) {W : List Word}
    (hexp : ∀ i < (nr + 1) * 4, W.getD i ⟨0, 0, 0, 0⟩ = wAt KC (words key) i) :
    ∃ A, AES.init ver key = .ok A ∧ AesOk A W nr := by
  obtain ⟨s, e, hs⟩ := init_core hK hr (by rw [words_length, hKC]) (by simp) (tk_words hKC)
    (List.replicate (nr + 1) (List.replicate 4 (0 : Int))) (shape_replicate nr)
  refine ⟨{ Ke := s.Ke, Kd := invKeys nr s.Kd }, ?_, aesOk_of_holds (by omega) hs hexp⟩
  unfold AES.init
  rw [hn, ok_bind, hKC]
  simp only
  rw [e, ok_bind]

theorem init_ok {ver : PyVer} {key : Bytes} (h : KeyOk ver key) :
    ∃ A, AES.init ver key = .ok A ∧ AesOk A (keyExpansion key) (Nr (key.length / 4)) := by
  have hK : key.length / 4 = 4 ∨ key.length / 4 = 6 ∨ (key.length / 4 = 8 ∧ ver = .py2) := by
    rcases h with h | h | ⟨h, h'⟩
    · left; omega
    · right; left; omega
    · right; right; exact ⟨by omega, h'⟩
  refine init_gen rfl hK rfl (numberOfRounds_eq h) ?_
  intro i hi
  unfold keyExpansion
  refine expand_getD _ _ _ _ ?_ _
  rw [words_length]
  have hNr : Nr (key.length / 4) = key.length / 4 + 6 := rfl
  rw [hNr]
  omega

theorem init_error_len {ver : PyVer} {key : Bytes}
    (h : key.length ≠ 16 ∧ key.length ≠ 24 ∧ key.length ≠ 32) :
    AES.init ver key = .error .valueError := by
  unfold AES.init numberOfRounds
  rw [if_neg h.1, if_neg h.2.1, if_neg h.2.2]
  rfl

theorem init_error_py3 {key : Bytes} (h : key.length = 32) :
    AES.init .py3 key = .error .typeError := by
  unfold AES.init
  have e : numberOfRounds key.length = .ok 14 := by rw [h]; rfl
  have e8 : key.length / 4 = 8 := by omega
  rw [e, ok_bind, e8]
  simp only
  rw [show (14 + 1) * 4 = 59 + 1 by rfl, expandLoop_py3 _ _ _ (by simp)]
  rfl

theorem encrypt_ok {A : AES} {w : List Word} {nr : Nat} (h : AesOk A w nr) {b : Bytes} {s : State}
    (hb : toState b = some s) : A.encrypt b = .ok (ofState (cipher w nr s)) := by
  have hpos := h.nr_pos
  unfold AES.encrypt
  rw [if_neg (by rw [toState_length hb]; simp)]
  simp only [h.ke_len, Nat.add_sub_cancel]
  have loop : ∀ n, n ≤ nr - 1 → stOf ((List.range' 1 n).foldl
      (fun t r => tableRound tableT1 tableT2 tableT3 tableT4 1 2 3 A.Ke r t) (firstKey b A.Ke)) =
      rounds w (addRoundKey w 0 s) n := by
    intro n
    induction n with
    | zero =>
      intro _
      simp only [List.range'_zero, List.foldl_nil, rounds]
      rw [firstKey_eq hb, h.enc 0 (by omega)]
      rfl
    | succ n ih =>
      intro hn
      rw [List.range'_1_concat, List.foldl_append]
      simp only [List.foldl_cons, List.foldl_nil]
      rw [tableRound_enc, ih (by omega), h.enc (1 + n) (by omega), rounds, addRoundKey_eq w (n + 1),
        Nat.add_comm 1 n]
  rw [lastRound_enc, loop _ (le_refl _), h.enc nr (le_refl _)]
  rfl

theorem map_invMix_xor (a b : State) :
    invMixColumns (a.xor b) = (invMixColumns a).xor (b.map invMixColumn) := by
  simp [invMixColumns, State.map, State.xor, invMixColumn_xor]

theorem decrypt_ok {A : AES} {w : List Word} {nr : Nat} (h : AesOk A w nr) {b : Bytes} {s : State}
    (hb : toState b = some s) : A.decrypt b = .ok (ofState (invCipher w nr s)) := by
  have hpos := h.nr_pos
  unfold AES.decrypt
  rw [if_neg (by rw [toState_length hb]; simp)]
  simp only [h.kd_len, Nat.add_sub_cancel]
  have loop : ∀ n, n ≤ nr - 1 → invRounds w (nr - 1 - n) (stOf ((List.range' 1 n).foldl
      (fun t r => tableRound tableT5 tableT6 tableT7 tableT8 3 2 1 A.Kd r t) (firstKey b A.Kd))) =
      invRounds w (nr - 1) (addRoundKey w nr s) := by
    intro n
    induction n with
    | zero =>
      intro _
      simp only [List.range'_zero, List.foldl_nil, Nat.sub_zero]
      rw [firstKey_eq hb, h.dec_first]
      rfl
    | succ n ih =>
      intro hn
      rw [← ih (by omega), List.range'_1_concat, List.foldl_append]
      simp only [List.foldl_cons, List.foldl_nil]
      rw [tableRound_dec, h.dec_mid (1 + n) (by omega) (by omega),
        show nr - 1 - n = (nr - 1 - (n + 1)) + 1 by omega, invRounds, addRoundKey_eq,
        map_invMix_xor, show nr - (1 + n) = nr - 1 - (n + 1) + 1 by omega]
  have := loop (nr - 1) (le_refl _)
  rw [Nat.sub_self] at this
  rw [lastRound_dec, h.dec_last]
  rw [show ∀ t, invRounds w 0 t = t from fun _ => rfl] at this
  rw [this]
  rfl

end NBC.Aes
