import Verif.Proofs.Aes

/-!
# The key schedule of `pyaes` is the key expansion of FIPS-197
-/

namespace NBC.Aes

open NBC.Spec.Aes

/-! ### The expansion of the standard, as a recurrence -/

theorem expand_length (Nk : Nat) (w : List Word) (n : Nat) :
    (expand Nk w n).length = w.length + n := by
  induction n with
  | zero => rfl
  | succ n ih => simp [expand, ih]; omega

theorem expand_getD_stable (Nk : Nat) (w : List Word) (n m i : Nat) (h : i < w.length + n)
    (z : Word) : (expand Nk w (n + m)).getD i z = (expand Nk w n).getD i z := by
  induction m with
  | zero => rfl
  | succ m ih =>
    rw [← ih]
    show ((expand Nk w (n + m)) ++ [_]).getD i z = _
    rw [List.getD_append _ _ _ _ (by rw [expand_length]; omega)]

/-- The word `w[i]` of the schedule. -/
def wAt (Nk : Nat) (w : List Word) (i : Nat) : Word :=
  (expand Nk w (i + 1 - w.length)).getD i ⟨0, 0, 0, 0⟩

theorem expand_getD (Nk : Nat) (w : List Word) (n i : Nat) (h : i < w.length + n) (z : Word) :
    (expand Nk w n).getD i z = wAt Nk w i := by
  have h0 : ∀ l : List Word, i < l.length → ∀ z z', l.getD i z = l.getD i z' := by
    intro l hl z z'
    rw [List.getD_eq_getElem _ _ hl, List.getD_eq_getElem _ _ hl]
  unfold wAt
  rw [h0 _ (by rw [expand_length]; omega) z ⟨0, 0, 0, 0⟩]
  rcases Nat.lt_or_ge i w.length with hi | hi
  · have e : i + 1 - w.length = 0 := by omega
    rw [e]
    have := expand_getD_stable Nk w 0 n i (by omega) ⟨0, 0, 0, 0⟩
    rwa [Nat.zero_add] at this
  · obtain ⟨m, rfl⟩ : ∃ m, n = i + 1 - w.length + m := ⟨n - (i + 1 - w.length), by omega⟩
    exact expand_getD_stable Nk w _ m i (by omega) _

theorem wAt_lt (Nk : Nat) (w : List Word) (i : Nat) (h : i < w.length) :
    wAt Nk w i = w.getD i ⟨0, 0, 0, 0⟩ := by
  unfold wAt
  have e : i + 1 - w.length = 0 := by omega
  rw [e]; rfl

theorem wAt_rec (Nk : Nat) (w : List Word) (hN : 0 < Nk) (hw : w.length = Nk) (i : Nat)
    (h : Nk ≤ i) :
    wAt Nk w i = (wAt Nk w (i - Nk)).xor
      (if i % Nk = 0 then (subWord (rotWord (wAt Nk w (i - 1)))).xor (rconWord (i / Nk))
       else if Nk > 6 ∧ i % Nk = 4 then subWord (wAt Nk w (i - 1))
       else wAt Nk w (i - 1)) := by
  have e : i + 1 - w.length = (i - w.length) + 1 := by omega
  have hl : (expand Nk w (i - w.length)).length = i := by rw [expand_length]; omega
  have h1 : wAt Nk w i = nextWord Nk (expand Nk w (i - w.length)) := by
    unfold wAt
    rw [e, expand, List.getD_eq_getElem _ _ (by simp [hl])]
    rw [List.getElem_append_right (by omega)]
    simp [hl]
  rw [h1, nextWord, hl]
  rw [expand_getD Nk w _ (i - 1) (by omega), expand_getD Nk w _ (i - Nk) (by omega)]

/-! ### The loops of the model -/

theorem getD_set (l : List Int) (i j : Nat) (v : Int) (hi : i < l.length) :
    (l.set i v).getD j 0 = if j = i then v else l.getD j 0 := by
  simp only [List.getD_eq_getElem?_getD, List.getElem?_set]
  by_cases h : i = j
  · subst h; simp [hi]
  · rw [if_neg h, if_neg (Ne.symm h)]

theorem xorChain_length (n : Nat) (tk : List Int) (a : Nat) : (xorChain tk a n).length = tk.length := by
  induction n generalizing tk a with
  | zero => rfl
  | succ n ih => simp [xorChain, ih]

theorem xorChain_lo (n : Nat) (tk : List Int) (a i : Nat) (h : a + n ≤ tk.length) (hi : i < a) :
    (xorChain tk a n).getD i 0 = tk.getD i 0 := by
  induction n generalizing tk a with
  | zero => rfl
  | succ n ih =>
    rw [xorChain, ih _ _ (by rw [List.length_set]; omega) (by omega),
      getD_set _ _ _ _ (by omega), if_neg (by omega)]

theorem xorChain_hi (n : Nat) (tk : List Int) (a i : Nat) (h : a + n ≤ tk.length) (hi : a + n ≤ i) :
    (xorChain tk a n).getD i 0 = tk.getD i 0 := by
  induction n generalizing tk a with
  | zero => rfl
  | succ n ih =>
    rw [xorChain, ih _ _ (by rw [List.length_set]; omega) (by omega),
      getD_set _ _ _ _ (by omega), if_neg (by omega)]

theorem xorChain_mid (n : Nat) (tk : List Int) (a i : Nat) (ha : 0 < a) (h : a + n ≤ tk.length)
    (hi : a ≤ i) (hi' : i < a + n) :
    (xorChain tk a n).getD i 0 = Int.xor (tk.getD i 0) ((xorChain tk a n).getD (i - 1) 0) := by
  induction n generalizing tk a with
  | zero => omega
  | succ n ih =>
    rw [xorChain]
    have hl : a + 1 + n ≤ (tk.set a (Int.xor (tk.getD a 0) (tk.getD (a - 1) 0))).length := by
      rw [List.length_set]; omega
    rcases Nat.eq_or_lt_of_le hi with rfl | hlt
    · rw [xorChain_lo _ _ _ _ hl (by omega), xorChain_lo _ _ _ _ hl (by omega),
        getD_set _ _ _ _ (by omega), getD_set _ _ _ _ (by omega), if_pos rfl, if_neg (by omega)]
    · rw [ih _ _ (by omega) hl (by omega) (by omega), getD_set _ _ _ _ (by omega),
        if_neg (by omega)]

theorem rconWord_eq {rp : Nat} (h : rp < 30) :
    toWord ((look rcon rp <<< 24 : Nat) : Int) = rconWord (rp + 1) := by
  have h1 := rcon_tab rp h
  have h2 : look rcon rp < 256 := by rw [h1]; exact UInt8.toNat_lt _
  rw [(shift_tab _ h2).1, h1, UInt8.ofNat_toNat]; rfl

theorem tkHead_word (KC rp : Nat) (tk : List Int) (h : rp < 30) (hl : 0 < tk.length) :
    toWord ((tkHead KC rp tk).getD 0 0) = (toWord (tk.getD 0 0)).xor
      ((subWord (rotWord (toWord (tk.getD (KC - 1) 0)))).xor (rconWord (rp + 1))) := by
  unfold tkHead
  simp only
  rw [getD_set _ _ _ _ hl, if_pos rfl]
  simp only [toWord_xor]
  rw [rconWord_eq h, (shift_tab _ (s_lt_tab _ (byteAt_lt _ 16)).1).1,
    (shift_tab _ (s_lt_tab _ (byteAt_lt _ 8)).1).2.1,
    (shift_tab _ (s_lt_tab _ (byteAt_lt _ 0)).1).2.2.1,
    (shift_tab _ (s_lt_tab _ (byteAt_lt _ 24)).1).2.2.2]
  simp only [S_eq]
  simp [Word.xor, subWord, rotWord, toWord]

theorem tkHead_rest (KC rp : Nat) (tk : List Int) (hl : 0 < tk.length) (i : Nat) (hi : 0 < i) :
    (tkHead KC rp tk).getD i 0 = tk.getD i 0 := by
  unfold tkHead
  simp only
  rw [getD_set _ _ _ _ hl, if_neg (by omega)]

theorem tkHead_length (KC rp : Nat) (tk : List Int) : (tkHead KC rp tk).length = tk.length := by
  simp [tkHead]

theorem tkMid_word (m : Nat) (tk : List Int) (hl : m < tk.length) :
    toWord ((tkMid m tk).getD m 0) = (toWord (tk.getD m 0)).xor
      (subWord (toWord (tk.getD (m - 1) 0))) := by
  unfold tkMid
  simp only
  rw [getD_set _ _ _ _ hl, if_pos rfl]
  simp only [toWord_xor]
  rw [(shift_tab _ (s_lt_tab _ (byteAt_lt _ 24)).1).1,
    (shift_tab _ (s_lt_tab _ (byteAt_lt _ 16)).1).2.1,
    (shift_tab _ (s_lt_tab _ (byteAt_lt _ 8)).1).2.2.1,
    (shift_tab _ (s_lt_tab _ (byteAt_lt _ 0)).1).2.2.2]
  simp only [S_eq]
  simp [Word.xor, subWord, toWord]

theorem tkMid_rest (m : Nat) (tk : List Int) (hl : m < tk.length) (i : Nat) (hi : i ≠ m) :
    (tkMid m tk).getD i 0 = tk.getD i 0 := by
  unfold tkMid
  simp only
  rw [getD_set _ _ _ _ hl, if_neg hi]

theorem tkMid_length (m : Nat) (tk : List Int) : (tkMid m tk).length = tk.length := by
  simp [tkMid]

/-- `tk` holds the words `w[t - KC .. t - 1]`. -/
def TkOk (KC : Nat) (w : List Word) (t : Nat) (tk : List Int) : Prop :=
  tk.length = KC ∧ ∀ j < KC, toWord (tk.getD j 0) = wAt KC w (t - KC + j)

theorem roundTk_ok {ver : PyVer} {KC : Nat} {w : List Word} {m : Nat} {tk : List Int}
    (hKC : KC = 4 ∨ KC = 6 ∨ (KC = 8 ∧ ver = .py2)) (hw : w.length = KC)
    (hm : m + 1 < 31) (hok : TkOk KC w (KC * (m + 1)) tk) :
    ∃ tk', roundTk ver KC m tk = .ok tk' ∧ TkOk KC w (KC * (m + 2)) tk' := by
  obtain ⟨hl, hj⟩ := hok
  have hpos : 0 < KC := by omega
  have e1 : KC * (m + 1) - KC = KC * m := by rw [Nat.mul_succ]; omega
  have e2 : KC * (m + 2) - KC = KC * (m + 1) := by
    rw [show KC * (m + 2) = KC * (m + 1) + KC from Nat.mul_succ _ _, Nat.add_sub_cancel]
  rw [e1] at hj
  have hmul : KC * (m + 1) = KC * m + KC := Nat.mul_succ _ _
  have hmod : ∀ j < KC, (KC * (m + 1) + j) % KC = j := by
    intro j hj
    rw [Nat.mul_add_mod, Nat.mod_eq_of_lt hj]
  -- the recurrence at the words of this pass
  have hrec0 : wAt KC w (KC * (m + 1)) = (wAt KC w (KC * m)).xor
      ((subWord (rotWord (wAt KC w (KC * m + (KC - 1))))).xor (rconWord (m + 1))) := by
    rw [wAt_rec KC w hpos hw _ (by omega), if_pos (Nat.mul_mod_right _ _),
      Nat.mul_div_cancel_left _ hpos]
    rw [show KC * (m + 1) - KC = KC * m by omega, show KC * (m + 1) - 1 = KC * m + (KC - 1) by omega]
  have hrecj : ∀ j, 0 < j → j < KC → (KC = 8 → j ≠ 4) →
      wAt KC w (KC * (m + 1) + j) =
        (wAt KC w (KC * m + j)).xor (wAt KC w (KC * (m + 1) + (j - 1))) := by
    intro j h0 hjK h8
    rw [wAt_rec KC w hpos hw _ (by omega), hmod j hjK, if_neg (by omega), if_neg (by omega)]
    rw [show KC * (m + 1) + j - KC = KC * m + j by omega,
      show KC * (m + 1) + j - 1 = KC * (m + 1) + (j - 1) by omega]
  have hhead : toWord ((tkHead KC m tk).getD 0 0) = wAt KC w (KC * (m + 1)) := by
    rw [tkHead_word KC m tk (by omega) (by omega), hj 0 hpos, hj (KC - 1) (by omega), hrec0]
    rfl
  by_cases h8 : KC = 8
  · have hver : ver = .py2 := by
      rcases hKC with h | h | h
      · omega
      · omega
      · exact h.2
    subst h8 hver
    have hlh : (tkHead 8 m tk).length = 8 := by rw [tkHead_length, hl]
    refine ⟨_, rfl, ?_⟩
    set A := xorChain (tkHead 8 m tk) 1 (8 / 2 - 1) with hA
    have hAl : A.length = 8 := by rw [hA, xorChain_length, hlh]
    set B := tkMid (8 / 2) A with hB
    have hBl : B.length = 8 := by rw [hB, tkMid_length, hAl]
    show TkOk 8 w _ (xorChain B (8 / 2 + 1) (8 - (8 / 2 + 1)))
    refine ⟨by rw [xorChain_length, hBl], ?_⟩
    rw [e2]
    intro j
    induction j with
    | zero =>
      intro _
      rw [xorChain_lo _ _ _ _ (by omega) (by omega), hB, tkMid_rest _ _ (by omega) _ (by omega), hA,
        xorChain_lo _ _ _ _ (by omega) (by omega), hhead]
      rfl
    | succ j ih =>
      intro hjK
      have ih := ih (by omega)
      by_cases h4 : j + 1 = 4
      · have : j = 3 := by omega
        subst this
        rw [xorChain_lo _ _ _ _ (by omega) (by omega)] at ih ⊢
        rw [hB, tkMid_rest _ _ (by omega) _ (by omega)] at ih
        rw [hB]
        have := tkMid_word (8 / 2) A (by omega)
        rw [show (3 + 1 : Nat) = 8 / 2 by rfl, this]
        rw [show (8 / 2 - 1 : Nat) = 3 by rfl, ih, hA, xorChain_hi _ _ _ _ (by omega) (by omega),
          tkHead_rest _ _ _ (by omega) _ (by omega), hj _ (by omega)]
        rw [wAt_rec 8 w hpos hw (8 * (m + 1) + 8 / 2) (by omega), hmod 4 (by omega), if_neg (by omega),
          if_pos (by omega)]
        rw [show 8 * (m + 1) + 8 / 2 - 8 = 8 * m + 8 / 2 by omega,
          show 8 * (m + 1) + 8 / 2 - 1 = 8 * (m + 1) + 3 by omega]
      · rw [hrecj (j + 1) (by omega) hjK (by omega)]
        rcases Nat.lt_or_ge (j + 1) 5 with hlo | hhi
        · rw [xorChain_lo _ _ _ _ (by omega) (by omega)] at ih ⊢
          rw [hB, tkMid_rest _ _ (by omega) _ (by omega)] at ih ⊢
          rw [hA] at ih ⊢
          rw [xorChain_mid _ _ _ _ (by omega) (by omega) (by omega) (by omega), toWord_xor,
            tkHead_rest _ _ _ (by omega) _ (by omega), hj _ hjK, Nat.add_sub_cancel, ih]
        · rw [xorChain_mid _ _ _ _ (by omega) (by omega) (by omega) (by omega), toWord_xor,
            Nat.add_sub_cancel, ih]
          rw [hB, tkMid_rest _ _ (by omega) _ (by omega), hA,
            xorChain_hi _ _ _ _ (by omega) (by omega), tkHead_rest _ _ _ (by omega) _ (by omega),
            hj _ hjK]
  · have hlh : (tkHead KC m tk).length = KC := by rw [tkHead_length, hl]
    refine ⟨xorChain (tkHead KC m tk) 1 (KC - 1), by simp [roundTk, h8], ?_, ?_⟩
    · rw [xorChain_length, hlh]
    rw [e2]
    intro j
    induction j with
    | zero =>
      intro _
      rw [xorChain_lo _ _ _ _ (by omega) (by omega), hhead]; rfl
    | succ j ih =>
      intro hjK
      rw [hrecj (j + 1) (by omega) hjK (by omega),
        xorChain_mid _ _ _ _ (by omega) (by omega) (by omega) (by omega), toWord_xor,
        Nat.add_sub_cancel, ih (by omega), tkHead_rest _ _ _ (by omega) _ (by omega), hj _ hjK]

/-! ### The key arrays -/

/-- `rounds + 1` rows of four. -/
def Shape (rounds : Nat) (K : List (List Int)) : Prop :=
  K.length = rounds + 1 ∧ ∀ r < rounds + 1, (K.getD r []).length = 4

theorem getD_modify {α : Type} (l : List α) (i j : Nat) (f : α → α) (d : α) (hi : i < l.length) :
    (l.modify i f).getD j d = if j = i then f (l.getD j d) else l.getD j d := by
  simp only [List.getD_eq_getElem?_getD, List.getElem?_modify]
  by_cases h : i = j
  · subst h; simp [hi]
  · rw [if_neg (Ne.symm h)]
    cases hx : l[j]? <;> simp [h]

theorem Shape.set {rounds : Nat} {K : List (List Int)} (h : Shape rounds K) (r c : Nat) (v : Int)
    (hr : r < rounds + 1) : Shape rounds (setRC K r c v) := by
  refine ⟨by simp [setRC, h.1], fun r' hr' => ?_⟩
  unfold setRC
  rw [getD_modify _ _ _ _ _ (by rw [h.1]; exact hr)]
  split_ifs
  · rw [List.length_set, h.2 _ hr']
  · exact h.2 _ hr'

theorem getRC_setRC {rounds : Nat} {K : List (List Int)} (h : Shape rounds K) (r c r' c' : Nat)
    (v : Int) (hr : r < rounds + 1) (hc : c < 4) :
    getRC (setRC K r c v) r' c' = if r' = r ∧ c' = c then v else getRC K r' c' := by
  unfold getRC setRC
  rw [getD_modify _ _ _ _ _ (by rw [h.1]; exact hr)]
  by_cases hrr : r' = r
  · subst hrr
    rw [if_pos rfl, getD_set _ _ _ _ (by rw [h.2 _ hr]; exact hc)]
    simp
  · rw [if_neg hrr, if_neg (fun hh => hrr hh.1)]

/-- The arrays hold the first `t` words of the schedule. -/
def Holds (rounds : Nat) (W : Nat → Word) (t : Nat) (Ke Kd : List (List Int)) : Prop :=
  Shape rounds Ke ∧ Shape rounds Kd ∧
  ∀ i < t, toWord (getRC Ke (i / 4) (i % 4)) = W i ∧
    toWord (getRC Kd (rounds - i / 4) (i % 4)) = W i

theorem Holds.step {rounds : Nat} {W : Nat → Word} {t : Nat} {Ke Kd : List (List Int)}
    (h : Holds rounds W t Ke Kd) (ht : t < (rounds + 1) * 4) (v : Int) (hv : toWord v = W t) :
    Holds rounds W (t + 1) (setRC Ke (t / 4) (t % 4) v)
      (setRC Kd (rounds - t / 4) (t % 4) v) := by
  obtain ⟨h1, h2, h3⟩ := h
  refine ⟨h1.set _ _ _ (by omega), h2.set _ _ _ (by omega), fun i hi => ?_⟩
  rw [getRC_setRC h1 _ _ _ _ _ (by omega) (by omega), getRC_setRC h2 _ _ _ _ _ (by omega) (by omega)]
  rcases Nat.eq_or_lt_of_le (Nat.le_of_lt_succ hi) with rfl | hlt
  · simp [hv]
  · rw [if_neg (by omega), if_neg (by omega)]
    exact h3 i hlt

theorem initCopy_ok {rounds KC : Nat} {W : Nat → Word} {tk : List Int}
    (hK : KC ≤ (rounds + 1) * 4) (htk : ∀ j < KC, toWord (tk.getD j 0) = W j)
    {Ke Kd : List (List Int)} (h0 : Holds rounds W 0 Ke Kd) :
    Holds rounds W KC (initCopy rounds KC tk Ke Kd).1 (initCopy rounds KC tk Ke Kd).2 := by
  unfold initCopy
  induction KC with
  | zero => exact h0
  | succ n ih =>
    rw [List.range_succ, List.foldl_append]
    exact Holds.step (ih (by omega) (fun j hj => htk j (by omega))) (by omega) _ (htk n (by omega))

theorem copyLoop_ok {rounds KC : Nat} {W : Nat → Word} (fuel j : Nat) (s : KState)
    (hfuel : j + fuel = KC)
    (hh : Holds rounds W s.t s.Ke s.Kd) (hle : s.t ≤ (rounds + 1) * 4)
    (htk : ∀ i, j ≤ i → i < KC → toWord (s.tk.getD i 0) = W (s.t + (i - j))) :
    let s' := copyLoop rounds KC fuel j s
    Holds rounds W s'.t s'.Ke s'.Kd ∧ s'.t = min (s.t + fuel) ((rounds + 1) * 4) ∧
      s'.tk = s.tk ∧ s'.rp = s.rp := by
  induction fuel generalizing j s with
  | zero => exact ⟨hh, by simp [copyLoop]; omega, rfl, rfl⟩
  | succ n ih =>
    simp only [copyLoop]
    by_cases hc : j < KC ∧ s.t < (rounds + 1) * 4
    · rw [if_pos hc]
      have := ih (j + 1) { s with
          Ke := setRC s.Ke (s.t / 4) (s.t % 4) (s.tk.getD j 0)
          Kd := setRC s.Kd (rounds - s.t / 4) (s.t % 4) (s.tk.getD j 0)
          t := s.t + 1 } (by omega)
        (Holds.step hh hc.2 _ (by simpa using htk j (le_refl _) hc.1)) hc.2
        (fun i hi hi' => by
          have := htk i (by omega) hi'
          simp only
          rw [this]; congr 1; omega)
      obtain ⟨a, b, c, d⟩ := this
      refine ⟨a, ?_, c, d⟩
      rw [b]
      show min (s.t + 1 + n) _ = _
      omega
    · rw [if_neg hc]
      refine ⟨hh, ?_, rfl, rfl⟩
      omega

/-- The expansion loop ends with every round key word of the schedule in both arrays. -/
theorem expandLoop_ok {ver : PyVer} {rounds KC : Nat} {w : List Word}
    (hKC : KC = 4 ∨ KC = 6 ∨ (KC = 8 ∧ ver = .py2)) (hw : w.length = KC)
    (hr : (rounds + 1) * 4 ≤ KC * 30) (fuel : Nat) (s : KState)
    (m : Nat) (hrp : s.rp = m) (htk : (rounds + 1) * 4 ≤ s.t ∨
      (s.t = KC * (m + 1) ∧ TkOk KC w (KC * (m + 1)) s.tk))
    (hh : Holds rounds (wAt KC w) s.t s.Ke s.Kd) (hle : s.t ≤ (rounds + 1) * 4)
    (hf : (rounds + 1) * 4 ≤ s.t + fuel) :
    ∃ s', expandLoop ver rounds KC fuel s = .ok s' ∧
      Holds rounds (wAt KC w) ((rounds + 1) * 4) s'.Ke s'.Kd := by
  have hpos : 0 < KC := by omega
  induction fuel generalizing s m with
  | zero =>
    refine ⟨s, rfl, ?_⟩
    have : s.t = (rounds + 1) * 4 := by omega
    rwa [← this]
  | succ n ih =>
    simp only [expandLoop]
    by_cases hc : s.t < (rounds + 1) * 4
    · rw [if_pos hc]
      obtain ⟨ht, hok⟩ : s.t = KC * (m + 1) ∧ TkOk KC w (KC * (m + 1)) s.tk := by
        rcases htk with h | h
        · omega
        · exact h
      have hm : m + 1 < 31 := by
        have h1 : KC * (m + 1) < KC * 30 := by omega
        have := Nat.lt_of_mul_lt_mul_left h1
        omega
      obtain ⟨tk', e, hok'⟩ := roundTk_ok hKC hw hm hok
      rw [hrp, e, ok_bind]
      have hmul : KC * (m + 1 + 1) = KC * (m + 1) + KC := Nat.mul_succ _ _
      have hcp := copyLoop_ok (rounds := rounds) (KC := KC) (W := wAt KC w) KC 0
        { s with tk := tk', rp := m + 1 } (by omega) hh hle
        (fun i _ hi => by
          have := hok'.2 i hi
          rw [this]
          show _ = wAt KC w (s.t + (i - 0))
          rw [show KC * (m + 2) = KC * (m + 1) + KC from Nat.mul_succ _ _, Nat.add_sub_cancel, ht]
          rfl)
      simp only at hcp
      obtain ⟨a, b, c, d⟩ := hcp
      refine ih _ (m + 1) d ?_ a (by rw [b]; omega) (by rw [b]; omega)
      rw [b, c]
      by_cases hge : (rounds + 1) * 4 ≤ s.t + KC
      · left; omega
      · right
        exact ⟨by omega, hok'⟩
    · rw [if_neg hc]
      refine ⟨s, rfl, ?_⟩
      have : s.t = (rounds + 1) * 4 := by omega
      rwa [← this]

/-- Python 3 cannot expand a 256-bit key. -/
theorem expandLoop_py3 (rounds : Nat) (fuel : Nat) (s : KState) (h : s.t < (rounds + 1) * 4) :
    expandLoop .py3 rounds 8 (fuel + 1) s = .error .typeError := by
  simp only [expandLoop]
  rw [if_pos h]
  rfl

end NBC.Aes
