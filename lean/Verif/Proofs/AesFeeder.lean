import Verif.Proofs.AesModes
import Verif.Proofs.Hex
import Mathlib.Tactic.LinearCombination

/-!
# The counter, the padding and the feeders
-/

namespace NBC.Aes

open NBC.Spec NBC.Spec.Aes

/-! ### Counter -/

theorem counterLoop_val (a : Bytes) (k : Nat) :
    bytesVal (counterLoop (a ++ List.replicate k 0) a.length) =
      (bytesVal a + 1) % 256 ^ a.length * 256 ^ k := by
  have hz : ∀ n, bytesVal (List.replicate n 0) = 0 := by
    intro n
    induction n with
    | zero => rfl
    | succ n ih => rw [List.replicate_succ, bytesVal_cons, ih]; simp
  induction a using List.reverseRecOn generalizing k with
  | nil => simp [counterLoop, hz]
  | append_singleton a x ih =>
    have hlen : (a ++ [x]).length = a.length + 1 := by simp
    have hget : (a ++ [x] ++ List.replicate k 0).getD a.length 0 = x := by
      rw [List.getD_eq_getElem _ _ (by simp)]
      simp
    have hset : ∀ v, (a ++ [x] ++ List.replicate k 0).set a.length v =
        a ++ [v] ++ List.replicate k 0 := by
      intro v
      rw [List.set_append_left _ _ (by simp), List.set_append_right _ _ (by simp)]
      simp
    rw [hlen, counterLoop, hget]
    have hx := x.toNat_lt
    have ha := bytesVal_lt a
    have hp : 256 ^ (a.length + 1) = 256 ^ a.length * 256 := Nat.pow_succ ..
    have hval : bytesVal (a ++ [x]) = bytesVal a * 256 + x.toNat := by
      rw [bytesVal_append, bytesVal_cons]; simp
    split_ifs with hc
    · rw [hset, bytesVal_append, bytesVal_append, hz, bytesVal_cons, hval]
      have h1 : (x + 1).toNat = x.toNat + 1 := by
        rw [UInt8.toNat_add]
        show (x.toNat + 1) % 256 = _
        omega
      rw [Nat.mod_eq_of_lt (by omega), h1]
      simp
      ring
    · rw [hset]
      have : a ++ [(0 : UInt8)] ++ List.replicate k 0 = a ++ List.replicate (k + 1) 0 := by
        rw [List.replicate_succ]; simp
      rw [this, ih (k + 1), hval]
      have hx255 : x.toNat = 255 := by omega
      rw [hx255, hp]
      have : bytesVal a * 256 + 255 + 1 = (bytesVal a + 1) * 256 := by ring
      rw [this, Nat.mul_mod_mul_right]
      ring

theorem counterIncrement_val (c : Bytes) :
    bytesVal (counterIncrement c) = (bytesVal c + 1) % 256 ^ c.length := by
  have := counterLoop_val c 0
  unfold counterIncrement
  simpa using this

theorem counterInit_length (v : Int) : (counterInit v).length = 16 := by simp [counterInit]

theorem byteAt_eq (v : Int) (k : Nat) : (byteAt v k : Int) = (v / 2 ^ k) % 256 := by
  rw [byteAt, Int.shiftRight_eq_div_pow, Int.toNat_of_nonneg (Int.emod_nonneg _ (by decide))]
  push_cast
  rfl

theorem byteAt_succ (v : Int) (k : Nat) : byteAt v (k + 8) = byteAt (v / 256) k := by
  have h : (byteAt v (k + 8) : Int) = byteAt (v / 256) k := by
    rw [byteAt_eq, byteAt_eq, Int.ediv_ediv_of_nonneg (by decide)]
    congr 2
    rw [pow_add, mul_comm]
    rfl
  exact_mod_cast h

theorem range_val (n : Nat) (v : Int) :
    (bytesVal ((List.range n).map (fun j => UInt8.ofNat (byteAt v (8 * n - 8 - 8 * j)))) : Int) =
      v % 256 ^ n := by
  induction n generalizing v with
  | zero => simp [Int.emod_one]
  | succ n ih =>
    have hm : (List.range n).map (fun j => UInt8.ofNat (byteAt v (8 * (n + 1) - 8 - 8 * j))) =
        (List.range n).map (fun j => UInt8.ofNat (byteAt (v / 256) (8 * n - 8 - 8 * j))) := by
      apply List.map_congr_left
      intro j hj
      rw [List.mem_range] at hj
      rw [show 8 * (n + 1) - 8 - 8 * j = 8 * n - 8 - 8 * j + 8 from by omega, byteAt_succ]
    have h0 : 8 * (n + 1) - 8 - 8 * n = 0 := by omega
    have hb : (UInt8.ofNat (byteAt v 0)).toNat = byteAt v 0 := toNat_byteU v 0
    rw [List.range_succ, List.map_append, List.map_singleton, hm, bytesVal_append, bytesVal_cons, h0,
      hb]
    simp only [List.length_nil, List.length_singleton, Nat.pow_zero, Nat.pow_one, Nat.mul_one,
      bytesVal_nil, Nat.add_zero]
    push_cast
    rw [ih, byteAt_eq, pow_succ]
    have h1 : v % (256 ^ n * 256) = (v / 256) % 256 ^ n * 256 + v % 256 := by
      have e1 := Int.emod_add_mul_ediv v (256 ^ n * 256)
      have e2 := Int.emod_add_mul_ediv v 256
      have e3 := Int.emod_add_mul_ediv (v / 256) (256 ^ n)
      have e4 : v / 256 / 256 ^ n = v / (256 ^ n * 256) := by
        rw [Int.ediv_ediv_of_nonneg (by decide), mul_comm]
      rw [e4] at e3
      linear_combination e1 - e2 - 256 * e3
    rw [h1]
    simp

theorem counterInit_val (v : Int) : (bytesVal (counterInit v) : Int) = v % 2 ^ 128 := by
  exact range_val 16 v

/-! ### Padding -/

theorem appendPadding_length (m : Bytes) :
    (appendPadding m).length = m.length + (16 - m.length % 16) := by
  simp [appendPadding]

theorem appendPadding_append (P b : Bytes) (h : 16 ∣ P.length) :
    appendPadding (P ++ b) = P ++ appendPadding b := by
  unfold appendPadding
  have : (P ++ b).length % 16 = b.length % 16 := by
    rw [List.length_append]; omega
  simp only [this, List.append_assoc]

/-- Stripping the last block of a padded message gives back the message. -/
theorem strip_last (m X L : Bytes) (h : X ++ L = appendPadding m) (hL : L.length = 16) :
    ∃ l, stripPadding .py2 L = .ok l ∧ X ++ l = m := by
  have hlen := congrArg List.length h
  rw [List.length_append, appendPadding_length, hL] at hlen
  set pad := 16 - m.length % 16 with hpad
  have hp1 : 1 ≤ pad := by omega
  have hp16 : pad ≤ 16 := by omega
  have hpadN : (UInt8.ofNat pad).toNat = pad := ofNat_toNat_lt (by omega)
  have hlast : L.getLast? = some (UInt8.ofNat pad) := by
    have h1 : (X ++ L).getLast? = L.getLast? := by
      rw [List.getLast?_append]
      have : L ≠ [] := by intro h0; rw [h0] at hL; simp at hL
      cases hh : L.getLast? with
      | none => rw [List.getLast?_eq_none_iff] at hh; exact absurd hh this
      | some x => rfl
    rw [← h1, h]
    unfold appendPadding
    simp only [← hpad]
    obtain ⟨q, hq⟩ : ∃ q, pad = q + 1 := ⟨pad - 1, by omega⟩
    rw [hq, List.replicate_succ', ← List.append_assoc, List.getLast?_append]
    simp
  refine ⟨L.take (16 - pad), ?_, ?_⟩
  · unfold stripPadding
    rw [if_neg (by rw [hL]; simp), hlast]
    simp only [hpadN]
    rw [if_neg (by omega), if_neg (by omega), hL]
  · have h2 : X ++ L.take (16 - pad) = (X ++ L).take (X.length + (16 - pad)) := by
      rw [List.take_append, List.take_of_length_le (l := X) (by omega)]
      rw [show X.length + (16 - pad) - X.length = 16 - pad from by omega]
    rw [h2, h]
    unfold appendPadding
    simp only [← hpad]
    rw [List.take_append_of_le_length (by omega), List.take_of_length_le (by omega)]

/-! ### Feeders -/

/-- What a feeder relies on: the mode is a fold over units, and `_can_consume` hands it whole units. -/
structure FeedOk {σ : Type} (k : Kind) (call : Call σ) (u : Nat) (Inv : σ → Prop)
    (f : σ → Bytes → Bytes × σ) : Prop where
  unit : UnitOk u Inv f
  can : ∀ n, u ∣ k.canConsume n ∧ k.canConsume n ≤ n ∧ (k.canConsume n = 0 → n < u)
  call : ∀ s d n, Inv s → d.length = k.canConsume n → d ≠ [] → call s d = .ok (runUnits u f s d)

theorem feedLoop_ok {σ : Type} {k : Kind} {call : Call σ} {u : Nat} {Inv : σ → Prop}
    {f : σ → Bytes → Bytes × σ} (h : FeedOk k call u Inv f) (fuel : Nat) (s : σ) (buf : Bytes)
    (hs : Inv s) (hf : buf.length ≤ fuel) :
    ∃ P b, buf = P ++ b ∧ u ∣ P.length ∧ b.length < 16 + u ∧ (P = [] ∨ 16 ≤ b.length) ∧
      feedLoop k call fuel s buf = .ok ((runUnits u f s P).1, (runUnits u f s P).2, b) := by
  have hu := h.unit.pos
  induction fuel generalizing s buf with
  | zero =>
    exact ⟨[], buf, rfl, dvd_zero _, by omega, .inl rfl, rfl⟩
  | succ n ih =>
    simp only [feedLoop]
    by_cases hc : buf.length > 16
    · rw [if_pos hc]
      obtain ⟨c1, c2, c3⟩ := h.can (buf.length - 16)
      set m := k.canConsume (buf.length - 16) with hm
      by_cases h0 : m = 0
      · rw [if_pos h0]
        exact ⟨[], buf, rfl, dvd_zero _, by have := c3 h0; omega, .inl rfl, rfl⟩
      · rw [if_neg h0]
        have htl : (buf.take m).length = m := by rw [List.length_take]; omega
        have hne : buf.take m ≠ [] := by
          intro h'; rw [h'] at htl; simp at htl; omega
        rw [h.call s (buf.take m) (buf.length - 16) hs htl hne, ok_bind]
        have hdv : u ∣ (buf.take m).length := by rw [htl]; exact c1
        obtain ⟨P, b, e1, e2, e3, e4, e5⟩ := ih (runUnits u f s (buf.take m)).2 (buf.drop m)
          (h.unit.run s _ hs hdv).2 (by rw [List.length_drop]; omega)
        refine ⟨buf.take m ++ P, b, ?_, ?_, e3, ?_, ?_⟩
        · rw [List.append_assoc, ← e1, List.take_append_drop]
        · rw [List.length_append]; exact Dvd.dvd.add hdv e2
        · right
          rcases e4 with e4 | e4
          · subst e4
            rw [List.nil_append] at e1
            rw [← e1, List.length_drop]; omega
          · exact e4
        · rw [e5, ok_bind, runUnits_append hu f s _ _ hdv]
    · rw [if_neg hc]
      exact ⟨[], buf, rfl, dvd_zero _, by omega, .inl rfl, rfl⟩

/-- What a feeder returns: the units it has consumed, then what `_final` makes of the rest. -/
theorem feedAll_ok {σ : Type} {k : Kind} {call : Call σ} {u : Nat} {Inv : σ → Prop}
    {f : σ → Bytes → Bytes × σ} (h : FeedOk k call u Inv f) (final : Call σ) (s : σ) (buf : Bytes)
    (hs : Inv s) (hbuf : buf.length < 16 + u) (chunks : List Bytes) (hne : ∀ c ∈ chunks, c ≠ []) :
    ∃ P b, buf ++ chunks.flatten = P ++ b ∧ u ∣ P.length ∧ b.length < 16 + u ∧
      (P = [] ∨ 16 ≤ b.length) ∧
      Feeder.feedAll k call final { mode := s, buffer := some buf } chunks = (do
        let (r, _) ← final (runUnits u f s P).2 b
        .ok ((runUnits u f s P).1 ++ r)) := by
  have hu := h.unit.pos
  induction chunks generalizing s buf with
  | nil =>
    refine ⟨[], buf, by simp, dvd_zero _, hbuf, .inl rfl, ?_⟩
    simp only [Feeder.feedAll, Feeder.feed, runUnits_nil]
    cases hfin : final s buf with
    | error e => rfl
    | ok r => rfl
  | cons c cs ih =>
    have hc := hne c (by simp)
    obtain ⟨P, b, e1, e2, e3, e4, e5⟩ := feedLoop_ok h (buf ++ c).length s (buf ++ c) hs (le_refl _)
    obtain ⟨P', b', g1, g2, g3, g4, g5⟩ := ih (runUnits u f s P).2 b (h.unit.run s P hs e2).2 e3
      (fun x hx => hne x (by simp [hx]))
    refine ⟨P ++ P', b', ?_, ?_, g3, ?_, ?_⟩
    · rw [List.flatten_cons, ← List.append_assoc, e1, List.append_assoc, g1, List.append_assoc]
    · rw [List.length_append]; exact Dvd.dvd.add e2 g2
    · rcases g4 with g4 | g4
      · subst g4
        rcases e4 with e4 | e4
        · left; simp [e4]
        · right
          have := congrArg List.length g1
          rw [List.length_append, List.nil_append] at this
          omega
      · exact .inr g4
    · simp only [Feeder.feedAll]
      have hfeed : Feeder.feed k call final { mode := s, buffer := some buf } (some c) =
          .ok ((runUnits u f s P).1, { mode := (runUnits u f s P).2, buffer := some b }) := by
        cases c with
        | nil => exact absurd rfl hc
        | cons x xs =>
          simp only [Feeder.feed]
          rw [e5, ok_bind]
      rw [hfeed, ok_bind]
      simp only
      rw [g5, runUnits_append hu f s _ _ e2]
      cases hfin : final (runUnits u f (runUnits u f s P).2 P').2 b' with
      | error e => rfl
      | ok r => simp [ok_bind]

/-! ### Block modes -/

theorem can_block (n : Nat) : 16 ∣ Kind.block.canConsume n ∧ Kind.block.canConsume n ≤ n ∧
    (Kind.block.canConsume n = 0 → n < 16) := by
  unfold Kind.canConsume
  simp only
  split_ifs with h
  · exact ⟨dvd_refl _, h, fun h => absurd h (by decide)⟩
  · exact ⟨dvd_zero _, by omega, fun _ => not_le.1 h⟩

theorem feedOk_block {σ : Type} {call : Call σ} {Inv : σ → Prop} {f : σ → Bytes → Bytes × σ}
    (hu : UnitOk 16 Inv f) (hc : ∀ s d, Inv s → d.length = 16 → call s d = .ok (f s d)) :
    FeedOk .block call 16 Inv f := by
  refine ⟨hu, can_block, ?_⟩
  intro s d n hs hd hne
  have : d.length = 16 := by
    unfold Kind.canConsume at hd
    simp only at hd
    split_ifs at hd
    · exact hd
    · exact absurd (List.length_eq_zero_iff.1 hd) hne
  rw [hc s d hs this, runUnits_one (by omega) f s d this]

theorem encrypter_block {σ : Type} {call : Call σ} {Inv : σ → Prop} {f : σ → Bytes → Bytes × σ}
    (hu : UnitOk 16 Inv f) (hc : ∀ s d, Inv s → d.length = 16 → call s d = .ok (f s d)) (s : σ)
    (hs : Inv s) (chunks : List Bytes) (hne : ∀ c ∈ chunks, c ≠ []) :
    encrypterRun .block call s chunks = .ok (runUnits 16 f s (appendPadding chunks.flatten)).1 := by
  obtain ⟨P, b, e1, e2, e3, _, e5⟩ := feedAll_ok (feedOk_block hu hc) (Kind.block.finalEncrypt call)
    s [] hs (by simp) chunks hne
  rw [List.nil_append] at e1
  unfold encrypterRun
  rw [e5, e1, appendPadding_append P b e2, runUnits_append (by omega) f s _ _ e2]
  have hs' := (hu.run s P hs e2).2
  have hfin : Kind.block.finalEncrypt call (runUnits 16 f s P).2 b =
      .ok (runUnits 16 f (runUnits 16 f s P).2 (appendPadding b)) := by
    have hl := appendPadding_length b
    unfold Kind.finalEncrypt
    simp only
    by_cases h32 : (appendPadding b).length = 32
    · rw [if_pos h32]
      have ht : ((appendPadding b).take 16).length = 16 := by rw [List.length_take]; omega
      have hd : ((appendPadding b).drop 16).length = 16 := by rw [List.length_drop]; omega
      rw [hc _ _ hs' ht, ok_bind, hc _ _ (hu.inv _ _ hs' ht) hd, ok_bind]
      conv_rhs => rw [← List.take_append_drop 16 (appendPadding b)]
      rw [runUnits_append (by omega) f _ _ _ (by rw [ht]), runUnits_one (by omega) f _ _ ht,
        runUnits_one (by omega) f _ _ hd]
    · rw [if_neg h32]
      have h16 : (appendPadding b).length = 16 := by omega
      rw [hc _ _ hs' h16, runUnits_one (by omega) f _ _ h16]
  rw [hfin]
  rfl

theorem decrypter_block {σ : Type} {call : Call σ} {Inv : σ → Prop} {f : σ → Bytes → Bytes × σ}
    (hu : UnitOk 16 Inv f) (hc : ∀ s d, Inv s → d.length = 16 → call s d = .ok (f s d)) (s : σ)
    (hs : Inv s) (chunks : List Bytes) (hne : ∀ c ∈ chunks, c ≠ []) (m : Bytes)
    (hm : (runUnits 16 f s chunks.flatten).1 = appendPadding m) (h16 : 16 ∣ chunks.flatten.length) :
    decrypterRun .py2 .block call s chunks = .ok m := by
  obtain ⟨P, b, e1, e2, e3, e4, e5⟩ := feedAll_ok (feedOk_block hu hc)
    (Kind.block.finalDecrypt .py2 call) s [] hs (by simp) chunks hne
  rw [List.nil_append] at e1
  have hlen := (hu.run s _ hs h16).1
  rw [hm, appendPadding_length] at hlen
  have hb : b.length = 16 := by
    have := congrArg List.length e1
    rw [List.length_append] at this
    rcases e4 with e4 | e4
    · subst e4
      simp only [List.length_nil] at this
      omega
    · omega
  unfold decrypterRun
  rw [e5]
  have hs' := (hu.run s P hs e2).2
  have hout : (runUnits 16 f s P).1 ++ (f (runUnits 16 f s P).2 b).1 = appendPadding m := by
    rw [← hm, e1, runUnits_append (by omega) f s _ _ e2, runUnits_one (by omega) f _ b hb]
  obtain ⟨l, hl1, hl2⟩ := strip_last m _ _ hout (hu.len _ b hs' hb)
  have hfin : Kind.block.finalDecrypt .py2 call (runUnits 16 f s P).2 b =
      .ok (l, (f (runUnits 16 f s P).2 b).2) := by
    unfold Kind.finalDecrypt
    simp only
    rw [hc _ _ hs' hb, ok_bind, hl1, ok_bind]
  rw [hfin, ok_bind]
  show Except.ok ((runUnits 16 f s P).1 ++ l) = _
  rw [hl2]

/-- A block mode through both feeders. -/
theorem feeder_block {σ : Type} {enc dec : Call σ} {Inv : σ → Prop}
    {e d : σ → Bytes → Bytes × σ} (he : UnitOk 16 Inv e) (hd : UnitOk 16 Inv d)
    (hce : ∀ s x, Inv s → x.length = 16 → enc s x = .ok (e s x))
    (hcd : ∀ s x, Inv s → x.length = 16 → dec s x = .ok (d s x))
    (hinv : ∀ s x, Inv s → x.length = 16 → d s (e s x).1 = (x, (e s x).2))
    (s : σ) (hs : Inv s) (chunks : List Bytes) (hne : ∀ c ∈ chunks, c ≠ []) :
    ∃ ct, encrypterRun .block enc s chunks = .ok ct ∧
      ∀ cs : List Bytes, (∀ c ∈ cs, c ≠ []) → cs.flatten = ct →
        decrypterRun .py2 .block dec s cs = .ok chunks.flatten := by
  refine ⟨_, encrypter_block he hce s hs chunks hne, ?_⟩
  intro cs hcs hflat
  have h16 : 16 ∣ (appendPadding chunks.flatten).length := by
    rw [appendPadding_length]; omega
  have hrun := he.run s _ hs h16
  refine decrypter_block hd hcd s hs cs hcs _ ?_ ?_
  · rw [hflat, runUnits_inverse he hinv s _ hs h16]
  · rw [hflat, hrun.1]; exact h16

/-! ### Stream modes -/

theorem feedOk_stream {σ : Type} {call : Call σ} {Inv : σ → Prop} {f : σ → Bytes → Bytes × σ}
    (hu : UnitOk 1 Inv f) (hc : ∀ s d, Inv s → call s d = .ok (runUnits 1 f s d)) :
    FeedOk .stream call 1 Inv f := by
  refine ⟨hu, fun n => ⟨one_dvd _, le_refl _, fun h => ?_⟩, fun s d _ hs _ _ => hc s d hs⟩
  have : n = 0 := h
  omega

theorem feeder_run_stream {σ : Type} {call final : Call σ} {Inv : σ → Prop}
    {f : σ → Bytes → Bytes × σ} (hu : UnitOk 1 Inv f)
    (hc : ∀ s d, Inv s → call s d = .ok (runUnits 1 f s d))
    (hfin : ∀ s d, final s d = call s d) (s : σ) (hs : Inv s)
    (chunks : List Bytes) (hne : ∀ c ∈ chunks, c ≠ []) :
    Feeder.feedAll .stream call final { mode := s, buffer := some [] } chunks =
      .ok (runUnits 1 f s chunks.flatten).1 := by
  obtain ⟨P, b, e1, e2, _, _, e5⟩ := feedAll_ok (feedOk_stream hu hc) final s [] hs (by simp) chunks
    hne
  rw [List.nil_append] at e1
  rw [e5, hfin, hc _ b (hu.run s P hs e2).2, ok_bind, e1, runUnits_append (by omega) f s _ _ e2]

/-- A stream mode through both feeders. -/
theorem feeder_stream {σ : Type} {call : Call σ} {Inv : σ → Prop}
    {f : σ → Bytes → Bytes × σ} (hu : UnitOk 1 Inv f)
    (hc : ∀ s d, Inv s → call s d = .ok (runUnits 1 f s d))
    (hinv : ∀ s x, Inv s → x.length = 1 → f s (f s x).1 = (x, (f s x).2)) (ver : PyVer)
    (s : σ) (hs : Inv s) (chunks : List Bytes) (hne : ∀ c ∈ chunks, c ≠ []) :
    ∃ ct, encrypterRun .stream call s chunks = .ok ct ∧
      ∀ cs : List Bytes, (∀ c ∈ cs, c ≠ []) → cs.flatten = ct →
        decrypterRun ver .stream call s cs = .ok chunks.flatten := by
  refine ⟨_, feeder_run_stream hu hc (fun _ _ => rfl) s hs chunks hne, ?_⟩
  intro cs hcs hflat
  unfold decrypterRun
  rw [feeder_run_stream (final := Kind.stream.finalDecrypt ver call) hu hc (fun _ _ => rfl) s hs cs
    hcs, hflat,
    runUnits_inverse hu hinv s _ hs (one_dvd _)]

/-! ### Segment mode -/

theorem can_segment (seg : Nat) (hseg : 0 < seg) (n : Nat) :
    seg ∣ (Kind.segment seg).canConsume n ∧ (Kind.segment seg).canConsume n ≤ n ∧
      ((Kind.segment seg).canConsume n = 0 → n < seg) := by
  unfold Kind.canConsume
  simp only
  refine ⟨Nat.dvd_mul_right _ _, Nat.mul_div_le n seg, fun h => ?_⟩
  rcases Nat.mul_eq_zero.1 h with h | h
  · omega
  · exact (Nat.div_eq_zero_iff_lt hseg).1 h

theorem pad_segment (seg : Nat) (hseg : 0 < seg) (n : Nat) : seg ∣ n + (seg - n % seg) := by
  have h1 : n % seg < seg := Nat.mod_lt _ hseg
  have h2 := Nat.div_add_mod n seg
  refine ⟨n / seg + 1, ?_⟩
  rw [Nat.mul_add, Nat.mul_one]
  omega

/-- The zeros that the segment mode appends. -/
def segZeros (seg n : Nat) : Bytes := List.replicate (seg - n % seg) 0

theorem feeder_run_segment {σ : Type} {call final : Call σ} {Inv : σ → Prop} {seg : Nat}
    {f : σ → Bytes → Bytes × σ} (hu : UnitOk seg Inv f)
    (hc : ∀ s d, Inv s → seg ∣ d.length → call s d = .ok (runUnits seg f s d))
    (hfin : ∀ s d, final s d = (do
      let (e, s) ← call s (d ++ segZeros seg d.length)
      .ok (e.take d.length, s))) (s : σ) (hs : Inv s)
    (chunks : List Bytes) (hne : ∀ c ∈ chunks, c ≠ []) :
    Feeder.feedAll (.segment seg) call final { mode := s, buffer := some [] } chunks =
      .ok ((runUnits seg f s (chunks.flatten ++ segZeros seg chunks.flatten.length)).1.take
        chunks.flatten.length) := by
  have hseg := hu.pos
  have hok : FeedOk (.segment seg) call seg Inv f := by
    refine ⟨hu, can_segment seg hseg, ?_⟩
    intro s d n hs hd _
    exact hc s d hs (by rw [hd]; exact (can_segment seg hseg n).1)
  obtain ⟨P, b, e1, e2, _, _, e5⟩ := feedAll_ok hok final s [] hs (by simp) chunks hne
  rw [List.nil_append] at e1
  have hs' := (hu.run s P hs e2).2
  have hdv : seg ∣ (b ++ segZeros seg b.length).length := by
    rw [List.length_append, segZeros, List.length_replicate]
    exact pad_segment seg hseg b.length
  have hz : segZeros seg (P ++ b).length = segZeros seg b.length := by
    unfold segZeros
    obtain ⟨q, hq⟩ := e2
    rw [List.length_append, hq, Nat.mul_add_mod]
  have hP := (hu.run s P hs e2).1
  rw [e5, hfin, hc _ _ hs' hdv, ok_bind, ok_bind, e1, hz, List.append_assoc,
    runUnits_append hseg f s _ _ e2]
  simp only
  rw [List.take_append, hP, List.length_append,
    List.take_of_length_le (l := (runUnits seg f s P).1) (by omega),
    show P.length + b.length - P.length = b.length from by omega]

/-- A segment mode through both feeders.  `hpre`: the first `n` bytes of a decrypted unit depend only
on its first `n` bytes. -/
theorem feeder_segment {σ : Type} {enc dec : Call σ} {Inv : σ → Prop} {seg : Nat}
    {e d : σ → Bytes → Bytes × σ} (he : UnitOk seg Inv e) (hd : UnitOk seg Inv d)
    (hce : ∀ s x, Inv s → seg ∣ x.length → enc s x = .ok (runUnits seg e s x))
    (hcd : ∀ s x, Inv s → seg ∣ x.length → dec s x = .ok (runUnits seg d s x))
    (hinv : ∀ s x, Inv s → x.length = seg → d s (e s x).1 = (x, (e s x).2))
    (hpre : ∀ s x y n, x.take n = y.take n → (d s x).1.take n = (d s y).1.take n) (ver : PyVer)
    (s : σ) (hs : Inv s) (chunks : List Bytes) (hne : ∀ c ∈ chunks, c ≠ []) :
    ∃ ct, encrypterRun (.segment seg) enc s chunks = .ok ct ∧
      ∀ cs : List Bytes, (∀ c ∈ cs, c ≠ []) → cs.flatten = ct →
        decrypterRun ver (.segment seg) dec s cs = .ok chunks.flatten := by
  have hseg := he.pos
  refine ⟨_, feeder_run_segment he hce (fun _ _ => rfl) s hs chunks hne, ?_⟩
  intro cs hcs hflat
  unfold decrypterRun
  rw [feeder_run_segment (final := (Kind.segment seg).finalDecrypt ver dec) hd hcd (fun _ _ => rfl)
    s hs cs hcs, hflat]
  generalize chunks.flatten = m
  congr 1
  -- the aligned part of the message and the rest
  have hmod : m.length % seg < seg := Nat.mod_lt _ hseg
  have hdm := Nat.div_add_mod m.length seg
  set P := m.take (seg * (m.length / seg)) with hP
  set r := m.drop (seg * (m.length / seg)) with hr
  have hm : m = P ++ r := (List.take_append_drop _ _).symm
  have hPl : P.length = seg * (m.length / seg) := by rw [hP, List.length_take]; omega
  have hrl : r.length = m.length % seg := by rw [hr, List.length_drop]; omega
  have hPd : seg ∣ P.length := by rw [hPl]; exact Nat.dvd_mul_right _ _
  set z := segZeros seg m.length with hz
  have hzl : z.length = seg - m.length % seg := by rw [hz, segZeros, List.length_replicate]
  have hone : (r ++ z).length = seg := by rw [List.length_append, hrl, hzl]; omega
  obtain ⟨hPrl, hs1⟩ := he.run s P hs hPd
  have hE : (runUnits seg e s (m ++ z)).1 =
      (runUnits seg e s P).1 ++ (e (runUnits seg e s P).2 (r ++ z)).1 := by
    rw [hm, List.append_assoc, runUnits_append hseg e s _ _ hPd, runUnits_one hseg e _ _ hone]
  set s1 := (runUnits seg e s P).2 with hs1'
  have hcl := he.len s1 _ hs1 hone
  have hct : (runUnits seg e s (m ++ z)).1.take m.length =
      (runUnits seg e s P).1 ++ (e s1 (r ++ z)).1.take r.length := by
    rw [hE, List.take_append, List.take_of_length_le (by rw [hPrl]; omega)]
    congr 2
    omega
  rw [hct]
  have hctl : ((runUnits seg e s P).1 ++ (e s1 (r ++ z)).1.take r.length).length = m.length := by
    rw [List.length_append, List.length_take, hPrl, hcl]; omega
  rw [hctl, ← hz, List.append_assoc, runUnits_append hseg d s _ _ (by rw [hPrl]; exact hPd),
    runUnits_inverse he hinv s P hs hPd]
  simp only
  have hlast : ((e s1 (r ++ z)).1.take r.length ++ z).length = seg := by
    rw [List.length_append, List.length_take, hcl, hzl, hrl]; omega
  rw [runUnits_one hseg d _ _ hlast, List.take_append, List.take_of_length_le (by omega)]
  have : m.length - P.length = r.length := by omega
  rw [this, hpre s1 _ (e s1 (r ++ z)).1 r.length (by
    rw [List.take_append_of_le_length (by rw [List.length_take, hcl]; omega), List.take_take,
      Nat.min_self]), hinv s1 _ hs1 hone]
  simp only
  rw [List.take_left']
  · exact hm.symm
  · rfl

theorem cfb_prefix (E : Bytes → Bytes) (s : CFB) (x y : Bytes) (n : Nat)
    (h : x.take n = y.take n) : (cfbD E s x).1.take n = (cfbD E s y).1.take n := by
  unfold cfbD
  simp only [xorBytes_take, h]

end NBC.Aes
