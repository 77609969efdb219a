import Verif.Proofs.Base32
import Verif.Proofs.PartialKeys
import Mathlib.Data.List.Sort

/-! # Lemmas about QR texts of partial key-sets -/

namespace NBC.Piecewise
open NBC Key Ecdsa Base58 Aes Spec

/-! ### Sorting -/

theorem bytesLe_total : ∀ s t : Bytes, Util.bytesLe s t = true ∨ Util.bytesLe t s = true
  | [], _ => .inl rfl
  | _ :: _, [] => .inr rfl
  | a :: s, b :: t => by
    simp only [Util.bytesLe, Bool.or_eq_true, decide_eq_true_eq, Bool.and_eq_true]
    have ih := bytesLe_total s t
    rw [UInt8.lt_iff_toNat_lt, UInt8.lt_iff_toNat_lt, ← UInt8.toNat_inj, ← UInt8.toNat_inj]
    rcases Nat.lt_trichotomy a.toNat b.toNat with h | h | h
    · exact .inl (.inl h)
    · rcases ih with ih | ih
      · exact .inl (.inr ⟨h, ih⟩)
      · exact .inr (.inr ⟨h.symm, ih⟩)
    · exact .inr (.inl h)

theorem bytesLe_antisymm : ∀ s t : Bytes, Util.bytesLe s t = true → Util.bytesLe t s = true → s = t
  | [], [], _, _ => rfl
  | [], _ :: _, _, h => by cases h
  | _ :: _, [], h, _ => by cases h
  | a :: s, b :: t, h1, h2 => by
    simp only [Util.bytesLe, Bool.or_eq_true, decide_eq_true_eq, Bool.and_eq_true] at h1 h2
    rw [UInt8.lt_iff_toNat_lt, ← UInt8.toNat_inj] at h1 h2
    have hab : a.toNat = b.toNat := by omega
    rw [UInt8.toNat_inj.1 hab, bytesLe_antisymm s t (h1.resolve_left (by omega)).2 (h2.resolve_left (by omega)).2]

theorem bytesLe_trans : ∀ s t u : Bytes, Util.bytesLe s t = true → Util.bytesLe t u = true →
    Util.bytesLe s u = true
  | [], _, _, _, _ => rfl
  | _ :: _, [], _, h, _ => by cases h
  | _ :: _, _ :: _, [], _, h => by cases h
  | a :: s, b :: t, c :: u, h1, h2 => by
    simp only [Util.bytesLe, Bool.or_eq_true, decide_eq_true_eq, Bool.and_eq_true] at h1 h2 ⊢
    rw [UInt8.lt_iff_toNat_lt, ← UInt8.toNat_inj] at h1 h2 ⊢
    have ih := bytesLe_trans s t u
    rcases h1 with h1 | ⟨h1, h1'⟩
    · exact .inl (by omega)
    · rcases h2 with h2 | ⟨h2, h2'⟩
      · exact .inl (by omega)
      · exact .inr ⟨by omega, ih h1' h2'⟩

theorem pairLe_iff {p q : Nat × Bytes} :
    pairLe p q = true ↔ p.1 < q.1 ∨ (p.1 = q.1 ∧ Util.bytesLe p.2 q.2 = true) := by
  simp [pairLe]

theorem pairLe_total (p q : Nat × Bytes) : pairLe p q = true ∨ pairLe q p = true := by
  rw [pairLe_iff, pairLe_iff]
  rcases Nat.lt_trichotomy p.1 q.1 with h | h | h
  · exact .inl (.inl h)
  · exact (bytesLe_total p.2 q.2).imp (fun h' => .inr ⟨h, h'⟩) (fun h' => .inr ⟨h.symm, h'⟩)
  · exact .inr (.inl h)

theorem pairLe_antisymm {p q : Nat × Bytes} (h1 : pairLe p q = true) (h2 : pairLe q p = true) : p = q := by
  rw [pairLe_iff] at h1 h2
  have := bytesLe_antisymm p.2 q.2
  have e : p.1 = q.1 := by omega
  exact Prod.ext e (this (h1.resolve_left (by omega)).2 (h2.resolve_left (by omega)).2)

theorem pairLe_trans {p q r : Nat × Bytes} (h1 : pairLe p q = true) (h2 : pairLe q r = true) :
    pairLe p r = true := by
  rw [pairLe_iff] at *
  have := bytesLe_trans p.2 q.2 r.2
  rcases h1 with h1 | ⟨h1, h1'⟩
  · exact .inl (by omega)
  · rcases h2 with h2 | ⟨h2, h2'⟩
    · exact .inl (by omega)
    · exact .inr ⟨by omega, this h1' h2'⟩

theorem insertPair_perm (p : Nat × Bytes) (l : List (Nat × Bytes)) : (insertPair p l).Perm (p :: l) := by
  induction l with
  | nil => exact .refl _
  | cons q l ih =>
    rw [insertPair]
    split_ifs
    · exact .refl _
    · exact (ih.cons q).trans (.swap p q l)

theorem insertPair_sorted (p : Nat × Bytes) {l : List (Nat × Bytes)}
    (h : l.Pairwise (fun a b => pairLe a b = true)) : (insertPair p l).Pairwise (fun a b => pairLe a b = true) := by
  induction l with
  | nil => simp [insertPair]
  | cons q l ih =>
    rw [List.pairwise_cons] at h
    rw [insertPair]
    split_ifs with hpq
    · rw [List.pairwise_cons, List.pairwise_cons]
      refine ⟨?_, h⟩
      intro r hr
      rcases List.mem_cons.1 hr with rfl | hr
      · exact hpq
      · exact pairLe_trans hpq (h.1 r hr)
    · rw [List.pairwise_cons]
      refine ⟨?_, ih h.2⟩
      intro r hr
      rcases List.mem_cons.1 ((insertPair_perm p l).mem_iff.1 hr) with rfl | hr
      · exact (pairLe_total r q).resolve_left hpq
      · exact h.1 r hr

theorem sortPairs_perm (l : List (Nat × Bytes)) : (sortPairs l).Perm l := by
  induction l with
  | nil => exact .refl _
  | cons p l ih => exact (insertPair_perm p _).trans (ih.cons p)

theorem sortPairs_sorted (l : List (Nat × Bytes)) : (sortPairs l).Pairwise (fun a b => pairLe a b = true) := by
  induction l with
  | nil => exact List.Pairwise.nil
  | cons p l ih => exact insertPair_sorted p ih

theorem sortPairs_congr {l l' : List (Nat × Bytes)} (h : l.Perm l') : sortPairs l = sortPairs l' := by
  refine List.Perm.eq_of_pairwise (le := fun a b => pairLe a b = true) ?_ (sortPairs_sorted l) (sortPairs_sorted l')
    (((sortPairs_perm l).trans h).trans (sortPairs_perm l').symm)
  intro a b _ _ h1 h2
  exact pairLe_antisymm h1 h2

/-! ### The loop of the encoder -/

/-- A decoded key that the loop accepts, with the given `required` and checksum. -/
def QrGood (r : Nat) (c : Bytes) (k : Option Bytes) : Prop :=
  ∃ pk, k = some pk ∧ pk.take 2 = [0x10, 0x01] ∧ (∃ b, pyIndex pk 3 = .ok b ∧ b.toNat = r) ∧
    (pk.drop 4).take 4 = c

/-- The pair that the loop appends. -/
def qrPair (k : Option Bytes) : Nat × Bytes :=
  match k with
  | none => (0, [])
  | some pk => ((pk.getD 2 0).toNat, pk.drop 8)

theorem pyIndex_two {pk : Bytes} {b : UInt8} (h : pyIndex pk 3 = .ok b) : pyIndex pk 2 = .ok (pk.getD 2 0) := by
  obtain ⟨hi, _⟩ := pyIndex_ok h
  unfold pyIndex
  rw [List.getElem?_eq_getElem (by omega), List.getD_eq_getElem _ _ (by omega)]

theorem qrStep_ok {st st' : QrState} {k : Option Bytes} (h : qrStep st k = .ok st') :
    ∃ r c, QrGood r c k ∧ st.required.getD r = r ∧ st.checksum.getD c = c ∧
      st' = ⟨some r, some c, st.binary ++ [qrPair k]⟩ := by
  unfold qrStep at h
  cases k with
  | none => cases h
  | some pk =>
    simp only at h
    by_cases h1 : pk.take 2 ≠ [0x10, 0x01]
    · rw [if_pos h1] at h; cases h
    rw [if_neg h1] at h
    obtain ⟨b, hb, h⟩ := bind_ok_iff.1 h
    by_cases h2 : b.toNat ≠ st.required.getD b.toNat
    · rw [if_pos h2] at h; cases h
    rw [if_neg h2] at h
    by_cases h3 : (pk.drop 4).take 4 ≠ st.checksum.getD ((pk.drop 4).take 4)
    · rw [if_pos h3] at h; cases h
    rw [if_neg h3] at h
    rw [pyIndex_two hb, ok_bind] at h
    rw [not_not] at h1 h2 h3
    refine ⟨b.toNat, (pk.drop 4).take 4, ⟨pk, rfl, h1, ⟨b, hb, rfl⟩, rfl⟩, h2.symm, h3.symm, ?_⟩
    rw [← h2, ← h3] at h
    exact (Except.ok.inj h).symm

theorem qrStep_good {st : QrState} {k : Option Bytes} {r : Nat} {c : Bytes} (hg : QrGood r c k)
    (h1 : st.required.getD r = r) (h2 : st.checksum.getD c = c) :
    qrStep st k = .ok ⟨some r, some c, st.binary ++ [qrPair k]⟩ := by
  obtain ⟨pk, rfl, h3, ⟨b, hb, rfl⟩, rfl⟩ := hg
  simp only [qrStep, h3, ne_eq, not_true_eq_false, if_false, hb, ok_bind, h1, h2, pyIndex_two hb]
  rfl

theorem qrFold_good {ks : List (Option Bytes)} {r : Nat} {c : Bytes} (hg : ∀ k ∈ ks, QrGood r c k)
    {st : QrState} (h1 : st.required.getD r = r) (h2 : st.checksum.getD c = c) (hne : ks ≠ []) :
    ks.foldlM qrStep st = .ok ⟨some r, some c, st.binary ++ ks.map qrPair⟩ := by
  induction ks generalizing st with
  | nil => exact absurd rfl hne
  | cons k ks ih =>
    rw [List.foldlM_cons, qrStep_good (hg k (by simp)) h1 h2, ok_bind]
    by_cases hk : ks = []
    · subst hk; rfl
    · rw [ih (fun k hk => hg k (by simp [hk])) rfl rfl hk]
      simp

theorem qrFold_ok {ks : List (Option Bytes)} {st st' : QrState} (h : ks.foldlM qrStep st = .ok st')
    (hne : ks ≠ []) : ∃ r c, ∀ k ∈ ks, QrGood r c k := by
  induction ks generalizing st with
  | nil => exact absurd rfl hne
  | cons k ks ih =>
    rw [List.foldlM_cons] at h
    obtain ⟨st₁, h1, h⟩ := bind_ok_iff.1 h
    obtain ⟨r, c, hg, _, _, rfl⟩ := qrStep_ok h1
    by_cases hk : ks = []
    · subst hk
      exact ⟨r, c, by intro k' hk'; rw [List.mem_singleton] at hk'; rw [hk']; exact hg⟩
    · refine ⟨r, c, ?_⟩
      have key : ∀ (ks : List (Option Bytes)) (st : QrState), st.required = some r → st.checksum = some c →
          ks.foldlM qrStep st = .ok st' → ∀ k ∈ ks, QrGood r c k := by
        intro ks
        induction ks with
        | nil => intro _ _ _ _ k hk; cases hk
        | cons k ks ih =>
          intro st e1 e2 h k' hk'
          rw [List.foldlM_cons] at h
          obtain ⟨st₁, h1, h⟩ := bind_ok_iff.1 h
          obtain ⟨r', c', hg, f1, f2, rfl⟩ := qrStep_ok h1
          rw [e1] at f1
          rw [e2] at f2
          have f1 : r = r' := f1
          have f2 : c = c' := f2
          subst f1; subst f2
          rcases List.mem_cons.1 hk' with rfl | hk'
          · exact hg
          · exact ih _ rfl rfl h k' hk'
      intro k' hk'
      rcases List.mem_cons.1 hk' with rfl | hk'
      · exact hg
      · exact key ks _ rfl rfl h k' hk'

theorem mapM_perm {α β : Type} {f : α → Py β} {l l' : List α} (hp : l.Perm l') :
    ∀ {r : List β}, l.mapM f = .ok r → ∃ r', l'.mapM f = .ok r' ∧ r.Perm r' := by
  induction hp with
  | nil => intro r h; exact ⟨r, h, .refl _⟩
  | cons a _ ih =>
    intro r h
    rw [List.mapM_cons] at h
    obtain ⟨b, h1, h⟩ := bind_ok_iff.1 h
    obtain ⟨bs, h2, h⟩ := bind_ok_iff.1 h
    rw [pure_ok_iff] at h
    obtain ⟨bs', h3, h4⟩ := ih h2
    refine ⟨b :: bs', by rw [List.mapM_cons, h1, ok_bind, h3, ok_bind]; rfl, ?_⟩
    rw [← h]
    exact h4.cons b
  | swap a b l =>
    intro r h
    rw [List.mapM_cons] at h
    obtain ⟨x, h1, h⟩ := bind_ok_iff.1 h
    obtain ⟨bs, h2, h⟩ := bind_ok_iff.1 h
    rw [pure_ok_iff] at h
    rw [List.mapM_cons] at h2
    obtain ⟨y, h3, h2⟩ := bind_ok_iff.1 h2
    obtain ⟨bs', h4, h2⟩ := bind_ok_iff.1 h2
    rw [pure_ok_iff] at h2
    subst h2
    subst h
    refine ⟨y :: x :: bs', ?_, .swap y x bs'⟩
    rw [List.mapM_cons, h3, ok_bind, List.mapM_cons, h1, ok_bind, h4]
    rfl
  | trans _ _ ih1 ih2 =>
    intro r h
    obtain ⟨r1, h1, p1⟩ := ih1 h
    obtain ⟨r2, h2, p2⟩ := ih2 h1
    exact ⟨r2, h2, p1.trans p2⟩

end NBC.Piecewise
