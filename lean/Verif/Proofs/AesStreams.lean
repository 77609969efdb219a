import Verif.Proofs.AesFeeder
import Verif.Spec.AesModes
import Verif.Props.Aes

/-!
# The modes compute those of the specification
-/

namespace NBC.Aes
open NBC.Spec NBC.Spec.Aes NBC.Props

theorem xorBytes_eq (a b : Bytes) : xorBytes a b = xorB a b := by
  induction a generalizing b with
  | nil => cases b <;> rfl
  | cons x xs ih =>
    cases b with
    | nil => rfl
    | cons y ys =>
      unfold xorBytes at ih ⊢
      rw [List.zipWith_cons_cons, ih, xorB]

/-- The object made from a key computes the specification's block function. -/
theorem blk_spec {ver : PyVer} {key : Bytes} {A : AES} (h : AES.init ver key = .ok A) :
    ∃ D, Blk A (blockFn key) D := by
  obtain ⟨E, D, hb⟩ := blk_of_init h
  obtain ⟨A', h1, h2⟩ := C37_fips197_partial ver key (keyOk_of_init h)
  rw [h] at h1; injection h1 with h1; subst h1
  have hE : ∀ b : Bytes, b.length = 16 → blockFn key b = E b := by
    intro b hl
    obtain ⟨⟨c, hc, hc'⟩, _⟩ := h2 b hl
    rw [hb.enc b hl] at hc'
    injection hc' with hc'
    unfold blockFn
    rw [hc, hc']; rfl
  refine ⟨D, ?_, hb.dec, ?_, hb.dlen, ?_, ?_⟩
  · intro b hl; rw [hE b hl]; exact hb.enc b hl
  · intro b hl; rw [hE b hl]; exact hb.elen b hl
  · intro b hl; rw [hE b hl]; exact hb.de b hl
  · intro b hl; rw [hE _ (hb.dlen b hl)]; exact hb.ed b hl

variable {A : AES} {E D : Bytes → Bytes}

theorem ofb_stream (h : Blk A E D) (d : Bytes) (n : Nat) (s : OFB) (hs : ofbInv A s)
    (hn : d.length ≤ s.remaining.length + 16 * n) :
    (runUnits 1 (ofbE E) s d).1 = xorB d (s.remaining ++ ofbStream E n (s.last ++ s.remaining)) := by
  induction d generalizing s n with
  | nil => rw [runUnits_nil]; rfl
  | cons c cs ih =>
    rw [runUnits_step (by omega) _ _ _ (by simp)]
    simp only [List.take_succ_cons, List.take_zero, List.drop_succ_cons, List.drop_zero]
    have hu := (ofb_unit h).inv s [c] hs rfl
    obtain ⟨a, l, r⟩ := s
    obtain ⟨rfl, hl⟩ := hs
    simp only at hl hn ⊢
    cases r with
    | nil =>
      simp only [List.length_nil, Nat.add_zero, List.length_cons] at hl hn
      cases n with
      | zero => omega
      | succ n =>
        have he := h.elen l hl
        cases hE : E l with
        | nil => rw [hE] at he; simp at he
        | cons k ks =>
          rw [hE] at he
          have h1 : ofbE E ⟨a, l, []⟩ [c] = ([c ^^^ k], ⟨a, [k], ks⟩) := by
            simp [ofbE, ofbFill, hE, xorBytes]
          rw [h1] at hu ⊢
          simp only
          rw [ih n ⟨a, [k], ks⟩ hu (by simp only [List.length_cons] at he ⊢; omega)]
          simp only [List.append_nil, List.nil_append, ofbStream, hE, List.cons_append, xorB]
    | cons k ks =>
      have h1 : ofbE E ⟨a, l, k :: ks⟩ [c] = ([c ^^^ k], ⟨a, l ++ [k], ks⟩) := by
        simp [ofbE, ofbFill, xorBytes]
      rw [h1] at hu ⊢
      simp only
      rw [ih n ⟨a, l ++ [k], ks⟩ hu (by simp only [List.length_cons] at hn ⊢; omega)]
      simp only [List.append_assoc, List.cons_append, List.nil_append, xorB]

theorem counterInit_eq (v : Int) : counterInit v = beBytes 16 (v % 2 ^ 128).toNat := by
  have h1 := counterInit_val v
  have h2 := counterInit_length v
  have h3 : bytesVal (counterInit v) = (v % 2 ^ 128).toNat := by omega
  rw [← h3, ← h2, beBytes_bytesVal]

theorem counterInit_succ (v : Int) : counterIncrement (counterInit v) = counterInit (v + 1) := by
  have h1 := C40_increment _ (counterInit_length v)
  have h2 := counterInit_val v
  have h3 := counterInit_val (v + 1)
  refine bytesVal_inj ?_ ?_
  · rw [h1.1, counterInit_length]
  · omega

theorem ctr_stream (h : Blk A E D) (d : Bytes) (n : Nat) (v : Int) (s : CTR) (hs : ctrInv A s)
    (hv : s.counter = counterInit v) (hn : d.length ≤ s.remaining.length + 16 * n) :
    (runUnits 1 (ctrE E) s d).1 = xorB d (s.remaining ++ ctrStream E n v) := by
  induction d generalizing s n v with
  | nil => rw [runUnits_nil]; rfl
  | cons c cs ih =>
    rw [runUnits_step (by omega) _ _ _ (by simp)]
    simp only [List.take_succ_cons, List.take_zero, List.drop_succ_cons, List.drop_zero]
    have hu := (ctr_unit h).inv s [c] hs rfl
    obtain ⟨a, l, r⟩ := s
    obtain ⟨rfl, hl⟩ := hs
    simp only at hl hn hv ⊢
    subst hv
    cases r with
    | nil =>
      simp only [List.length_nil, List.length_cons] at hl hn
      cases n with
      | zero => omega
      | succ n =>
        have he := h.elen _ hl
        cases hE : E (counterInit v) with
        | nil => rw [hE] at he; simp at he
        | cons k ks =>
          rw [hE] at he
          have h1 : ctrE E ⟨a, counterInit v, []⟩ [c] =
              ([c ^^^ k], ⟨a, counterInit (v + 1), ks⟩) := by
            simp [ctrE, ctrFill, hE, xorBytes, counterInit_succ]
          rw [h1] at hu ⊢
          simp only
          rw [ih n (v + 1) ⟨a, counterInit (v + 1), ks⟩ hu rfl
            (by simp only [List.length_cons] at he ⊢; omega)]
          simp only [List.nil_append, ctrStream, ← counterInit_eq, hE, List.cons_append, xorB]
    | cons k ks =>
      have h1 : ctrE E ⟨a, counterInit v, k :: ks⟩ [c] = ([c ^^^ k], ⟨a, counterInit v, ks⟩) := by
        simp [ctrE, ctrFill, xorBytes]
      rw [h1] at hu ⊢
      simp only
      rw [ih n v ⟨a, counterInit v, ks⟩ hu rfl (by simp only [List.length_cons] at hn ⊢; omega)]
      simp only [List.cons_append, List.nil_append, xorB]

theorem cbc_blocks (h : Blk A E D) (ds : List Bytes) (s : CBC) (hs : cbcInv A s)
    (hd : ∀ d ∈ ds, d.length = 16) :
    ∃ t, runCalls CBC.encrypt s ds = .ok (cbcBlocks E s.last ds, t) := by
  induction ds generalizing s with
  | nil => exact ⟨s, rfl⟩
  | cons d ds ih =>
    have h1 := hd d (by simp)
    obtain ⟨t, ht⟩ := ih (cbcE E s d).2 ((cbc_unit h).inv s d hs h1) (fun x hx => hd x (by simp [hx]))
    refine ⟨t, ?_⟩
    simp only [runCalls]
    rw [cbcEncrypt_eq h s hs d h1, ok_bind, ht, ok_bind]
    simp only [cbcE, cbcBlocks, xorBytes_eq]

theorem cfb_blocks (h : Blk A E D) {seg : Nat} (h1 : 0 < seg) (h16 : seg ≤ 16) (ds : List Bytes)
    (s : CFB) (hs : cfbInv A seg s) (hd : ∀ d ∈ ds, d.length = seg) :
    ∃ t, runCalls CFB.encrypt s ds = .ok (cfbSegments E s.reg ds, t) := by
  induction ds generalizing s with
  | nil => exact ⟨s, rfl⟩
  | cons d ds ih =>
    have hl := hd d (by simp)
    have hu := cfb_unit h h1 h16
    obtain ⟨t, ht⟩ := ih (cfbE E s d).2 (hu.inv s d hs hl) (fun x hx => hd x (by simp [hx]))
    have hlen := hu.len s d hs hl
    refine ⟨t, ?_⟩
    simp only [runCalls]
    rw [cfbEncrypt_eq h h1 h16 s hs d (by rw [hl]), runUnits_one h1 _ _ d hl, ok_bind, ht, ok_bind]
    have hreg : (cfbE E s d).2.reg = s.reg.drop d.length ++ (cfbE E s d).1 := by
      have : (cfbE E s d).2.reg = s.reg.drop (cfbE E s d).1.length ++ (cfbE E s d).1 := rfl
      rw [this, hlen, hl]
    rw [hreg]
    simp only [cfbSegments, ← xorBytes_eq]
    rfl

end NBC.Aes
