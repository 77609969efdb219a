import Verif.Proofs.AesStreams

/-!
# C90: the modes are those of NIST SP 800-38A
-/

namespace NBC.Props
open NBC Aes Spec Spec.Aes

/-- The initialisation vector in force: 16 zero bytes unless one is given. -/
def ivOf (iv : Option Bytes) : Bytes := iv.getD (List.replicate 16 0)

theorem ivBlock_val {iv : Option Bytes} {l : Bytes} (h : ivBlock iv = .ok l) : l = ivOf iv := by
  unfold ivBlock at h
  cases iv with
  | none => injection h with h; exact h.symm
  | some v =>
    simp only at h
    split_ifs at h
    injection h with h; exact h.symm

/-- C90, ECB: each block through the block function, the object unchanged. -/
theorem C90_ecb (ver : PyVer) (key : Bytes) (A : AES) (h : AES.init ver key = .ok A)
    (blocks : List Bytes) (hb : ∀ b ∈ blocks, b.length = 16) :
    runCalls ecbEncrypt A blocks = .ok (blocks.map (blockFn key), A) := by
  obtain ⟨D, hB⟩ := blk_spec h
  induction blocks with
  | nil => rfl
  | cons b bs ih =>
    simp only [runCalls]
    rw [ecbEncrypt_eq hB b (hb b (by simp)), ok_bind]
    simp only [ecbE]
    rw [ih (fun x hx => hb x (by simp [hx])), ok_bind]
    rfl

/-- C90, CBC: the outputs are the ciphertext blocks of CBC. -/
theorem C90_cbc (ver : PyVer) (key : Bytes) (iv : Option Bytes) (s : CBC)
    (h : CBC.init ver key iv = .ok s) (blocks : List Bytes) (hb : ∀ b ∈ blocks, b.length = 16) :
    ∃ t, runCalls CBC.encrypt s blocks = .ok (cbcBlocks (blockFn key) (ivOf iv) blocks, t) := by
  unfold CBC.init at h
  rw [bind_ok_iff] at h; obtain ⟨l, hl, h⟩ := h
  rw [bind_ok_iff] at h; obtain ⟨A, hA, h⟩ := h
  injection h with h; subst h
  obtain ⟨D, hB⟩ := blk_spec hA
  rw [← ivBlock_val hl]
  exact cbc_blocks hB blocks ⟨A, l⟩ ⟨rfl, ivBlock_length hl⟩ hb

/-- C90, CFB with segments of up to 16 bytes: the outputs are the ciphertext segments of CFB. -/
theorem C90_cfb (ver : PyVer) (key : Bytes) (iv : Option Bytes) (seg : Nat) (h1 : 1 ≤ seg)
    (h16 : seg ≤ 16) (s : CFB) (h : CFB.init ver key iv seg = .ok s) (segs : List Bytes)
    (hb : ∀ b ∈ segs, b.length = seg) :
    ∃ t, runCalls CFB.encrypt s segs = .ok (cfbSegments (blockFn key) (ivOf iv) segs, t) := by
  unfold CFB.init at h
  rw [bind_ok_iff] at h; obtain ⟨l, hl, h⟩ := h
  rw [bind_ok_iff] at h; obtain ⟨A, hA, h⟩ := h
  injection h with h; subst h
  obtain ⟨D, hB⟩ := blk_spec hA
  rw [← ivBlock_val hl]
  rw [if_neg (by omega)]
  exact cfb_blocks hB h1 h16 segs ⟨A, l, seg⟩ ⟨rfl, ivBlock_length hl, rfl⟩ hb

/-- C90, OFB: however the message is split, the output is the message combined with the OFB key
stream; `n` blocks of key stream are enough when they cover the message. -/
theorem C90_ofb (ver : PyVer) (key : Bytes) (iv : Option Bytes) (s : OFB)
    (h : OFB.init ver key iv = .ok s) (chunks : List Bytes) (n : Nat)
    (hn : chunks.flatten.length ≤ 16 * n) :
    ∃ outs t, runCalls OFB.encrypt s chunks = .ok (outs, t) ∧
      outs.flatten = xorB chunks.flatten (ofbStream (blockFn key) n (ivOf iv)) := by
  unfold OFB.init at h
  rw [bind_ok_iff] at h; obtain ⟨l, hl, h⟩ := h
  rw [bind_ok_iff] at h; obtain ⟨A, hA, h⟩ := h
  injection h with h; subst h
  obtain ⟨D, hB⟩ := blk_spec hA
  have hs : ofbInv A ⟨A, l, []⟩ := ⟨rfl, by simp [ivBlock_length hl]⟩
  obtain ⟨outs, e1, e2, _⟩ := runCalls_units (ofb_unit hB) (P := fun _ => True)
    (fun _ _ => one_dvd _) (fun s x hs _ => ofbEncrypt_eq hB s hs x) _ hs chunks (fun _ _ => trivial)
  refine ⟨outs, _, e1, ?_⟩
  rw [e2, ofb_stream hB _ n _ hs (by simpa using hn), ← ivBlock_val hl]
  simp

/-- C90, CTR: however the message is split, the output is the message combined with the encrypted
counters `v, v+1, ..` modulo `2^128` (`v` is 1 unless given). -/
theorem C90_ctr (ver : PyVer) (key : Bytes) (v : Option Int) (s : CTR)
    (h : CTR.init ver key v = .ok s) (chunks : List Bytes) (n : Nat)
    (hn : chunks.flatten.length ≤ 16 * n) :
    ∃ outs t, runCalls CTR.encrypt s chunks = .ok (outs, t) ∧
      outs.flatten = xorB chunks.flatten (ctrStream (blockFn key) n (v.getD 1)) := by
  unfold CTR.init at h
  rw [bind_ok_iff] at h; obtain ⟨A, hA, h⟩ := h
  injection h with h; subst h
  obtain ⟨D, hB⟩ := blk_spec hA
  have hs : ctrInv A ⟨A, counterInit (v.getD 1), []⟩ := ⟨rfl, counterInit_length _⟩
  obtain ⟨outs, e1, e2, _⟩ := runCalls_units (ctr_unit hB) (P := fun _ => True)
    (fun _ _ => one_dvd _) (fun s x hs _ => ctrEncrypt_eq hB s hs x) _ hs chunks (fun _ _ => trivial)
  refine ⟨outs, _, e1, ?_⟩
  rw [e2, ctr_stream hB _ n (v.getD 1) _ hs rfl (by simpa using hn)]
  rfl

/-- Objects, chunks and a number of blocks to which C90 applies. -/
example : (∃ s, OFB.init .py3 (List.replicate 24 5) (some (List.replicate 16 1)) = .ok s) ∧
    (∃ s, CTR.init .py3 (List.replicate 24 5) (some (-1)) = .ok s) ∧
    [List.replicate 20 (1 : UInt8), [], [2, 3]].flatten.length ≤ 16 * 2 := by
  have h := C38_objects .py3 (List.replicate 24 5) (List.replicate 16 1) (-1) 8 (by simp) (by simp)
  exact ⟨h.2.2.2.1, h.2.2.2.2, by simp⟩

end NBC.Props
