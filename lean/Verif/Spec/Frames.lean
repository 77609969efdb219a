import Verif.Spec.Bytes

/-!
# Frames in a byte stream

A frame is a header of 24 bytes and a payload whose length is in bytes 16 to 19 of the header, least significant byte
first.
-/

namespace NBC.Spec

/-- The length of the frame that starts at `b`, if `b` has at least 20 bytes. -/
def frameLength (b : Bytes) : Nat := 24 + bytesVal ((b.drop 16).take 4).reverse

/-- A whole frame. -/
def IsFrame (f : Bytes) : Prop := 20 ≤ f.length ∧ f.length = frameLength f

/-- The start of a frame, without its end. -/
def Incomplete (r : Bytes) : Prop := r.length < 20 ∨ r.length < frameLength r

/-- The stream `b` consists of the frames `fs` and the incomplete `rest`. -/
def Splits (b : Bytes) (fs : List Bytes) (rest : Bytes) : Prop :=
  b = fs.flatten ++ rest ∧ (∀ f ∈ fs, IsFrame f) ∧ Incomplete rest

theorem frameLength_append {f r : Bytes} (h : 20 ≤ f.length) : frameLength (f ++ r) = frameLength f := by
  unfold frameLength
  rw [List.drop_append_of_le_length (by omega), List.take_append_of_le_length (by rw [List.length_drop]; omega)]

/-- There is only one way to read a stream. -/
theorem Splits.unique {b : Bytes} {fs gs : List Bytes} {r s : Bytes} (h : Splits b fs r) (h' : Splits b gs s) :
    fs = gs ∧ r = s := by
  induction fs generalizing b gs with
  | nil =>
    obtain ⟨h1, -, h2⟩ := h
    obtain ⟨h1', h2', -⟩ := h'
    cases gs with
    | nil => exact ⟨rfl, by rw [h1] at h1'; simpa using h1'⟩
    | cons g gs =>
      exfalso
      have hg := h2' g (List.mem_cons_self ..)
      rw [List.flatten_nil, List.nil_append] at h1
      subst h1
      rw [List.flatten_cons, List.append_assoc] at h1'
      have hl := congrArg List.length h1'
      rw [List.length_append] at hl
      have hf : frameLength b = frameLength g := by rw [h1', frameLength_append hg.1]
      rcases h2 with h2 | h2
      · have := hg.1; omega
      · rw [hf, ← hg.2] at h2; omega
  | cons f fs ih =>
    obtain ⟨h1, hf, h2⟩ := h
    obtain ⟨h1', hg, h2'⟩ := h'
    have hff := hf f (List.mem_cons_self ..)
    rw [List.flatten_cons, List.append_assoc] at h1
    have hbf : frameLength b = f.length := by rw [h1, frameLength_append hff.1, hff.2]
    cases gs with
    | nil =>
      exfalso
      rw [List.flatten_nil, List.nil_append] at h1'
      subst h1'
      have hl := congrArg List.length h1
      rw [List.length_append] at hl
      have := hff.1
      rcases h2' with h2' | h2' <;> omega
    | cons g gs =>
      have hgg := hg g (List.mem_cons_self ..)
      rw [List.flatten_cons, List.append_assoc] at h1'
      have hbg : frameLength b = g.length := by rw [h1', frameLength_append hgg.1, hgg.2]
      have hl : f.length = g.length := by omega
      obtain ⟨e1, e2⟩ := List.append_inj (h1.symm.trans h1') hl
      obtain ⟨e3, e4⟩ := ih ⟨rfl, fun x hx => hf x (List.mem_cons_of_mem _ hx), h2⟩
        ⟨e2, fun x hx => hg x (List.mem_cons_of_mem _ hx), h2'⟩
      exact ⟨by rw [e1, e3], e4⟩

/-- Reading can be interrupted anywhere. -/
theorem Splits.append {a b : Bytes} {fs gs : List Bytes} {r s : Bytes} (h : Splits a fs r) (h' : Splits (r ++ b) gs s) :
    Splits (a ++ b) (fs ++ gs) s := by
  obtain ⟨h1, h2, -⟩ := h
  obtain ⟨h1', h2', h3⟩ := h'
  refine ⟨?_, ?_, h3⟩
  · rw [h1, List.append_assoc, h1', List.flatten_append, List.append_assoc]
  · intro f hf
    rcases List.mem_append.1 hf with hf | hf
    · exact h2 f hf
    · exact h2' f hf

end NBC.Spec
