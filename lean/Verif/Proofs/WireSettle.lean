import Verif.Proofs.Wire

/-!
# Values that were read back
-/

namespace NBC.Proto
open NBC.Spec NBC.Spec.Wire

/-- Values that were read back are written as the same bytes and read back unchanged. -/
def Settles (W : WType) : Prop := ∀ v b v', W v b v' → W v' b v'

theorem settles_number (f : Fmt) (big af : Bool) : Settles (wNumber f big af) := by
  rintro v b v' (⟨i, -, hr, hb, rfl⟩ | ⟨-, m, k, -, h1, h2, hb, rfl⟩)
  · exact .inl ⟨i, rfl, hr, hb, rfl⟩
  · exact .inl ⟨_, rfl, trunc_inRange h1 h2, hb, rfl⟩

theorem settles_varint : Settles wVarInteger := by
  rintro v b v' ⟨n, hn, -, hb, rfl⟩
  exact ⟨n, hn, rfl, hb, rfl⟩

theorem settles_bytes (n : Nat) : Settles (wBytes n) := by
  rintro v b v' ⟨hb, -, rfl⟩
  exact ⟨hb, rfl, rfl⟩

theorem settles_string : Settles wVarString := by
  rintro v b v' ⟨s, hs, -, hb, rfl⟩
  exact ⟨s, hs, .inl rfl, hb, rfl⟩

theorem settles_ip : Settles wIPAddress := by
  rintro v b v' ⟨hb, rfl, rfl⟩
  exact ⟨hb, rfl, rfl⟩

theorem settles_array {W : WType} (h : Settles W) (lo : Nat) (hi : Option Nat) :
    Settles (wArray W lo hi) := by
  rintro v b v' ⟨items, h1, h2, h3, h4, -, rfl, rfl⟩
  refine ⟨items.map (fun t => (t.2.2, t.2.1, t.2.2)), ?_, by simpa using h2, by simpa using h3,
    by simpa using h4, by simp [Function.comp_def], by simp [Function.comp_def],
    by simp [Function.comp_def]⟩
  intro t ht
  obtain ⟨u, hu, rfl⟩ := List.mem_map.1 ht
  exact h _ _ _ (h1 u hu)

theorem settles_fields {ws : List (String × WType)} (h : ∀ p ∈ ws, Settles p.2) {vs : List (String × Val)}
    {b : Bytes} {vs' : List (String × Val)} (hw : wFields ws vs b vs') : wFields ws vs' b vs' := by
  induction ws generalizing vs b vs' with
  | nil => obtain ⟨-, rfl, rfl⟩ := hw; exact ⟨rfl, rfl, rfl⟩
  | cons p ps ih =>
    obtain ⟨k, W⟩ := p
    obtain ⟨v, b₁, v', ts, b₂, ts', h1, h2, rfl, rfl, rfl⟩ := hw
    exact ⟨v', b₁, v', ts', b₂, ts', h (k, W) (by simp) _ _ _ h1,
      ih (fun p hp => h p (by simp [hp])) h2, rfl, rfl, rfl⟩

theorem settles_object {name : String} {ws : List (String × WType)} (h : ∀ p ∈ ws, Settles p.2) :
    Settles (wObject name ws) := by
  rintro v b v' ⟨vs, vs', hw, -, rfl⟩
  exact ⟨vs', vs', settles_fields h hw, rfl, rfl⟩

theorem settles_netTail : ∀ p ∈ wNetTail, Settles p.2 := by
  simp only [wNetTail, List.forall_mem_cons, List.not_mem_nil, false_imp_iff, implies_true, and_true]
  exact ⟨settles_number _ _ _, settles_ip, settles_number _ _ _⟩

theorem settles_netAddr : Settles wNetworkAddress := by
  refine settles_object ?_
  rw [List.forall_mem_cons]
  exact ⟨settles_number _ _ _, settles_netTail⟩

theorem settles_netAddrNoTs : Settles wNetworkAddressNoTimestamp := by
  rintro v b v' ⟨t, bt, t', vs, vs', h1, h2, -, rfl⟩
  exact ⟨.int 0, _, .int 0, vs', vs', .inl ⟨0, rfl, by unfold inRange lo hi; simp [twos, bits], rfl, rfl⟩,
    settles_fields settles_netTail h2, rfl, rfl⟩

theorem settles_inv : Settles wInventoryVector := by
  refine settles_object ?_
  simp only [List.forall_mem_cons, List.not_mem_nil, false_imp_iff, implies_true, and_true]
  exact ⟨settles_number _ _ _, settles_bytes 32⟩

theorem settles_outPoint : Settles wOutPoint := by
  refine settles_object ?_
  simp only [List.forall_mem_cons, List.not_mem_nil, false_imp_iff, implies_true, and_true]
  exact ⟨settles_bytes 32, settles_number _ _ _⟩

theorem settles_txnIn : Settles wTxnIn := by
  refine settles_object ?_
  simp only [List.forall_mem_cons, List.not_mem_nil, false_imp_iff, implies_true, and_true]
  exact ⟨settles_outPoint, settles_string, settles_number _ _ _⟩

theorem settles_txnOut : Settles wTxnOut := by
  refine settles_object ?_
  simp only [List.forall_mem_cons, List.not_mem_nil, false_imp_iff, implies_true, and_true]
  exact ⟨settles_number _ _ _, settles_string⟩

theorem settles_tx : ∀ p ∈ txFields, Settles p.2 := by
  simp only [txFields, List.forall_mem_cons, List.not_mem_nil, false_imp_iff, implies_true, and_true]
  exact ⟨settles_number _ _ _, settles_array settles_txnIn _ _, settles_array settles_txnOut _ _,
    settles_number _ _ _⟩

theorem settles_header : ∀ p ∈ headerFields, Settles p.2 := by
  simp only [headerFields, List.forall_mem_cons, List.not_mem_nil, false_imp_iff, implies_true, and_true]
  exact ⟨settles_number _ _ _, settles_bytes 32, settles_bytes 32, settles_number _ _ _, settles_number _ _ _,
    settles_number _ _ _⟩

theorem settles_blockHeader : Settles wBlockHeader := by
  refine settles_object ?_
  rw [List.forall_mem_append]
  refine ⟨settles_header, ?_⟩
  simp only [List.forall_mem_cons, List.not_mem_nil, false_imp_iff, implies_true, and_true]
  exact settles_varint

end NBC.Proto
