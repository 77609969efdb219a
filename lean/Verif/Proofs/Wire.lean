import Verif.Proofs.IpText
import Verif.Model.Messages

/-!
# The format types implement the specified wire types
-/

namespace NBC.Proto
open NBC.Spec NBC.Spec.Wire

/-- The format type `T` implements the wire type `W`. -/
structure Refines (T : FType) (W : WType) : Prop where
  valid : ∀ v b v', W v b v' → T.validate v = .ok v ∧ v.isNone = false
  binary : ∀ v b v', W v b v' → T.binary v = .ok b
  parse : ∀ v b v', W v b v' → ∀ rest, T.parse (b ++ rest) = .ok (b.length, v')

theorem trunc_eq (m : Int) (k : Nat) : Int.tdiv m (2 ^ k : Nat) = trunc m k := by
  unfold trunc
  push_cast
  split_ifs with h
  · exact Int.tdiv_eq_ediv_of_nonneg h
  · rw [Int.tdiv_eq_ediv_of_nonneg (a := -m) (by omega) |>.symm, Int.neg_tdiv, Int.neg_neg]

theorem trunc_inRange {f : Fmt} {m : Int} {k : Nat} (h1 : lo f * 2 ^ k ≤ m) (h2 : m < hi f * 2 ^ k) :
    inRange f (trunc m k) := by
  have hk : (0 : Int) < 2 ^ k := by positivity
  have hhi : 0 < hi f := by unfold hi; split_ifs <;> positivity
  have hlo : lo f ≤ 0 := by
    unfold lo; split_ifs
    · have : (0 : Int) < 2 ^ (bits f - 1) := by positivity
      omega
    · omega
  unfold trunc
  split_ifs with h
  · exact ⟨le_trans hlo (Int.ediv_nonneg h hk.le), (Int.ediv_lt_iff_lt_mul hk).2 h2⟩
  · have h0 : 0 ≤ -m / 2 ^ k := Int.ediv_nonneg (by omega) hk.le
    refine ⟨?_, by omega⟩
    have : -m / 2 ^ k ≤ -lo f := by
      have := Int.ediv_le_ediv hk (show -m ≤ -lo f * 2 ^ k by linarith)
      rwa [Int.mul_ediv_cancel _ hk.ne'] at this
    omega

theorem ftNumber_refines (f : Fmt) (big af : Bool) : Refines (ftNumber f big af) (wNumber f big af) := by
  have hint : ∀ v b v', wNumber f big af v b v' → ∃ i, toInt v = .ok i ∧ inRange f i ∧
      b = numBytes f big i ∧ v' = .int i := by
    rintro v b v' (⟨i, rfl, hr, hb, hv⟩ | ⟨-, m, k, rfl, h1, h2, hb, hv⟩)
    · exact ⟨i, rfl, hr, hb, hv⟩
    · exact ⟨trunc m k, by rw [← trunc_eq]; rfl, trunc_inRange h1 h2, hb, hv⟩
  refine ⟨?_, ?_, ?_⟩
  · rintro v b v' (⟨i, rfl, hr, -, -⟩ | ⟨haf, m, k, rfl, h1, h2, -, -⟩)
    · simp only [ftNumber, numValidate, range_eq]
      rw [if_pos (show lo f ≤ i ∧ i < hi f from hr)]; exact ⟨rfl, rfl⟩
    · simp only [ftNumber, numValidate, range_eq, haf, if_true]
      rw [if_pos ⟨by push_cast; exact h1, by push_cast; exact h2⟩]
      exact ⟨rfl, rfl⟩
  · intro v b v' h
    obtain ⟨i, h1, h2, rfl, -⟩ := hint v b v' h
    simp only [ftNumber, h1, ok_bind, pack_ok h2]
  · intro v b v' h rest
    obtain ⟨i, h1, h2, rfl, rfl⟩ := hint v b v' h
    simp only [ftNumber, unpack_numBytes_take h2, ok_bind, numBytes_length]

theorem numBytes_nat (f : Fmt) (n : Nat) (h : n < 2 ^ bits f) :
    numBytes f false n = (beBytes (bits f / 8) n).reverse := by
  unfold numBytes
  have : ((n : Int) % 2 ^ bits f).toNat = n := by
    rw [Int.emod_eq_of_lt (by omega) (by exact_mod_cast h)]; rfl
  simp [this]

theorem varIntBinary_eq (n : Nat) (h : n < 2 ^ 64) : varIntBinary n = .ok (varSize n) := by
  unfold varIntBinary varSize
  by_cases h1 : n < 0xfd
  · rw [if_pos (by exact_mod_cast h1), if_pos h1,
      pack_ok (inRange_B (by omega)), numBytes_nat .B n (by simp [bits]; omega)]
    simp [bits, beBytes]
  · rw [if_neg (by omega), if_neg h1]
    by_cases h2 : n < 0xffff
    · rw [if_pos (by omega), if_pos h2, pack_ok (inRange_H (by omega)),
        numBytes_nat .H n (by simp [bits]; omega)]
      rfl
    · rw [if_neg (by omega), if_neg h2]
      by_cases h3 : n < 0xffffffff
      · rw [if_pos (by omega), if_pos h3, pack_ok (by
            unfold inRange lo hi; simp only [twos, bits, Bool.false_eq_true, if_false]; omega),
          numBytes_nat .I n (by simp [bits]; omega)]
        rfl
      · rw [if_neg (by omega), if_neg h3, pack_ok (by
            unfold inRange lo hi; simp only [twos, bits, Bool.false_eq_true, if_false]; omega),
          numBytes_nat .Q n (by simp only [bits]; omega)]
        rfl

theorem varIntParse_size (n : Nat) (h : n < varLimit) (rest : Bytes) :
    varIntParse (varSize n ++ rest) = .ok ((varSize n).length, (n : Int)) := by
  unfold varLimit at h
  unfold varSize
  by_cases h1 : n < 0xfd
  · rw [if_pos h1]
    have : (UInt8.ofNat n).toNat = n := by rw [UInt8.toNat_ofNat']; omega
    simp only [List.cons_append, List.nil_append, varIntParse, this, List.length_singleton]
    rw [if_neg (by omega), if_neg (by omega), if_neg (by omega)]
  · rw [if_neg h1]
    by_cases h2 : n < 0xffff
    · rw [if_pos h2]
      have e := unpack_numBytes_take (f := .H) (big := false) (v := n) (inRange_H (by omega)) rest
      rw [numBytes_nat .H n (by simp [bits]; omega)] at e
      simp only [List.cons_append, varIntParse, List.drop_succ_cons, List.drop_zero]
      rw [if_pos (by decide)]
      have e' : unpack .H false (((beBytes 2 n).reverse ++ rest).take 2) = .ok (n : Int) := e
      rw [e', ok_bind]
      simp
    · rw [if_neg h2, if_pos h]
      have e := unpack_numBytes_take (f := .I) (big := false) (v := n) (by
            unfold inRange lo hi; simp only [twos, bits, Bool.false_eq_true, if_false]; omega) rest
      rw [numBytes_nat .I n (by simp [bits]; omega)] at e
      simp only [List.cons_append, varIntParse, List.drop_succ_cons, List.drop_zero]
      rw [if_neg (by decide), if_pos (by decide)]
      have e' : unpack .I false (((beBytes 4 n).reverse ++ rest).take 4) = .ok (n : Int) := e
      rw [e', ok_bind]
      simp

theorem ftVarInteger_refines : Refines ftVarInteger wVarInteger := by
  refine ⟨?_, ?_, ?_⟩
  · rintro v b v' ⟨n, hn, rfl, -, -⟩
    exact ⟨rfl, rfl⟩
  · rintro v b v' ⟨n, hn, rfl, rfl, -⟩
    have h64 : n < 2 ^ 64 := lt_of_lt_of_le hn (by decide)
    simp only [ftVarInteger, varIntBinary_eq n h64]
  · rintro v b v' ⟨n, hn, rfl, rfl, rfl⟩ rest
    simp only [ftVarInteger, varIntParse_size n hn, ok_bind]

theorem ftBytes_refines (n : Nat) : Refines (ftBytes n) (wBytes n) := by
  refine ⟨?_, ?_, ?_⟩
  · rintro v b v' ⟨hb, rfl, -⟩
    exact ⟨by simp only [ftBytes, if_pos hb], rfl⟩
  · rintro v b v' ⟨hb, rfl, -⟩
    rfl
  · rintro v b v' ⟨hb, rfl, rfl⟩ rest
    simp only [ftBytes]
    rw [List.take_left' hb, hb]

theorem latin1_byte : ∀ n < 256, (Char.ofNat n).toNat = n := by decide +kernel

theorem latin1Encode_decode (s : Bytes) :
    latin1Encode (s.map (fun x => Char.ofNat x.toNat)) = .ok s := by
  unfold latin1Encode
  have h : ∀ x : UInt8, (Char.ofNat x.toNat).toNat = x.toNat := fun x => latin1_byte _ x.toNat_lt
  rw [if_pos]
  · rw [List.map_map]
    congr 1
    have : (fun c : Char => UInt8.ofNat c.toNat) ∘ (fun x : UInt8 => Char.ofNat x.toNat) = id := by
      funext x
      simp only [Function.comp, h, id, UInt8.ofNat_toNat]
    rw [this, List.map_id]
  · rw [List.all_eq_true]
    intro c hc
    obtain ⟨x, _, rfl⟩ := List.mem_map.1 hc
    rw [h]
    exact decide_eq_true x.toNat_lt

theorem varStringBinary_eq (s : Bytes) (h : s.length < 2 ^ 64) :
    varStringBinary s = .ok (varSize s.length ++ s) := by
  unfold varStringBinary
  rw [varIntBinary_eq _ h, ok_bind]

theorem varStringParse_eq (s rest : Bytes) (h : s.length < varLimit) :
    varStringParse ((varSize s.length ++ s) ++ rest) =
      .ok ((varSize s.length ++ s).length, s) := by
  unfold varStringParse
  rw [List.append_assoc, varIntParse_size _ h, ok_bind]
  simp only [Int.toNat_natCast]
  rw [List.drop_left' rfl, List.take_left' rfl, List.length_append]

theorem ftVarString_refines : Refines ftVarString wVarString := by
  refine ⟨?_, ?_, ?_⟩
  · rintro v b v' ⟨s, hs, rfl | rfl, -, -⟩ <;> exact ⟨rfl, rfl⟩
  · rintro v b v' ⟨s, hs, hv, rfl, -⟩
    have h64 : s.length < 2 ^ 64 := by unfold varLimit at hs; omega
    rcases hv with rfl | rfl
    · exact varStringBinary_eq s h64
    · simp only [ftVarString]
      rw [latin1Encode_decode, ok_bind, varStringBinary_eq s h64]
  · rintro v b v' ⟨s, hs, -, rfl, rfl⟩ rest
    simp only [ftVarString]
    rw [varStringParse_eq s rest hs, ok_bind]

theorem ftIPAddress_refines : Refines ftIPAddress wIPAddress := by
  refine ⟨?_, ?_, ?_⟩
  · rintro v b v' ⟨hb, rfl, -⟩
    simp only [ftIPAddress]
    rw [(ipBinary_text hb).2, ok_bind]
    exact ⟨rfl, rfl⟩
  · rintro v b v' ⟨hb, rfl, -⟩
    exact (ipBinary_text hb).1
  · rintro v b v' ⟨hb, rfl, rfl⟩ rest
    simp only [ftIPAddress]
    rw [ipParse_text hb rest, ok_bind, hb]

theorem mapM_items {α β : Type} {f : α → Py β} {γ : Type} {p : γ → α} {q : γ → β} (l : List γ)
    (h : ∀ x ∈ l, f (p x) = .ok (q x)) : (l.map p).mapM f = .ok (l.map q) := by
  induction l with
  | nil => rfl
  | cons x xs ih =>
    rw [List.map_cons, List.mapM_cons, h x (by simp), ok_bind,
      ih (fun y hy => h y (by simp [hy])), ok_bind]
    rfl

theorem varSetLoop_items {T : FType} {W : WType} (hT : Refines T W)
    (items : List (Val × Bytes × Val)) (h : ∀ t ∈ items, W t.1 t.2.1 t.2.2) (pre rest : Bytes) :
    varSetLoop T (pre ++ ((items.map (·.2.1)).flatten ++ rest)) items.length pre.length =
      .ok (pre.length + (items.map (·.2.1)).flatten.length, items.map (·.2.2)) := by
  induction items generalizing pre with
  | nil => simp [varSetLoop]
  | cons t ts ih =>
    simp only [List.length_cons, varSetLoop, List.map_cons, List.flatten_cons]
    rw [List.drop_left' rfl, List.append_assoc, hT.parse _ _ _ (h t (by simp)), ok_bind]
    simp only
    have := ih (fun x hx => h x (by simp [hx])) (pre ++ t.2.1)
    rw [List.append_assoc, List.length_append] at this
    rw [this, ok_bind, List.length_append]
    simp only [Nat.add_assoc]

theorem ftArray_refines {T : FType} {W : WType} (hT : Refines T W) (lo hi : Option Nat)
    (hhi : hi ≠ some 0) : Refines (ftArray T lo hi) (wArray W (lo.getD 0) hi) := by
  refine ⟨?_, ?_, ?_⟩
  · rintro v b v' ⟨items, h, h1, h2, h3, rfl, -, -⟩
    have hm : (items.map (·.1)).mapM T.validate = .ok (items.map (·.1)) :=
      mapM_items items (fun t ht => (hT.valid _ _ _ (h t ht)).1)
    simp only [ftArray]
    rw [if_neg (by rw [List.length_map]; omega), if_neg, hm, ok_bind, if_neg]
    · exact ⟨rfl, rfl⟩
    · rw [List.any_eq_true]
      rintro ⟨x, hx, hn⟩
      obtain ⟨t, ht, rfl⟩ := List.mem_map.1 hx
      rw [(hT.valid _ _ _ (h t ht)).2] at hn
      cases hn
    · rw [List.length_map]
      rintro ⟨hz, h'⟩
      cases hi with
      | none => exact hz rfl
      | some m =>
        have := h2 m rfl
        simp only [Option.getD_some] at h'
        omega
  · rintro v b v' ⟨items, h, h1, h2, h3, rfl, rfl, -⟩
    simp only [ftArray]
    rw [List.length_map, varIntBinary_eq _ (by unfold varLimit at h3; omega), ok_bind,
      mapM_items (q := (·.2.1)) items (fun t ht => hT.binary _ _ _ (h t ht)), ok_bind]
  · rintro v b v' ⟨items, h, h1, h2, h3, rfl, rfl, rfl⟩ rest
    simp only [ftArray, parseVarSet]
    rw [List.append_assoc, varIntParse_size _ h3, ok_bind]
    simp only [Int.toNat_natCast]
    rw [varSetLoop_items hT items h, ok_bind, List.length_append]

/-- The fields of a class implement the specified ones. -/
inductive RefAll : Props → List (String × WType) → Prop
  | nil : RefAll [] []
  | cons {k : String} {T : FType} {W : WType} {ps : Props} {ws : List (String × WType)} :
      Refines T W → RefAll ps ws → RefAll ((k, T) :: ps) ((k, W) :: ws)

theorem RefAll.keys {ps : Props} {ws : List (String × WType)} (h : RefAll ps ws) :
    ps.map (·.1) = ws.map (·.1) := by
  induction h with
  | nil => rfl
  | cons _ _ ih => simp [ih]

theorem wFields_keys {ws : List (String × WType)} {vs : List (String × Val)} {b : Bytes}
    {vs' : List (String × Val)} (h : wFields ws vs b vs') :
    vs.map (·.1) = ws.map (·.1) ∧ vs'.map (·.1) = ws.map (·.1) := by
  induction ws generalizing vs b vs' with
  | nil => obtain ⟨rfl, -, rfl⟩ := h; exact ⟨rfl, rfl⟩
  | cons p ps ih =>
    obtain ⟨k, W⟩ := p
    obtain ⟨v, b₁, v', ts, b₂, ts', h1, h2, rfl, -, rfl⟩ := h
    simp [ih h2]

theorem getField_cons_ne {k k' : String} {v : Val} {vs : List (String × Val)} (h : k ≠ k') :
    getField ((k, v) :: vs) k' = getField vs k' := by
  unfold getField
  rw [List.find?_cons_of_neg]
  simpa using h

theorem getField_head {k : String} {v : Val} {vs : List (String × Val)} :
    getField ((k, v) :: vs) k = .ok v := by
  unfold getField
  rw [List.find?_cons_of_pos] <;> simp

theorem mapM_congr {α β : Type} {f g : α → Py β} (l : List α) (h : ∀ x ∈ l, f x = g x) :
    l.mapM f = l.mapM g := by
  induction l with
  | nil => rfl
  | cons x xs ih => rw [List.mapM_cons, List.mapM_cons, h x (by simp), ih (fun y hy => h y (by simp [hy]))]

theorem compBinary_fields {ps : Props} {ws : List (String × WType)} (hr : RefAll ps ws)
    (hn : (ps.map (·.1)).Nodup) {vs : List (String × Val)} {b : Bytes} {vs' : List (String × Val)}
    (h : wFields ws vs b vs') : compBinary ps vs = .ok b := by
  induction hr generalizing vs b vs' with
  | nil => obtain ⟨rfl, rfl, rfl⟩ := h; rfl
  | @cons k T W ps ws hT hr ih =>
    obtain ⟨v, b₁, v', ts, b₂, ts', h1, h2, rfl, rfl, rfl⟩ := h
    rw [List.map_cons, List.nodup_cons] at hn
    have ih' := ih hn.2 h2
    unfold compBinary at ih' ⊢
    rw [bind_ok_iff] at ih'
    obtain ⟨bs, hbs, hb⟩ := ih'
    have hcong : ps.mapM (fun p => do let x ← getField ((k, v) :: ts) p.1; p.2.binary x) =
        ps.mapM (fun p => do let x ← getField ts p.1; p.2.binary x) := by
      refine mapM_congr ps (fun p hp => ?_)
      have hk : k ≠ p.1 := by
        rintro rfl
        exact hn.1 (List.mem_map_of_mem (f := (·.1)) hp)
      simp only [getField_cons_ne hk]
    rw [List.mapM_cons]
    simp only [getField_head, ok_bind, hT.binary _ _ _ h1]
    rw [hcong, hbs, ok_bind]
    injection hb with hb
    rw [← hb]
    rfl

theorem parseFields_fields {ps : Props} {ws : List (String × WType)} (hr : RefAll ps ws)
    {vs : List (String × Val)} {b : Bytes} {vs' : List (String × Val)} (h : wFields ws vs b vs')
    (pre rest : Bytes) :
    parseFields (pre ++ (b ++ rest)) ps pre.length = .ok (pre.length + b.length, vs') := by
  induction hr generalizing vs b vs' pre with
  | nil => obtain ⟨rfl, rfl, rfl⟩ := h; simp [parseFields]
  | @cons k T W ps ws hT hr ih =>
    obtain ⟨v, b₁, v', ts, b₂, ts', h1, h2, rfl, rfl, rfl⟩ := h
    simp only [parseFields]
    rw [List.drop_left' rfl, List.append_assoc, hT.parse _ _ _ h1]
    simp only
    have := ih h2 (pre ++ b₁)
    rw [List.append_assoc, List.length_append] at this
    rw [this, ok_bind, List.length_append, Nat.add_assoc]

theorem parseFields_zero {ps : Props} {ws : List (String × WType)} (hr : RefAll ps ws)
    {vs : List (String × Val)} {b : Bytes} {vs' : List (String × Val)} (h : wFields ws vs b vs')
    (rest : Bytes) : parseFields (b ++ rest) ps 0 = .ok (b.length, vs') := by
  have := parseFields_fields hr h [] rest
  simpa using this

theorem ftCompound_refines {c : Cls} {ws : List (String × WType)} (hr : RefAll c.props ws)
    (hn : (c.props.map (·.1)).Nodup) : Refines (ftCompound c) (wObject c.name ws) := by
  refine ⟨?_, ?_, ?_⟩
  · rintro v b v' ⟨vs, vs', h, rfl, rfl⟩
    simp only [ftCompound]
    exact ⟨by simp, rfl⟩
  · rintro v b v' ⟨vs, vs', h, rfl, rfl⟩
    exact compBinary_fields hr hn h
  · rintro v b v' ⟨vs, vs', h, rfl, rfl⟩ rest
    simp only [ftCompound, Cls.parse]
    rw [parseFields_zero hr h, ok_bind]

theorem netTail_refines : RefAll [("services", ftNumber .Q), ("address", ftIPAddress),
    ("port", ftNumber .H (big := true))] wNetTail :=
  .cons (ftNumber_refines ..) (.cons ftIPAddress_refines (.cons (ftNumber_refines ..) .nil))

theorem netAddr_refAll : RefAll networkAddress.props
    (("timestamp", wNumber .I false true) :: wNetTail) :=
  .cons (ftNumber_refines ..) netTail_refines

theorem ftNetworkAddress_refines : Refines ftNetworkAddress wNetworkAddress :=
  ftCompound_refines (c := networkAddress) netAddr_refAll (by decide)

theorem wNumber_length {f : Fmt} {big af : Bool} {v : Val} {b : Bytes} {v' : Val}
    (h : wNumber f big af v b v') : b.length = f.size := by
  rcases h with ⟨i, -, -, rfl, -⟩ | ⟨-, m, k, -, -, -, rfl, -⟩ <;> exact numBytes_length ..

theorem ftNetworkAddressNoTimestamp_refines :
    Refines ftNetworkAddressNoTimestamp wNetworkAddressNoTimestamp := by
  have hobj : ∀ v b v', wNetworkAddressNoTimestamp v b v' →
      ∃ bt w, bt.length = 4 ∧ wNetworkAddress v (bt ++ b) w := by
    rintro v b v' ⟨t, bt, t', vs, vs', h1, h2, rfl, rfl⟩
    exact ⟨bt, _, wNumber_length h1, _, _, ⟨t, bt, t', vs, b, vs', h1, h2, rfl, rfl, rfl⟩, rfl, rfl⟩
  refine ⟨?_, ?_, ?_⟩
  · intro v b v' h
    obtain ⟨bt, w, _, hw⟩ := hobj v b v' h
    exact ftNetworkAddress_refines.valid _ _ _ hw
  · intro v b v' h
    obtain ⟨bt, w, hbt, hw⟩ := hobj v b v' h
    simp only [ftNetworkAddressNoTimestamp]
    rw [ftNetworkAddress_refines.binary _ _ _ hw, ok_bind, List.drop_left' hbt]
  · rintro v b v' ⟨t, bt, t', vs, vs', h1, h2, rfl, rfl⟩ rest
    have hz : numBytes .I false 0 = [0, 0, 0, 0] := by decide
    have hw : wNetworkAddress (.obj "NetworkAddress" (("timestamp", .int 0) :: vs)) ([0, 0, 0, 0] ++ b)
        (.obj "NetworkAddress" (("timestamp", .int 0) :: vs')) :=
      ⟨_, _, ⟨.int 0, [0, 0, 0, 0], .int 0, vs, b, vs',
        .inl ⟨0, rfl, by unfold inRange lo hi; simp [twos, bits], hz.symm, rfl⟩, h2, rfl, rfl, rfl⟩,
        rfl, rfl⟩
    simp only [ftNetworkAddressNoTimestamp]
    rw [← List.append_assoc, ftNetworkAddress_refines.parse _ _ _ hw rest, ok_bind, List.length_append]
    simp

theorem ftRelay_refines : Refines (ftOptional (ftNumber .B) (.int 1)) wRelay := by
  have h := ftNumber_refines .B false false
  refine ⟨?_, ?_, ?_⟩
  · intro v b v' hw
    refine ⟨?_, (h.valid _ _ _ hw).2⟩
    simp only [ftOptional, (h.valid _ _ _ hw).1, (h.valid _ _ _ hw).2]
    rfl
  · exact h.binary
  · intro v b v' hw rest
    simp only [ftOptional, h.parse _ _ _ hw rest]

theorem ftInv_refines : Refines (ftCompound inventoryVector) wInventoryVector :=
  ftCompound_refines (c := inventoryVector)
    (.cons (ftNumber_refines ..) (.cons (ftBytes_refines _) .nil)) (by decide)

theorem ftOutPoint_refines : Refines (ftCompound outPoint) wOutPoint :=
  ftCompound_refines (c := outPoint)
    (.cons (ftBytes_refines _) (.cons (ftNumber_refines ..) .nil)) (by decide)

theorem ftTxnIn_refines : Refines (ftCompound txnIn) wTxnIn :=
  ftCompound_refines (c := txnIn) (.cons ftOutPoint_refines (.cons ftVarString_refines
    (.cons (ftNumber_refines ..) .nil))) (by decide)

theorem ftTxnOut_refines : Refines (ftCompound txnOut) wTxnOut :=
  ftCompound_refines (c := txnOut) (.cons (ftNumber_refines ..) (.cons ftVarString_refines .nil))
    (by decide)

theorem tx_refAll : RefAll txn.props txFields :=
  .cons (ftNumber_refines ..) (.cons (ftArray_refines ftTxnIn_refines (some 1) none (by simp))
    (.cons (ftArray_refines ftTxnOut_refines (some 1) none (by simp))
      (.cons (ftNumber_refines ..) .nil)))

theorem ftTxn_refines : Refines (ftCompound txn) wTxn :=
  ftCompound_refines (c := txn) tx_refAll (by decide)

theorem header_refAll {ps : Props} {ws : List (String × WType)} (h : RefAll ps ws) :
    RefAll ([("version", ftNumber .I), ("prev_block", ftBytes 32), ("merkle_root", ftBytes 32),
      ("timestamp", ftNumber .I (allowFloat := true)), ("bits", ftNumber .I),
      ("nonce", ftNumber .I)] ++ ps) (headerFields ++ ws) :=
  .cons (ftNumber_refines ..) (.cons (ftBytes_refines _) (.cons (ftBytes_refines _)
    (.cons (ftNumber_refines ..) (.cons (ftNumber_refines ..) (.cons (ftNumber_refines ..) h)))))

theorem ftBlockHeader_refines : Refines (ftCompound blockHeader) wBlockHeader :=
  ftCompound_refines (c := blockHeader) (header_refAll (.cons ftVarInteger_refines .nil)) (by decide)

theorem inv_refAll : RefAll invProps invFields :=
  .cons (ftArray_refines ftInv_refines none (some 50000) (by simp)) .nil

theorem locator_refAll : RefAll getBlocksProps locatorFields :=
  .cons (ftNumber_refines ..) (.cons (ftArray_refines (ftBytes_refines 32) (some 1) none (by simp))
    (.cons (ftBytes_refines _) .nil))

/-- The registered classes, in the order of the specification. -/
inductive RefMsgs : List MsgType → List (String × List (String × WType)) → Prop
  | nil : RefMsgs [] []
  | cons {t : MsgType} {ws : List (String × WType)} {ts : List MsgType}
      {ms : List (String × List (String × WType))} :
      RefAll t.props ws → RefMsgs ts ms → RefMsgs (t :: ts) ((t.command, ws) :: ms)

theorem registry_refines : RefMsgs registry messages := by
  refine .cons (t := msgVersion) ?_ (.cons (t := msgVerack) .nil (.cons (t := msgAddr) ?_
    (.cons (t := msgInv) inv_refAll (.cons (t := msgGetdata) inv_refAll
    (.cons (t := msgNotfound) inv_refAll (.cons (t := msgGetblocks) locator_refAll
    (.cons (t := msgGetheaders) locator_refAll (.cons (t := msgTx) tx_refAll
    (.cons (t := msgBlock) ?_ (.cons (t := msgHeaders) ?_ (.cons (t := msgGetaddr) .nil
    (.cons (t := msgMempool) .nil (.cons (t := msgPing) ?_ (.cons (t := msgPong) ?_
    (.cons (t := msgReject) ?_ (.cons (t := msgFilterload) ?_ (.cons (t := msgFilteradd) ?_
    (.cons (t := msgFilterclear) .nil (.cons (t := msgMerkleblock) ?_
    (.cons (t := msgAlert) ?_ .nil))))))))))))))))))))
  · exact .cons (ftNumber_refines ..) (.cons (ftNumber_refines ..) (.cons (ftNumber_refines ..)
      (.cons ftNetworkAddressNoTimestamp_refines (.cons ftNetworkAddressNoTimestamp_refines
      (.cons (ftBytes_refines _) (.cons ftVarString_refines (.cons (ftNumber_refines ..)
      (.cons ftRelay_refines .nil))))))))
  · exact .cons (ftArray_refines ftNetworkAddress_refines none (some 1000) (by simp)) .nil
  · exact header_refAll (.cons (ftArray_refines ftTxn_refines none none (by simp)) .nil)
  · exact .cons (ftArray_refines ftBlockHeader_refines none none (by simp)) .nil
  · exact .cons (ftBytes_refines _) .nil
  · exact .cons (ftBytes_refines _) .nil
  · exact .cons ftVarString_refines (.cons (ftNumber_refines ..) (.cons ftVarString_refines .nil))
  · exact .cons (ftArray_refines (ftNumber_refines ..) none none (by simp))
      (.cons (ftNumber_refines ..) (.cons (ftNumber_refines ..) (.cons (ftNumber_refines ..) .nil)))
  · exact .cons ftVarString_refines .nil
  · exact header_refAll (.cons (ftNumber_refines ..)
      (.cons (ftArray_refines (ftBytes_refines 32) none none (by simp))
      (.cons (ftArray_refines (ftNumber_refines ..) none none (by simp)) .nil)))
  · exact .cons ftVarString_refines (.cons ftVarString_refines .nil)

theorem RefMsgs.find {ts : List MsgType} {ms : List (String × List (String × WType))}
    (h : RefMsgs ts ms) {c : String} {ws : List (String × WType)} (hm : (c, ws) ∈ ms) :
    ∃ t ∈ ts, t.command = c ∧ RefAll t.props ws := by
  induction h with
  | nil => simp at hm
  | @cons t ws' ts ms hr _ ih =>
    rcases List.mem_cons.1 hm with h | h
    · injection h with h1 h2
      subst h1 h2
      exact ⟨t, by simp, rfl, hr⟩
    · obtain ⟨t', h1, h2⟩ := ih h
      exact ⟨t', by simp [h1], h2⟩

/-- The keys of every registered class are distinct. -/
theorem registry_nodup : ∀ t ∈ registry, (t.props.map (·.1)).Nodup := by
  intro t ht
  simp only [registry, List.mem_cons, List.not_mem_nil, or_false] at ht
  rcases ht with rfl | rfl | rfl | rfl | rfl | rfl | rfl | rfl | rfl | rfl | rfl | rfl | rfl | rfl |
    rfl | rfl | rfl | rfl | rfl | rfl | rfl <;> decide

/-! ### The constructor -/

theorem initLoop_fields {ps : Props} {ws : List (String × WType)} (hr : RefAll ps ws)
    (hn : (ps.map (·.1)).Nodup) {vs : List (String × Val)} {b : Bytes} {vs' : List (String × Val)}
    (h : wFields ws vs b vs') (params : List (String × Val))
    (hp : ∀ p ∈ vs, getField params p.1 = .ok p.2) : initLoop params ps = .ok vs := by
  induction hr generalizing vs b vs' with
  | nil => obtain ⟨rfl, rfl, rfl⟩ := h; rfl
  | @cons k T W ps ws hT hr ih =>
    obtain ⟨v, b₁, v', ts, b₂, ts', h1, h2, rfl, rfl, rfl⟩ := h
    rw [List.map_cons, List.nodup_cons] at hn
    simp only [initLoop]
    rw [hp (k, v) (by simp), ok_bind]
    simp only
    rw [(hT.valid _ _ _ h1).1, ok_bind, if_neg (by rw [(hT.valid _ _ _ h1).2]; simp),
      ih hn.2 h2 (fun p hp' => hp p (by simp [hp'])), ok_bind]

theorem zip_keys (vs : List (String × Val)) : (vs.map (·.1)).zip (vs.map (·.2)) = vs := by
  induction vs with
  | nil => rfl
  | cons p ps ih => simp [ih]

theorem getField_mem {vs : List (String × Val)} (hn : (vs.map (·.1)).Nodup) {p : String × Val}
    (hp : p ∈ vs) : getField vs p.1 = .ok p.2 := by
  induction vs with
  | nil => simp at hp
  | cons q qs ih =>
    rw [List.map_cons, List.nodup_cons] at hn
    rcases List.mem_cons.1 hp with rfl | h
    · exact getField_head
    · rw [show q = (q.1, q.2) from rfl, getField_cons_ne, ih hn.2 h]
      intro e
      exact hn.1 (by rw [e]; exact List.mem_map_of_mem (f := (·.1)) h)

/-- The constructor stores values that may be sent as they are, given by position. -/
theorem compInit_positional {ps : Props} {ws : List (String × WType)} (hr : RefAll ps ws)
    (hn : (ps.map (·.1)).Nodup) {vs : List (String × Val)} {b : Bytes} {vs' : List (String × Val)}
    (h : wFields ws vs b vs') : compInit ps (vs.map (·.2)) [] = .ok vs := by
  have hk : vs.map (·.1) = ps.map (·.1) := by rw [(wFields_keys h).1, hr.keys]
  unfold compInit
  simp only [List.any_nil, Bool.false_eq_true, if_false]
  rw [← hk, zip_keys, if_neg (by simp), List.append_nil]
  exact initLoop_fields hr hn h vs (fun p hp => getField_mem (by rw [hk]; exact hn) hp)

/-- The same with keyword arguments in any order. -/
theorem compInit_keyword {ps : Props} {ws : List (String × WType)} (hr : RefAll ps ws)
    (hn : (ps.map (·.1)).Nodup) {vs : List (String × Val)} {b : Bytes} {vs' : List (String × Val)}
    (h : wFields ws vs b vs') (kw : List (String × Val)) (hkw : kw.Perm vs) :
    compInit ps [] kw = .ok vs := by
  have hk : vs.map (·.1) = ps.map (·.1) := by rw [(wFields_keys h).1, hr.keys]
  unfold compInit
  have hnd : (kw.map (·.1)).Nodup := by rw [(hkw.map _).nodup_iff, hk]; exact hn
  simp only [List.zip_nil_right, List.map_nil, List.not_mem_nil, decide_false, List.nil_append]
  rw [if_neg (by simp), if_neg, if_neg]
  · exact initLoop_fields hr hn h kw (fun p hp => getField_mem hnd (hkw.mem_iff.2 hp))
  · have h1 := hkw.length_eq
    have h2 := congrArg List.length hk
    simp only [List.length_map, List.length_nil] at h2 ⊢
    omega
  · rw [List.any_eq_true]
    rintro ⟨x, hx, hx'⟩
    rw [decide_eq_true_eq] at hx'
    exact hx' (by rw [← hk]; exact List.mem_map_of_mem (f := (·.1)) (hkw.mem_iff.1 hx))

end NBC.Proto
