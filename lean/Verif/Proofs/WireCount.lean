import Verif.Proofs.WireTrunc

/-!
# The number of array elements in a parsed payload
-/

namespace NBC.Proto
open NBC.Spec NBC.Spec.Wire

/-- Elements (and one more for an item) are paid for by consumed bytes, which exceed the data by at most
`s`. -/
def Lin (T : FType) (s : Nat) : Prop :=
  ∀ d n v, T.parse d = .ok (n, v) → elements v ≤ n ∧ n ≤ d.length + s

/-- A type that consumes more than its elements. -/
def Pays (T : FType) : Prop := ∀ d n v, T.parse d = .ok (n, v) → elements v < n

theorem ftNumber_lin (f : Fmt) (big af : Bool) : Lin (ftNumber f big af) 0 ∧ Pays (ftNumber f big af) := by
  have key : ∀ d n v, (ftNumber f big af).parse d = .ok (n, v) →
      elements v < n ∧ n ≤ d.length := by
    intro d n v h
    simp only [ftNumber] at h
    obtain ⟨i, h1, h⟩ := bind_ok_iff.1 h
    have hl := unpack_ok_length h1
    rw [List.length_take] at hl
    simp only [Except.ok.injEq, Prod.mk.injEq] at h
    obtain ⟨rfl, rfl⟩ := h
    have := fmt_size_pos f
    simp only [elements]
    omega
  exact ⟨fun d n v h => ⟨(key d n v h).1.le, (key d n v h).2⟩, fun d n v h => (key d n v h).1⟩

theorem ftBytes_lin (k : Nat) : Lin (ftBytes k) k := by
  intro d n v h
  simp only [ftBytes, Except.ok.injEq, Prod.mk.injEq] at h
  obtain ⟨rfl, rfl⟩ := h
  simp only [elements]
  omega

theorem varIntParse_consumed {d : Bytes} {n : Nat} {v : Int} (h : varIntParse d = .ok (n, v)) :
    1 ≤ n ∧ n ≤ d.length := by
  cases d with
  | nil => cases h
  | cons x t =>
    simp only [varIntParse, List.drop_succ_cons, List.drop_zero] at h
    split_ifs at h
    · obtain ⟨i, h1, h⟩ := bind_ok_iff.1 h
      have hl := unpack_ok_length h1
      simp only [List.length_take, Fmt.size] at hl
      simp only [Except.ok.injEq, Prod.mk.injEq] at h
      rw [List.length_cons]
      omega
    · obtain ⟨i, h1, h⟩ := bind_ok_iff.1 h
      have hl := unpack_ok_length h1
      simp only [List.length_take, Fmt.size] at hl
      simp only [Except.ok.injEq, Prod.mk.injEq] at h
      rw [List.length_cons]
      omega
    · simp only [Except.ok.injEq, Prod.mk.injEq] at h
      rw [List.length_cons]
      omega

theorem ftVarInteger_lin : Lin ftVarInteger 0 := by
  intro d n v h
  simp only [ftVarInteger] at h
  obtain ⟨⟨m, i⟩, h1, h⟩ := bind_ok_iff.1 h
  simp only [Except.ok.injEq, Prod.mk.injEq] at h
  obtain ⟨rfl, rfl⟩ := h
  have := varIntParse_consumed h1
  simp only [elements]
  omega

theorem ftVarString_lin : Lin ftVarString 0 := by
  intro d n v h
  simp only [ftVarString, varStringParse] at h
  obtain ⟨⟨m, i⟩, h1, h⟩ := bind_ok_iff.1 h
  obtain ⟨⟨m', i'⟩, h2, h1⟩ := bind_ok_iff.1 h1
  simp only [Except.ok.injEq, Prod.mk.injEq] at h h1
  obtain ⟨rfl, rfl⟩ := h
  obtain ⟨rfl, rfl⟩ := h1
  have := varIntParse_consumed h2
  simp only [elements, List.length_take, List.length_drop]
  omega

theorem ftIPAddress_lin : Lin ftIPAddress 0 := by
  intro d n v h
  simp only [ftIPAddress] at h
  obtain ⟨⟨m, i⟩, h1, h⟩ := bind_ok_iff.1 h
  simp only [Except.ok.injEq, Prod.mk.injEq] at h
  obtain ⟨rfl, rfl⟩ := h
  unfold ipParse at h1
  simp only [elements]
  split at h1
  · dsimp only at h1
    split at h1
    · cases h1
    · rename_i h3
      simp only [Except.ok.injEq, Prod.mk.injEq] at h1
      rw [List.length_take, List.length_drop] at h3
      omega
  · dsimp only at h1
    split at h1
    · cases h1
    · rename_i h3
      simp only [Except.ok.injEq, Prod.mk.injEq] at h1
      rw [List.length_take] at h3
      omega

theorem varSetLoop_lin {T : FType} {s : Nat} (hL : Lin T s) (hP : Pays T) (hN : Needs T)
    {data : Bytes} {k off o : Nat} {l : List Val} (h : varSetLoop T data k off = .ok (o, l))
    (hoff : off ≤ data.length + s) :
    elementsList l + off ≤ o ∧ o ≤ data.length + s := by
  induction k generalizing off o l with
  | zero =>
    simp only [varSetLoop, Except.ok.injEq, Prod.mk.injEq] at h
    obtain ⟨rfl, rfl⟩ := h
    simp only [elementsList]
    omega
  | succ k ih =>
    simp only [varSetLoop] at h
    obtain ⟨⟨n, x⟩, h1, h⟩ := bind_ok_iff.1 h
    obtain ⟨⟨o', l'⟩, h2, h⟩ := bind_ok_iff.1 h
    simp only [Except.ok.injEq, Prod.mk.injEq] at h
    obtain ⟨rfl, rfl⟩ := h
    have hlt : off < data.length := by
      by_contra hc
      rw [List.drop_of_length_le (by omega)] at h1
      obtain ⟨e, he⟩ := hN
      rw [he] at h1
      cases h1
    have a := hL _ _ _ h1
    have b := hP _ _ _ h1
    rw [List.length_drop] at a
    have c := ih h2 (by omega)
    simp only [elementsList]
    omega

theorem ftArray_lin {T : FType} {s : Nat} (hL : Lin T s) (hP : Pays T) (hN : Needs T)
    (lo hi : Option Nat) : Lin (ftArray T lo hi) s := by
  intro d n v h
  simp only [ftArray, parseVarSet] at h
  obtain ⟨⟨m, l⟩, h1, h⟩ := bind_ok_iff.1 h
  obtain ⟨⟨off, c⟩, h2, h1⟩ := bind_ok_iff.1 h1
  simp only [Except.ok.injEq, Prod.mk.injEq] at h
  obtain ⟨rfl, rfl⟩ := h
  have a := varIntParse_consumed h2
  have b := varSetLoop_lin hL hP hN h1 (by omega)
  simp only [elements]
  omega

/-- The fields of a class, with the slack of each. -/
inductive LinFields : Props → Nat → Prop
  | nil : LinFields [] 0
  | cons {k : String} {T : FType} {s : Nat} {ps : Props} {S : Nat} :
      Lin T s → LinFields ps S → LinFields ((k, T) :: ps) (s + S)

theorem parseFields_lin {ps : Props} {S : Nat} (hF : LinFields ps S) {data : Bytes} {off o : Nat}
    {l : List (String × Val)} (h : parseFields data ps off = .ok (o, l)) :
    elementsFields l + off ≤ o ∧ o ≤ max off data.length + S := by
  induction hF generalizing off o l with
  | nil =>
    simp only [parseFields, Except.ok.injEq, Prod.mk.injEq] at h
    obtain ⟨rfl, rfl⟩ := h
    simp only [elementsFields]
    omega
  | @cons k T s ps S hL hF ih =>
    simp only [parseFields] at h
    split at h
    · cases h
    · rename_i n x h1
      obtain ⟨⟨o', l'⟩, h2, h⟩ := bind_ok_iff.1 h
      simp only [Except.ok.injEq, Prod.mk.injEq] at h
      obtain ⟨rfl, rfl⟩ := h
      have a := hL _ _ _ h1
      rw [List.length_drop] at a
      have b := ih h2
      simp only [elementsFields]
      omega

theorem ftCompound_lin {c : Cls} {S : Nat} (hF : LinFields c.props S) : Lin (ftCompound c) S := by
  intro d n v h
  simp only [ftCompound, Cls.parse] at h
  obtain ⟨⟨o, l⟩, h1, h⟩ := bind_ok_iff.1 h
  simp only [Except.ok.injEq, Prod.mk.injEq] at h
  obtain ⟨rfl, rfl⟩ := h
  have := parseFields_lin hF h1
  simp only [elements]
  omega

theorem parseFields_pays {ps : Props} {S : Nat} (hF : LinFields ps S) {p : String × FType}
    (hp : p ∈ ps) (hP : Pays p.2) {data : Bytes} {off o : Nat}
    {l : List (String × Val)} (h : parseFields data ps off = .ok (o, l)) :
    elementsFields l + off < o := by
  induction hF generalizing off o l with
  | nil => simp at hp
  | @cons k T s ps S hL hF ih =>
    simp only [parseFields] at h
    split at h
    · cases h
    · rename_i n x h1
      obtain ⟨⟨o', l'⟩, h2, h⟩ := bind_ok_iff.1 h
      simp only [Except.ok.injEq, Prod.mk.injEq] at h
      obtain ⟨rfl, rfl⟩ := h
      have a := hL _ _ _ h1
      simp only [elementsFields]
      rcases List.mem_cons.1 hp with rfl | hp
      · have b := parseFields_lin hF h2
        have c := hP _ _ _ h1
        omega
      · have b := ih hp h2
        omega

/-- A class with a field that pays, pays. -/
theorem ftCompound_pays {c : Cls} {S : Nat} (hF : LinFields c.props S) {p : String × FType}
    (hp : p ∈ c.props) (hP : Pays p.2) : Pays (ftCompound c) := by
  intro d n v h
  simp only [ftCompound, Cls.parse] at h
  obtain ⟨⟨o, l⟩, h1, h⟩ := bind_ok_iff.1 h
  simp only [Except.ok.injEq, Prod.mk.injEq] at h
  obtain ⟨rfl, rfl⟩ := h
  have := parseFields_pays hF hp hP h1
  simp only [elements]
  omega

theorem ftCompound_needs {name k : String} {T : FType} {ps : Props} (hN : Needs T) :
    Needs (ftCompound ⟨name, (k, T) :: ps⟩) := by
  obtain ⟨e, he⟩ := emptyFails_of_mem (ps := (k, T) :: ps) (p := (k, T)) (by simp) hN [] 0 (by simp)
  exact ⟨e, by simp only [ftCompound, Cls.parse, he, error_bind]⟩

theorem num_lin (f : Fmt) (big af : Bool) : Lin (ftNumber f big af) 0 := (ftNumber_lin f big af).1
theorem num_pays (f : Fmt) (big af : Bool) : Pays (ftNumber f big af) := (ftNumber_lin f big af).2

theorem netTail_lin : LinFields [("services", ftNumber .Q), ("address", ftIPAddress),
    ("port", ftNumber .H (big := true))] (0 + (0 + (0 + 0))) :=
  .cons (num_lin _ _ _) (.cons ftIPAddress_lin (.cons (num_lin _ _ _) .nil))

theorem networkAddress_lin : LinFields networkAddress.props (0 + (0 + (0 + (0 + 0)))) :=
  .cons (num_lin _ _ _) netTail_lin

theorem ftNetworkAddress_lin : Lin ftNetworkAddress 0 :=
  ftCompound_lin (c := networkAddress) networkAddress_lin

theorem ftNetworkAddress_pays : Pays ftNetworkAddress :=
  ftCompound_pays networkAddress_lin (p := ("services", ftNumber .Q)) (by simp [networkAddress])
    (num_pays _ _ _)

theorem ftNetworkAddress_needs : Needs ftNetworkAddress := ftCompound_needs (ftNumber_needs ..)

/-- The fields of a network address contain no array. -/
theorem ftNetworkAddressNoTimestamp_lin : Lin ftNetworkAddressNoTimestamp 0 := by
  intro d n v h
  simp only [ftNetworkAddressNoTimestamp] at h
  obtain ⟨⟨m, x⟩, h1, h⟩ := bind_ok_iff.1 h
  have a := ftNetworkAddress_lin _ _ _ h1
  simp only [Except.ok.injEq, Prod.mk.injEq] at h
  obtain ⟨rfl, rfl⟩ := h
  have h0 : elements x = 0 := by
    simp only [ftNetworkAddress, ftCompound, Cls.parse, networkAddress, parseFields] at h1
    obtain ⟨⟨o, l⟩, h2, h1⟩ := bind_ok_iff.1 h1
    simp only [Except.ok.injEq, Prod.mk.injEq] at h1
    obtain ⟨-, rfl⟩ := h1
    have hnum : ∀ (f : Fmt) (big af : Bool) d n v, (ftNumber f big af).parse d = .ok (n, v) →
        elements v = 0 := by
      intro f big af d n v h
      simp only [ftNumber] at h
      obtain ⟨i, -, h⟩ := bind_ok_iff.1 h
      simp only [Except.ok.injEq, Prod.mk.injEq] at h
      obtain ⟨-, rfl⟩ := h
      rfl
    have hip : ∀ d n v, ftIPAddress.parse d = .ok (n, v) → elements v = 0 := by
      intro d n v h
      simp only [ftIPAddress] at h
      obtain ⟨i, -, h⟩ := bind_ok_iff.1 h
      simp only [Except.ok.injEq, Prod.mk.injEq] at h
      obtain ⟨-, rfl⟩ := h
      rfl
    split at h2
    · cases h2
    · rename_i n1 x1 e1
      obtain ⟨⟨o2, l2⟩, h3, h2⟩ := bind_ok_iff.1 h2
      simp only [Except.ok.injEq, Prod.mk.injEq] at h2
      obtain ⟨-, rfl⟩ := h2
      split at h3
      · cases h3
      · rename_i n2 x2 e2
        obtain ⟨⟨o3, l3⟩, h4, h3⟩ := bind_ok_iff.1 h3
        simp only [Except.ok.injEq, Prod.mk.injEq] at h3
        obtain ⟨-, rfl⟩ := h3
        split at h4
        · cases h4
        · rename_i n3 x3 e3
          obtain ⟨⟨o4, l4⟩, h5, h4⟩ := bind_ok_iff.1 h4
          simp only [Except.ok.injEq, Prod.mk.injEq] at h4
          obtain ⟨-, rfl⟩ := h4
          split at h5
          · cases h5
          · rename_i n4 x4 e4
            simp only [ok_bind, Except.ok.injEq, Prod.mk.injEq] at h5
            obtain ⟨-, rfl⟩ := h5
            simp only [elements, elementsFields, hnum _ _ _ _ _ _ e1, hnum _ _ _ _ _ _ e2,
              hip _ _ _ e3, hnum _ _ _ _ _ _ e4]
  simp only [List.length_append] at a
  simp only [h0]
  have : [0, 0, 0, 0].length = 4 := rfl
  simp only [List.length_cons, List.length_nil] at a
  omega

theorem ftRelay_lin : Lin (ftOptional (ftNumber .B) (.int 1)) 0 := by
  intro d n v h
  simp only [ftOptional] at h
  split at h
  · rename_i r hr
    injection h with h
    subst h
    exact num_lin _ _ _ _ _ _ hr
  · simp only [Except.ok.injEq, Prod.mk.injEq] at h
    obtain ⟨rfl, rfl⟩ := h
    simp [elements]

theorem invTail_lin : LinFields [("hash", ftBytes 32)] (32 + 0) := .cons (ftBytes_lin 32) .nil

theorem ftInv_lin : Lin (ftCompound inventoryVector) 32 :=
  ftCompound_lin (c := inventoryVector) (S := 0 + (32 + 0)) (.cons (num_lin _ _ _) invTail_lin)

theorem ftInv_pays : Pays (ftCompound inventoryVector) := 
  ftCompound_pays (c := inventoryVector) (S := 0 + (32 + 0)) (.cons (num_lin _ _ _) invTail_lin)
    (p := ("object_type", ftNumber .I)) (by simp [inventoryVector]) (num_pays _ _ _)

theorem ftInv_needs : Needs (ftCompound inventoryVector) := ftCompound_needs (ftNumber_needs ..)

theorem inv_lin : LinFields invProps (32 + 0) :=
  .cons (ftArray_lin ftInv_lin ftInv_pays ftInv_needs _ _) .nil

theorem outPoint_lin : LinFields outPoint.props (32 + (0 + 0)) :=
  .cons (ftBytes_lin 32) (.cons (num_lin _ _ _) .nil)

theorem ftOutPoint_lin : Lin (ftCompound outPoint) 32 := ftCompound_lin outPoint_lin

theorem ftOutPoint_pays : Pays (ftCompound outPoint) :=
  ftCompound_pays outPoint_lin (p := ("index", ftNumber .I)) (by simp [outPoint]) (num_pays _ _ _)

theorem ftOutPoint_needs : Needs (ftCompound outPoint) := by
  obtain ⟨e, he⟩ := emptyFails_of_mem (ps := outPoint.props) (p := ("index", ftNumber .I))
    (by simp [outPoint]) (ftNumber_needs ..) [] 0 (by simp)
  exact ⟨e, by simp only [ftCompound, Cls.parse, he, error_bind]⟩

theorem txnInTail_lin : LinFields [("signature_script", ftVarString), ("sequence", ftNumber .I)]
    (0 + (0 + 0)) := .cons ftVarString_lin (.cons (num_lin _ _ _) .nil)

theorem ftTxnIn_lin : Lin (ftCompound txnIn) 32 :=
  ftCompound_lin (c := txnIn) (S := 32 + (0 + (0 + 0))) (.cons ftOutPoint_lin txnInTail_lin)

theorem ftTxnIn_pays : Pays (ftCompound txnIn) := 
  ftCompound_pays (c := txnIn) (S := 32 + (0 + (0 + 0))) (.cons ftOutPoint_lin txnInTail_lin)
    (p := ("sequence", ftNumber .I)) (by simp [txnIn]) (num_pays _ _ _)

theorem ftTxnIn_needs : Needs (ftCompound txnIn) := ftCompound_needs ftOutPoint_needs

theorem ftTxnOut_lin : Lin (ftCompound txnOut) 0 :=
  ftCompound_lin (c := txnOut) (S := 0 + (0 + 0)) (.cons (num_lin _ _ _) (.cons ftVarString_lin .nil))

theorem ftTxnOut_pays : Pays (ftCompound txnOut) :=
  ftCompound_pays (c := txnOut) (S := 0 + (0 + 0))
    (.cons (num_lin _ _ _) (.cons ftVarString_lin .nil))
    (p := ("value", ftNumber .q)) (by simp [txnOut]) (num_pays _ _ _)

theorem ftTxnOut_needs : Needs (ftCompound txnOut) := ftCompound_needs (ftNumber_needs ..)

theorem txTail_lin : LinFields [("tx_in", ftArray (ftCompound txnIn) (some 1) none),
    ("tx_out", ftArray (ftCompound txnOut) (some 1) none), ("lock_time", ftNumber .I)]
    (32 + (0 + (0 + 0))) :=
  .cons (ftArray_lin ftTxnIn_lin ftTxnIn_pays ftTxnIn_needs _ _)
    (.cons (ftArray_lin ftTxnOut_lin ftTxnOut_pays ftTxnOut_needs _ _) (.cons (num_lin _ _ _) .nil))

theorem tx_lin : LinFields txn.props (0 + (32 + (0 + (0 + 0)))) := .cons (num_lin _ _ _) txTail_lin

theorem ftTxn_lin : Lin (ftCompound txn) 32 := ftCompound_lin (c := txn) tx_lin

theorem ftTxn_pays : Pays (ftCompound txn) := 
  ftCompound_pays tx_lin (p := ("version", ftNumber .I)) (by simp [txn]) (num_pays _ _ _)

theorem ftTxn_needs : Needs (ftCompound txn) := ftCompound_needs (ftNumber_needs ..)

theorem headerTail_lin {ps : Props} {S : Nat} (h : LinFields ps S) :
    LinFields ([("prev_block", ftBytes 32), ("merkle_root", ftBytes 32),
      ("timestamp", ftNumber .I (allowFloat := true)), ("bits", ftNumber .I),
      ("nonce", ftNumber .I)] ++ ps) (32 + (32 + (0 + (0 + (0 + S))))) :=
  .cons (ftBytes_lin 32) (.cons (ftBytes_lin 32) (.cons (num_lin _ _ _) (.cons (num_lin _ _ _)
    (.cons (num_lin _ _ _) h))))

theorem ftBlockHeader_lin : Lin (ftCompound blockHeader) 64 :=
  ftCompound_lin (c := blockHeader) (.cons (num_lin _ _ _)
    (headerTail_lin (S := 0 + 0) (.cons ftVarInteger_lin .nil)))

theorem ftBlockHeader_pays : Pays (ftCompound blockHeader) :=
  ftCompound_pays (c := blockHeader) (.cons (num_lin _ _ _)
    (headerTail_lin (S := 0 + 0) (.cons ftVarInteger_lin .nil)))
    (p := ("version", ftNumber .I)) (by simp [blockHeader]) (num_pays _ _ _)

theorem ftBlockHeader_needs : Needs (ftCompound blockHeader) := ftCompound_needs (ftNumber_needs ..)

/-- The messages with a bound, and their slack. -/
theorem registry_lin {t : MsgType} (ht : t ∈ registry)
    (hne : t.command ∉ ["getblocks", "getheaders", "merkleblock"]) :
    ∃ S, S ≤ 96 ∧ LinFields t.props S := by
  simp only [registry, List.mem_cons, List.not_mem_nil, or_false] at ht
  rcases ht with rfl | rfl | rfl | rfl | rfl | rfl | rfl | rfl | rfl | rfl | rfl | rfl | rfl | rfl |
    rfl | rfl | rfl | rfl | rfl | rfl | rfl
  · exact ⟨_, by decide, .cons (num_lin _ _ _) (.cons (num_lin _ _ _) (.cons (num_lin _ _ _)
      (.cons ftNetworkAddressNoTimestamp_lin (.cons ftNetworkAddressNoTimestamp_lin
      (.cons (ftBytes_lin 8) (.cons ftVarString_lin (.cons (num_lin _ _ _)
      (.cons ftRelay_lin .nil))))))))⟩
  · exact ⟨_, by decide, .nil⟩
  · exact ⟨_, by decide, .cons (ftArray_lin ftNetworkAddress_lin ftNetworkAddress_pays
      ftNetworkAddress_needs _ _) .nil⟩
  · exact ⟨_, by decide, inv_lin⟩
  · exact ⟨_, by decide, inv_lin⟩
  · exact ⟨_, by decide, inv_lin⟩
  · simp [msgGetblocks] at hne
  · simp [msgGetheaders] at hne
  · exact ⟨_, by decide, tx_lin⟩
  · exact ⟨_, by decide, .cons (num_lin _ _ _) (headerTail_lin (S := 32 + 0)
      (.cons (ftArray_lin ftTxn_lin ftTxn_pays ftTxn_needs _ _) .nil))⟩
  · exact ⟨_, by decide, .cons (ftArray_lin ftBlockHeader_lin ftBlockHeader_pays
      ftBlockHeader_needs _ _) .nil⟩
  · exact ⟨_, by decide, .nil⟩
  · exact ⟨_, by decide, .nil⟩
  · exact ⟨_, by decide, .cons (ftBytes_lin 8) .nil⟩
  · exact ⟨_, by decide, .cons (ftBytes_lin 8) .nil⟩
  · exact ⟨_, by decide, .cons ftVarString_lin (.cons (num_lin _ _ _) (.cons ftVarString_lin .nil))⟩
  · exact ⟨_, by decide, .cons (ftArray_lin (num_lin _ _ _) (num_pays _ _ _) (ftNumber_needs ..) _ _)
      (.cons (num_lin _ _ _) (.cons (num_lin _ _ _) (.cons (num_lin _ _ _) .nil)))⟩
  · exact ⟨_, by decide, .cons ftVarString_lin .nil⟩
  · exact ⟨_, by decide, .nil⟩
  · simp [msgMerkleblock] at hne
  · exact ⟨_, by decide, .cons ftVarString_lin (.cons ftVarString_lin .nil)⟩

/-- Elements are paid for by consumed bytes. -/
def Half (T : FType) : Prop := ∀ d n v, T.parse d = .ok (n, v) → elements v ≤ n

theorem Lin.half {T : FType} {s : Nat} (h : Lin T s) : Half T := fun d n v hp => (h d n v hp).1

theorem bytesArray_half (w : Nat) (hw : 0 < w) (lo hi : Option Nat) : Half (ftArray (ftBytes w) lo hi) := by
  intro d n v h
  simp only [ftArray, parseVarSet] at h
  obtain ⟨⟨m, l⟩, h1, h⟩ := bind_ok_iff.1 h
  obtain ⟨⟨off, c⟩, h2, h1⟩ := bind_ok_iff.1 h1
  simp only [Except.ok.injEq, Prod.mk.injEq] at h
  obtain ⟨rfl, rfl⟩ := h
  have key : ∀ (k off o : Nat) (l : List Val), varSetLoop (ftBytes w) d k off = .ok (o, l) →
      elementsList l + off ≤ o := by
    intro k
    induction k with
    | zero =>
      intro off o l h
      simp only [varSetLoop, Except.ok.injEq, Prod.mk.injEq] at h
      obtain ⟨rfl, rfl⟩ := h
      simp [elementsList]
    | succ k ih =>
      intro off o l h
      simp only [varSetLoop] at h
      obtain ⟨⟨n, x⟩, h1, h⟩ := bind_ok_iff.1 h
      obtain ⟨⟨o', l'⟩, h2, h⟩ := bind_ok_iff.1 h
      simp only [Except.ok.injEq, Prod.mk.injEq] at h
      obtain ⟨rfl, rfl⟩ := h
      simp only [ftBytes, Except.ok.injEq, Prod.mk.injEq] at h1
      obtain ⟨rfl, rfl⟩ := h1
      have := ih _ _ _ h2
      simp only [elementsList, elements]
      omega
  have := key _ _ _ _ h1
  simp only [elements]
  omega

theorem parseFields_half {ps : Props} (hF : ∀ p ∈ ps, Half p.2) {data : Bytes} {off o : Nat}
    {l : List (String × Val)} (h : parseFields data ps off = .ok (o, l)) :
    elementsFields l + off ≤ o := by
  induction ps generalizing off o l with
  | nil =>
    simp only [parseFields, Except.ok.injEq, Prod.mk.injEq] at h
    obtain ⟨rfl, rfl⟩ := h
    simp [elementsFields]
  | cons p ps ih =>
    obtain ⟨k, T⟩ := p
    simp only [parseFields] at h
    split at h
    · cases h
    · rename_i n x h1
      obtain ⟨⟨o', l'⟩, h2, h⟩ := bind_ok_iff.1 h
      simp only [Except.ok.injEq, Prod.mk.injEq] at h
      obtain ⟨rfl, rfl⟩ := h
      have a := hF (k, T) (by simp) _ _ _ h1
      have b := ih (fun p hp => hF p (by simp [hp])) h2
      simp only [elementsFields]
      omega

/-- If the last field cannot be empty, the message ends within the data (and the slack of that field). -/
theorem parseFields_last {k : String} {T : FType} {s : Nat} (hL : Lin T s) (hN : Needs T) (ps : Props)
    {data : Bytes} {off o : Nat} {l : List (String × Val)}
    (h : parseFields data (ps ++ [(k, T)]) off = .ok (o, l)) : o ≤ data.length + s := by
  induction ps generalizing off o l with
  | nil =>
    simp only [List.nil_append, parseFields] at h
    split at h
    · cases h
    · rename_i n x h1
      simp only [ok_bind, Except.ok.injEq, Prod.mk.injEq] at h
      obtain ⟨rfl, rfl⟩ := h
      have hlt : off < data.length := by
        by_contra hc
        rw [List.drop_of_length_le (by omega)] at h1
        obtain ⟨e, he⟩ := hN
        rw [he] at h1
        cases h1
      have a := hL _ _ _ h1
      rw [List.length_drop] at a
      omega
  | cons p ps ih =>
    obtain ⟨k', T'⟩ := p
    simp only [List.cons_append, parseFields] at h
    split at h
    · cases h
    · obtain ⟨⟨o', l'⟩, h2, h⟩ := bind_ok_iff.1 h
      simp only [Except.ok.injEq, Prod.mk.injEq] at h
      obtain ⟨rfl, rfl⟩ := h
      exact ih h2

theorem merkleblock_bound {data : Bytes} {o : Nat} {l : List (String × Val)}
    (h : parseFields data msgMerkleblock.props 0 = .ok (o, l)) : elementsFields l ≤ data.length := by
  have h1 := parseFields_last (k := "flags") (ftArray_lin (num_lin .b _ _) (num_pays .b _ _)
    (ftNumber_needs .b _ _) none none) (ftArray_needs _ _ _)
    [("version", ftNumber .I), ("prev_block", ftBytes 32), ("merkle_root", ftBytes 32),
    ("timestamp", ftNumber .I (allowFloat := true)), ("bits", ftNumber .I), ("nonce", ftNumber .I),
    ("total_transactions", ftNumber .I), ("hashes", ftArray (ftBytes 32) none none)] h
  have h2 := parseFields_half (ps := msgMerkleblock.props) (by
    simp only [msgMerkleblock, List.forall_mem_cons, List.not_mem_nil, false_imp_iff, implies_true,
      and_true]
    exact ⟨(num_lin _ _ _).half, (ftBytes_lin 32).half, (ftBytes_lin 32).half, (num_lin _ _ _).half,
      (num_lin _ _ _).half, (num_lin _ _ _).half, (num_lin _ _ _).half, bytesArray_half 32 (by decide) _ _,
      (ftArray_lin (num_lin .b _ _) (num_pays .b _ _) (ftNumber_needs .b _ _) none none).half⟩) h
  omega

/-- An array of `FtBytes` is filled with empty strings when the data has ended. -/
theorem varSetLoop_bytes_empty (w : Nat) {data : Bytes} (k off : Nat) (h : data.length ≤ off) :
    varSetLoop (ftBytes w) data k off = .ok (off + k * w, List.replicate k (.bytes [])) := by
  induction k generalizing off with
  | zero => simp [varSetLoop]
  | succ k ih =>
    simp only [varSetLoop]
    rw [List.drop_of_length_le h]
    simp only [ftBytes, List.take_nil, ok_bind]
    have := ih (off + w) (by omega)
    simp only [ftBytes] at this
    rw [this, ok_bind, List.replicate_succ]
    congr 2
    ring

theorem elementsList_replicate (k : Nat) : elementsList (List.replicate k (.bytes [])) = k := by
  induction k with
  | zero => rfl
  | succ k ih =>
    rw [List.replicate_succ]
    simp only [elementsList, elements, ih]
    omega

end NBC.Proto
