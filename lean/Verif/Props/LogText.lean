import Verif.Proofs.LogText
import Verif.Props.Alert
import Verif.Props.Objects
import Verif.Props.NodeIdle

/-!
# Property C131: logging does not change what a node does
-/

namespace NBC.Props
open NBC NBC.Spec NBC.Spec.Wire NBC.Proto NBC.P2P
open NBC.Aes (PyVer)

variable {H : Hashes}

theorem parsed_type {data magic : Bytes} {m : Msg} (h : parseMessage H data magic = .ok m) :
    ∃ t ∈ registry, ∃ payload o, parseFields payload t.props 0 = .ok (o, m.fields) ∧ m.command = t.command := by
  unfold parseMessage at h
  split at h
  · cases h
  · simp only [bind_ok_iff] at h
    obtain ⟨l, -, h⟩ := h
    split at h
    · cases h
    · split at h
      · cases h
      · rename_i t ht
        simp only [bind_ok_iff] at h
        obtain ⟨⟨o, kw⟩, h1, h⟩ := h
        injection h with h
        subst h
        exact ⟨t, List.mem_of_find?_eq_some ht, _, o, h1, rfl⟩

theorem networkAddress_print : PrintAll networkAddress.props networkAddressStr :=
  .cons (plain_prints _).prints (.cons (plain_prints _).prints (.cons (plain_prints _).prints
    (.cons (plain_prints _).prints .nil)))

theorem address_prints : PrintsText ftNetworkAddress (strObject networkAddressStr) :=
  object_prints networkAddress_print (by decide)

theorem address'_prints : PrintsText ftNetworkAddressNoTimestamp (strObject networkAddressStr) := by
  rintro v ⟨d, l, h⟩
  simp only [ftNetworkAddressNoTimestamp, bind_ok_iff] at h
  obtain ⟨⟨l', v'⟩, h1, h2⟩ := h
  simp only [Except.ok.injEq, Prod.mk.injEq] at h2
  rw [← h2.2]
  exact address_prints v' ⟨_, _, h1⟩

theorem inventory_prints (ver : PyVer) : PrintsText (ftCompound inventoryVector) (strObject (inventoryVectorStr ver)) :=
  object_prints (.cons (plain_prints _).prints (.cons (bytes_prints ver 32) .nil)) (by decide)

theorem outPoint_prints (ver : PyVer) : PrintsText (ftCompound outPoint) (strObject (outPointStr ver)) :=
  object_prints (.cons (bytes_prints ver 32) (.cons (plain_prints _).prints .nil)) (by decide)

theorem txnIn_print (ver : PyVer) : PrintAll txnIn.props (txnInStr ver) :=
  .cons (outPoint_prints ver).prints (.cons (plain_prints _).prints (.cons (plain_prints _).prints .nil))

theorem txnOut_print : PrintAll txnOut.props txnOutStr :=
  .cons (plain_prints _).prints (.cons (plain_prints _).prints .nil)

theorem txn_print (ver : PyVer) : PrintAll txn.props (txnStr ver) :=
  .cons (plain_prints _).prints
    (.cons (array_prints (object_prints (txnIn_print ver) (by decide)) _ _).prints
      (.cons (array_prints (object_prints txnOut_print (by decide)) _ _).prints
        (.cons (plain_prints _).prints .nil)))

theorem blockHeader_print (ver : PyVer) : PrintAll blockHeader.props (blockHeaderStr ver) :=
  .cons (plain_prints _).prints (.cons (bytes_prints ver 32) (.cons (bytes_prints ver 32)
    (.cons (plain_prints _).prints (.cons (plain_prints _).prints (.cons (plain_prints _).prints
      (.cons (plain_prints _).prints .nil))))))

/-- The class has no list of hashes. -/
theorem msg_print (ver : PyVer) {t : MsgType} (ht : t ∈ registry)
    (h : ver = .py2 ∨ (t.command ≠ "getblocks" ∧ t.command ≠ "getheaders" ∧ t.command ≠ "merkleblock"))
    (ha : t.command ≠ "alert") : PrintAll t.props (msgStrFns ver t.command) := by
  have hp : ∀ T, Prints T strPlain := fun T => (plain_prints T).prints
  have hl : ver = .py2 → PrintsText (ftBytes 32) (strBytes ver) := by rintro rfl; exact bytes_printsText 32
  simp only [registry, List.mem_cons, List.not_mem_nil, or_false] at ht
  rcases ht with rfl | rfl | rfl | rfl | rfl | rfl | rfl | rfl | rfl | rfl | rfl | rfl | rfl | rfl | rfl | rfl |
    rfl | rfl | rfl | rfl | rfl
  · exact .cons (hp _) (.cons (hp _) (.cons (hp _) (.cons address'_prints.prints (.cons address'_prints.prints
      (.cons (bytes_prints ver 8) (.cons (hp _) (.cons (hp _) (.cons (hp _) .nil))))))))
  · exact .nil
  · exact .cons (array_prints address_prints _ _).prints .nil
  · exact .cons (array_prints (inventory_prints ver) _ _).prints .nil
  · exact .cons (array_prints (inventory_prints ver) _ _).prints .nil
  · exact .cons (array_prints (inventory_prints ver) _ _).prints .nil
  · have hv := h.resolve_right (fun h' => h'.1 rfl)
    exact .cons (hp _) (.cons (array_prints (hl hv) _ _).prints (.cons (bytes_prints ver 32) .nil))
  · have hv := h.resolve_right (fun h' => h'.2.1 rfl)
    exact .cons (hp _) (.cons (array_prints (hl hv) _ _).prints (.cons (bytes_prints ver 32) .nil))
  · exact txn_print ver
  · exact .cons (hp _) (.cons (bytes_prints ver 32) (.cons (bytes_prints ver 32) (.cons (hp _) (.cons (hp _)
      (.cons (hp _) (.cons (array_prints (object_prints (txn_print ver) (by decide)) _ _).prints .nil))))))
  · exact .cons (array_prints (object_prints (blockHeader_print ver) (by decide)) _ _).prints .nil
  · exact .nil
  · exact .nil
  · exact .cons (bytes_prints ver 8) .nil
  · exact .cons (bytes_prints ver 8) .nil
  · exact .cons (hp _) (.cons (hp _) (.cons (hp _) .nil))
  · exact .cons (array_prints (plain_prints _) _ _).prints (.cons (hp _) (.cons (hp _) (.cons (hp _) .nil)))
  · exact .cons (hp _) .nil
  · exact .nil
  · have hv := h.resolve_right (fun h' => h'.2.2 rfl)
    exact .cons (hp _) (.cons (bytes_prints ver 32) (.cons (bytes_prints ver 32) (.cons (hp _) (.cons (hp _)
      (.cons (hp _) (.cons (hp _) (.cons (array_prints (hl hv) _ _).prints
        (.cons (array_prints (plain_prints _) _ _).prints .nil))))))))
  · exact absurd rfl ha

theorem registry_nodup {t : MsgType} (ht : t ∈ registry) : (t.props.map (·.1)).Nodup := by
  simp only [registry, List.mem_cons, List.not_mem_nil, or_false] at ht
  rcases ht with rfl | rfl | rfl | rfl | rfl | rfl | rfl | rfl | rfl | rfl | rfl | rfl | rfl | rfl | rfl | rfl |
    rfl | rfl | rfl | rfl | rfl <;> decide

/-! ### The short texts -/

/-- A text can be made of the value, or of its first element. -/
def DebugOk (ver : PyVer) : Val → Prop
  | .tuple (v :: _) => debugValue ver v = .ok ()
  | .tuple [] => True
  | v => debugValue ver v = .ok ()

theorem debugParams_ok {ver : PyVer} {vs : List Val} (h : ∀ v ∈ vs, DebugOk ver v) : debugParams ver vs = .ok () := by
  induction vs with
  | nil => rfl
  | cons v vs ih =>
    have ih := ih (fun x hx => h x (by simp [hx]))
    have hv := h v (by simp)
    cases v with
    | tuple l =>
      cases l with
      | nil => exact ih
      | cons x xs =>
        have hv : debugValue ver x = .ok () := hv
        simp only [debugParams, hv, ih, ok_bind]
    | obj cls fields =>
      have hv : debugValue ver (.obj cls fields) = .ok () := hv
      simp only [debugParams, hv, ih, ok_bind]
    | _ => exact ih

theorem debug_number {ver : PyVer} {f : Fmt} {big af : Bool} {v : Val} (h : Parsed (ftNumber f big af) v) :
    DebugOk ver v := by
  obtain ⟨i, -, rfl⟩ := parsed_number h
  exact rfl

theorem debug_string {ver : PyVer} {v : Val} (h : Parsed ftVarString v) : DebugOk ver v := by
  obtain ⟨b, rfl, -⟩ := parsed_string h
  exact rfl

theorem debug_array {ver : PyVer} {T : FType} {a c : Option Nat} (hT : ∀ v, Parsed T v → debugValue ver v = .ok ())
    {v : Val} (h : Parsed (ftArray T a c) v) : DebugOk ver v := by
  obtain ⟨l, rfl, -, hl⟩ := parsed_array h
  cases l with
  | nil => exact trivial
  | cons x xs => exact hT x (hl x (by simp))

theorem debug_address {ver : PyVer} {v : Val} (h : Parsed ftNetworkAddress v) : debugValue ver v = .ok () := by
  obtain ⟨d, o, vs, h1, rfl⟩ := parsed_object h
  obtain ⟨a, ha, -⟩ := parsed_field h1 (by decide) (k := "address") (T := ftIPAddress) (by simp [networkAddress])
  obtain ⟨p, hp, hpp⟩ := parsed_field h1 (by decide) (k := "port") (T := ftNumber .H (big := true))
    (by simp [networkAddress])
  obtain ⟨i, -, rfl⟩ := parsed_number hpp
  simp only [debugValue, networkAddress, if_true, ha, hp, ok_bind, toInt]

theorem debug_inventory {ver : PyVer} {v : Val} (h : Parsed (ftCompound inventoryVector) v) :
    debugValue ver v = .ok () := by
  obtain ⟨d, o, vs, h1, rfl⟩ := parsed_object h
  obtain ⟨a, ha, hpa⟩ := parsed_field h1 (by decide) (k := "object_type") (T := ftNumber .I) (by simp [inventoryVector])
  obtain ⟨p, hp, hpp⟩ := parsed_field h1 (by decide) (k := "hash") (T := ftBytes 32) (by simp [inventoryVector])
  obtain ⟨i, hi', rfl⟩ := parsed_number hpa
  obtain ⟨b, rfl, -⟩ := parsed_bytes hpp
  have h0 : 0 ≤ i := hi'.1
  have ht : objectTypeOk (.int i) = .ok () := by
    rw [objectTypeOk, if_neg]; omega
  simp only [debugValue, inventoryVector, if_true, ha, hp, ok_bind, ht, hexlifyOk,
    show ("InventoryVector" = "NetworkAddress") = False by decide, if_false]

theorem txnIn_dumps : Dumps (ftCompound txnIn) :=
  object_dumps (by
    simp only [txnIn, List.forall_mem_cons]
    exact ⟨object_dumps (by
      simp only [outPoint, List.forall_mem_cons]
      exact ⟨bytes_dumps 32, number_dumps _ _ _, by simp⟩) (by decide), string_dumps, number_dumps _ _ _, by simp⟩)
    (by decide)

theorem txnOut_dumps : Dumps (ftCompound txnOut) :=
  object_dumps (by
    simp only [txnOut, List.forall_mem_cons]
    exact ⟨number_dumps _ _ _, string_dumps, by simp⟩) (by decide)

theorem txn_dump : ∀ p ∈ txn.props, Dumps p.2 := by
  simp only [txn, List.forall_mem_cons]
  exact ⟨number_dumps _ _ _, array_dumps txnIn_dumps _ _, array_dumps txnOut_dumps _ _, number_dumps _ _ _, by simp⟩

theorem header_dump : ∀ p ∈ blockHeader.props, Dumps p.2 := by
  simp only [blockHeader, List.forall_mem_cons]
  exact ⟨number_dumps _ _ _, bytes_dumps 32, bytes_dumps 32, number_dumps _ _ _, number_dumps _ _ _,
    number_dumps _ _ _, size_dumps, by simp⟩

theorem debug_txn {ver : PyVer} {v : Val} (h : Parsed (ftCompound txn) v) : debugValue ver v = .ok () := by
  obtain ⟨d, o, vs, h1, rfl⟩ := parsed_object h
  obtain ⟨b, hb⟩ := fields_dump txn_dump (by decide) h1
  have hn : txn.name = "Txn" := rfl
  simp only [debugValue, hn, if_true, if_false, hb, ok_bind, show ("Txn" = "NetworkAddress") = False by decide,
    show ("Txn" = "InventoryVector") = False by decide]

theorem debug_header {ver : PyVer} {v : Val} (h : Parsed (ftCompound blockHeader) v) : debugValue ver v = .ok () := by
  obtain ⟨d, o, vs, h1, rfl⟩ := parsed_object h
  obtain ⟨b, hb⟩ := fields_dump header_dump (by decide) h1
  have hn : blockHeader.name = "BlockHeader" := rfl
  simp only [debugValue, hn, if_true, if_false, hb, ok_bind, show ("BlockHeader" = "NetworkAddress") = False by decide,
    show ("BlockHeader" = "InventoryVector") = False by decide, show ("BlockHeader" = "Txn") = False by decide]

theorem debug_txnIn {ver : PyVer} {v : Val} (h : Parsed (ftCompound txnIn) v) : debugValue ver v = .ok () := by
  obtain ⟨d, o, vs, h1, rfl⟩ := parsed_object h
  exact fields_print (txnIn_print ver) (by decide) h1

theorem debug_txnOut {ver : PyVer} {v : Val} (h : Parsed (ftCompound txnOut) v) : debugValue ver v = .ok () := by
  obtain ⟨d, o, vs, h1, rfl⟩ := parsed_object h
  exact fields_print txnOut_print (by decide) h1

theorem debug_inv (ver : PyVer) {c : String} (hc : c = "inv" ∨ c = "getdata" ∨ c = "notfound") {payload : Bytes}
    {o : Nat} {vs : List (String × Val)} (h : parseFields payload invProps 0 = .ok (o, vs)) :
    msgDebug ver ⟨c, vs⟩ = .ok () := by
  obtain ⟨v, hv, hp⟩ := parsed_field h (by decide) (k := "inventory")
    (T := ftArray (ftCompound inventoryVector) none (some 50000)) (by simp [invProps])
  have hd : debugParams ver [v] = .ok () := debugParams_ok (by
    rintro x hx
    rw [List.mem_singleton.1 hx]
    exact debug_array (fun w hw => debug_inventory hw) hp)
  rcases hc with rfl | rfl | rfl <;>
    exact (show (do let vs ← getFields vs ["inventory"]; debugParams ver vs) = .ok () by
      simp only [getFields, List.mapM_cons, List.mapM_nil, hv, ok_bind, pure_bind]
      exact hd)

theorem hexlifyAll_ok {n : Nat} {a c : Option Nat} {v : Val} (h : Parsed (ftArray (ftBytes n) a c) v) :
    hexlifyAll v = .ok () := by
  obtain ⟨l, rfl, -, hl⟩ := parsed_array h
  obtain ⟨bs, hbs⟩ := mapM_dumps (f := hexlifyOk) (l := l) (fun x hx => by
    obtain ⟨b, rfl, -⟩ := parsed_bytes (hl x hx)
    exact ⟨(), rfl⟩)
  simp only [hexlifyAll, hbs, ok_bind]

theorem debug_getblocks (ver : PyVer) {c : String} (hc : c = "getblocks" ∨ c = "getheaders") {payload : Bytes}
    {o : Nat} {vs : List (String × Val)} (h : parseFields payload getBlocksProps 0 = .ok (o, vs)) :
    msgDebug ver ⟨c, vs⟩ = .ok () := by
  obtain ⟨v, hv, hp⟩ := parsed_field h (by decide) (k := "block_locator_hashes")
    (T := ftArray (ftBytes 32) (some 1) none) (by simp [getBlocksProps])
  rcases hc with rfl | rfl <;>
    exact (show (do let v ← getField vs "block_locator_hashes"; hexlifyAll v) = .ok () by
      simp only [hv, ok_bind]
      exact hexlifyAll_ok hp)

theorem debug_ping (ver : PyVer) {c : String} (hc : c = "ping" ∨ c = "pong") {payload : Bytes}
    {o : Nat} {vs : List (String × Val)} (h : parseFields payload msgPing.props 0 = .ok (o, vs)) :
    msgDebug ver ⟨c, vs⟩ = .ok () := by
  obtain ⟨v, hv, hp⟩ := parsed_field h (by decide) (k := "nonce") (T := ftBytes 8) (by simp [msgPing])
  obtain ⟨b, rfl, -⟩ := parsed_bytes hp
  rcases hc with rfl | rfl <;>
    exact (show (do let v ← getField vs "nonce"; hexlifyOk v) = .ok () by
      simp only [hv, ok_bind, hexlifyOk])

theorem debug_version (ver : PyVer) {payload : Bytes}
    {o : Nat} {vs : List (String × Val)} (h : parseFields payload msgVersion.props 0 = .ok (o, vs)) :
    msgDebug ver ⟨"version", vs⟩ = .ok () := by
  obtain ⟨v₁, h₁, p₁⟩ := parsed_field h (by decide) (k := "version") (T := ftNumber .i) (by simp [msgVersion])
  obtain ⟨v₂, h₂, p₂⟩ := parsed_field h (by decide) (k := "services") (T := ftNumber .Q) (by simp [msgVersion])
  obtain ⟨v₃, h₃, p₃⟩ := parsed_field h (by decide) (k := "user_agent") (T := ftVarString) (by simp [msgVersion])
  obtain ⟨v₄, h₄, p₄⟩ := parsed_field h (by decide) (k := "start_height") (T := ftNumber .i) (by simp [msgVersion])
  have hd : debugParams ver [v₁, v₂, v₃, v₄] = .ok () := debugParams_ok (by
    simp only [List.forall_mem_cons]
    exact ⟨debug_number p₁, debug_number p₂, debug_string p₃, debug_number p₄, by simp⟩)
  exact (show (do let vs ← getFields vs ["version", "services", "user_agent", "start_height"]
                  debugParams ver vs) = .ok () by
    simp only [getFields, List.mapM_cons, List.mapM_nil, h₁, h₂, h₃, h₄, ok_bind, pure_bind]
    exact hd)

theorem debug_one (ver : PyVer) {k : String} {vs : List (String × Val)} {v : Val} (hv : getField vs k = .ok v)
    (hd : DebugOk ver v) : (do let vs ← getFields vs [k]; debugParams ver vs) = .ok () := by
  simp only [getFields, List.mapM_cons, List.mapM_nil, hv, ok_bind, pure_bind]
  exact debugParams_ok (by
    rintro x hx
    rw [List.mem_singleton.1 hx]
    exact hd)

theorem debug_two (ver : PyVer) {k k' : String} {vs : List (String × Val)} {v v' : Val} (hv : getField vs k = .ok v)
    (hv' : getField vs k' = .ok v') (hd : DebugOk ver v) (hd' : DebugOk ver v') :
    (do let vs ← getFields vs [k, k']; debugParams ver vs) = .ok () := by
  simp only [getFields, List.mapM_cons, List.mapM_nil, hv, hv', ok_bind, pure_bind]
  exact debugParams_ok (by
    simp only [List.forall_mem_cons]
    exact ⟨hd, hd', by simp⟩)

theorem debug_block (ver : PyVer) {payload : Bytes}
    {o : Nat} {vs : List (String × Val)} (h : parseFields payload msgBlock.props 0 = .ok (o, vs)) :
    msgDebug ver ⟨"block", vs⟩ = .ok () := by
  obtain ⟨v₁, h₁, p₁⟩ := parsed_field h (by decide) (k := "version") (T := ftNumber .I) (by simp [msgBlock])
  obtain ⟨v₂, h₂, p₂⟩ := parsed_field h (by decide) (k := "prev_block") (T := ftBytes 32) (by simp [msgBlock])
  obtain ⟨v₃, h₃, p₃⟩ := parsed_field h (by decide) (k := "merkle_root") (T := ftBytes 32) (by simp [msgBlock])
  obtain ⟨v₄, h₄, p₄⟩ := parsed_field h (by decide) (k := "timestamp") (T := ftNumber .I (allowFloat := true))
    (by simp [msgBlock])
  obtain ⟨v₅, h₅, p₅⟩ := parsed_field h (by decide) (k := "bits") (T := ftNumber .I) (by simp [msgBlock])
  obtain ⟨v₆, h₆, p₆⟩ := parsed_field h (by decide) (k := "nonce") (T := ftNumber .I) (by simp [msgBlock])
  obtain ⟨v₇, h₇, p₇⟩ := parsed_field h (by decide) (k := "txns") (T := ftArray (ftCompound txn) none none)
    (by simp [msgBlock])
  obtain ⟨i₁, r₁, rfl⟩ := parsed_number p₁
  obtain ⟨i₂, rfl, -⟩ := parsed_bytes p₂
  obtain ⟨i₃, rfl, -⟩ := parsed_bytes p₃
  obtain ⟨i₄, r₄, rfl⟩ := parsed_number p₄
  obtain ⟨i₅, r₅, rfl⟩ := parsed_number p₅
  obtain ⟨i₆, r₆, rfl⟩ := parsed_number p₆
  have hg : ∃ b, Util.getBlockHeader (.int i₁) (.bytes i₂) (.bytes i₃) (.int i₄) (.int i₅) (.int i₆) = .ok b := by
    simp only [Util.getBlockHeader, Util.packI, Util.pack32s, pack_ok r₁, pack_ok r₄, pack_ok r₅, pack_ok r₆, ok_bind]
    exact ⟨_, rfl⟩
  obtain ⟨b, hb⟩ := hg
  have hd := debug_one ver h₇ (debug_array (fun w hw => debug_txn hw) p₇)
  simp only [msgDebug, show ("block" = "version") = False by decide, show ("block" = "addr") = False by decide,
    show ("block" = "inv") = False by decide, show ("block" = "getdata") = False by decide,
    show ("block" = "notfound") = False by decide, show ("block" = "getblocks") = False by decide,
    show ("block" = "getheaders") = False by decide, show ("block" = "tx") = False by decide, or_false, if_false,
    if_true, h₁, h₂, h₃, h₄, h₅, h₆, ok_bind, hb]
  exact hd

theorem msg_debug (ver : PyVer) {t : MsgType} (ht : t ∈ registry) (ha : t.command ≠ "alert") {payload : Bytes}
    {o : Nat} {vs : List (String × Val)} (h : parseFields payload t.props 0 = .ok (o, vs)) :
    msgDebug ver ⟨t.command, vs⟩ = .ok () := by
  simp only [registry, List.mem_cons, List.not_mem_nil, or_false] at ht
  rcases ht with rfl | rfl | rfl | rfl | rfl | rfl | rfl | rfl | rfl | rfl | rfl | rfl | rfl | rfl | rfl | rfl |
    rfl | rfl | rfl | rfl | rfl
  · exact debug_version ver h
  · rfl
  · obtain ⟨v, hv, hp⟩ := parsed_field h (by decide) (k := "addr_list")
      (T := ftArray ftNetworkAddress none (some 1000)) (by simp [msgAddr])
    exact debug_one ver hv (debug_array (fun w hw => debug_address hw) hp)
  · exact debug_inv ver (.inl rfl) h
  · exact debug_inv ver (.inr (.inl rfl)) h
  · exact debug_inv ver (.inr (.inr rfl)) h
  · exact debug_getblocks ver (.inl rfl) h
  · exact debug_getblocks ver (.inr rfl) h
  · obtain ⟨v, hv, hp⟩ := parsed_field h (by decide) (k := "tx_in")
      (T := ftArray (ftCompound txnIn) (some 1) none) (by simp [msgTx, txn])
    obtain ⟨v', hv', hp'⟩ := parsed_field h (by decide) (k := "tx_out")
      (T := ftArray (ftCompound txnOut) (some 1) none) (by simp [msgTx, txn])
    exact debug_two ver hv hv' (debug_array (fun w hw => debug_txnIn hw) hp)
      (debug_array (fun w hw => debug_txnOut hw) hp')
  · exact debug_block ver h
  · obtain ⟨v, hv, hp⟩ := parsed_field h (by decide) (k := "headers")
      (T := ftArray (ftCompound blockHeader) none none) (by simp [msgHeaders])
    exact debug_one ver hv (debug_array (fun w hw => debug_header hw) hp)
  · rfl
  · rfl
  · exact debug_ping ver (.inl rfl) h
  · exact debug_ping ver (.inr rfl) h
  · obtain ⟨v, hv, hp⟩ := parsed_field h (by decide) (k := "message") (T := ftVarString) (by simp [msgReject])
    obtain ⟨v', hv', hp'⟩ := parsed_field h (by decide) (k := "reason") (T := ftVarString) (by simp [msgReject])
    exact debug_two ver hv hv' (debug_string hp) (debug_string hp')
  · rfl
  · rfl
  · rfl
  · rfl
  · exact absurd rfl ha

/-! ### Lists of hashes -/

/-- The message has no list of hashes with something in it. -/
def NoHashes (m : Msg) : Prop :=
  ∀ k x l, k = "block_locator_hashes" ∨ k = "hashes" → getField m.fields k ≠ .ok (.tuple (x :: l))

theorem hashes_prints (ver : PyVer) {n : Nat} {a c : Option Nat} {v : Val} (h : Parsed (ftArray (ftBytes n) a c) v)
    (hn : ∀ x l, v ≠ .tuple (x :: l)) : strArray (strBytes ver) v = .ok .text := by
  obtain ⟨l, rfl, -, -⟩ := parsed_array h
  cases l with
  | nil => rfl
  | cons x l => exact absurd rfl (hn x l)

theorem hashes_error {n : Nat} {a c : Option Nat} {x : Val} {l : List Val}
    (h : Parsed (ftArray (ftBytes n) a c) (.tuple (x :: l))) :
    strArray (strBytes .py3) (.tuple (x :: l)) = .error .typeError := by
  obtain ⟨l', e, -, hl⟩ := parsed_array h
  cases e
  have hall : ∀ y ∈ (x :: l), strBytes .py3 y = .ok .bytes := by
    intro y hy
    obtain ⟨b, rfl, -⟩ := parsed_bytes (hl y hy)
    rfl
  have hm : ∀ ys : List Val, (∀ y ∈ ys, strBytes .py3 y = .ok .bytes) →
      ys.mapM (strBytes .py3) = .ok (List.replicate ys.length .bytes) := by
    intro ys hys
    induction ys with
    | nil => rfl
    | cons y ys ih =>
      rw [List.mapM_cons, hys y (by simp), ok_bind, ih (fun z hz => hys z (by simp [hz])), ok_bind]
      rfl
  simp only [strArray, hm _ hall, ok_bind, joinText, List.length_cons, List.replicate_succ, List.mem_cons, true_or,
    if_true, error_bind]

theorem compStr_error {ss : List (String × StrFn)} {vs : List (String × Val)} {p : String × StrFn} (hp : p ∈ ss)
    {v : Val} (hv : getField vs p.1 = .ok v) {e : PyErr} (he : p.2 v = .error e) : ∃ e', compStr ss vs = .error e' := by
  induction ss with
  | nil => cases hp
  | cons q ss ih =>
    obtain ⟨key, s⟩ := q
    rcases List.mem_cons.1 hp with rfl | hp
    · exact ⟨e, by simp only at hv he; simp only [compStr, hv, he, ok_bind, error_bind]⟩
    · simp only [compStr]
      cases hg : getField vs key with
      | error e => exact ⟨e, rfl⟩
      | ok w =>
        rw [ok_bind]
        cases hw : s w with
        | error e => exact ⟨e, rfl⟩
        | ok k => rw [ok_bind]; exact ih hp

theorem noHashes_print (ver : PyVer) {t : MsgType} (ht : t ∈ registry)
    (hc : t.command = "getblocks" ∨ t.command = "getheaders" ∨ t.command = "merkleblock") {payload : Bytes}
    {o : Nat} {vs : List (String × Val)} (h : parseFields payload t.props 0 = .ok (o, vs))
    (hn : NoHashes ⟨t.command, vs⟩) : compStr (msgStrFns ver t.command) vs = .ok () := by
  have hg : ∀ c, parseFields payload getBlocksProps 0 = .ok (o, vs) → NoHashes ⟨c, vs⟩ → compStr
      [("version", strPlain), ("block_locator_hashes", strArray (strBytes ver)), ("hash_stop", strBytes ver)] vs =
        .ok () := by
    intro c h hn
    obtain ⟨v₁, h₁, -⟩ := parsed_field h (by decide) (k := "version") (T := ftNumber .I) (by simp [getBlocksProps])
    obtain ⟨v₂, h₂, p₂⟩ := parsed_field h (by decide) (k := "block_locator_hashes")
      (T := ftArray (ftBytes 32) (some 1) none) (by simp [getBlocksProps])
    obtain ⟨v₃, h₃, p₃⟩ := parsed_field h (by decide) (k := "hash_stop") (T := ftBytes 32) (by simp [getBlocksProps])
    obtain ⟨k, hk⟩ := bytes_prints ver 32 v₃ p₃
    have := hashes_prints ver p₂ (fun x l e => hn _ x l (.inl rfl) (by rw [h₂, e]))
    simp only [compStr, h₁, h₂, h₃, hk, this, ok_bind, strPlain]
  simp only [registry, List.mem_cons, List.not_mem_nil, or_false] at ht
  rcases ht with rfl | rfl | rfl | rfl | rfl | rfl | rfl | rfl | rfl | rfl | rfl | rfl | rfl | rfl | rfl | rfl |
    rfl | rfl | rfl | rfl | rfl
  case inr.inr.inr.inr.inr.inr.inl => exact hg _ h hn
  case inr.inr.inr.inr.inr.inr.inr.inl => exact hg _ h hn
  case inr.inr.inr.inr.inr.inr.inr.inr.inr.inr.inr.inr.inr.inr.inr.inr.inr.inr.inr.inl =>
    refine compStr_of (fun p hp => ?_)
    have hq : ∀ (k : String) (T : FType), (k, T) ∈ msgMerkleblock.props → ∀ s : StrFn, Prints T s →
        ∃ v k', getField vs k = .ok v ∧ s v = .ok k' := by
      intro k T hT s hs
      obtain ⟨v, hv, pv⟩ := parsed_field h (by decide) hT
      obtain ⟨k', hk⟩ := hs v pv
      exact ⟨v, k', hv, hk⟩
    have hm : msgStrFns ver msgMerkleblock.command = headerStr ver ++ [("total_transactions", strPlain),
      ("hashes", strArray (strBytes ver)), ("flags", strArray strPlain)] := rfl
    rw [hm] at hp
    simp only [headerStr, List.cons_append, List.nil_append, List.mem_cons, List.not_mem_nil, or_false] at hp
    rcases hp with rfl | rfl | rfl | rfl | rfl | rfl | rfl | rfl | rfl
    · exact hq _ (ftNumber .I) (by simp [msgMerkleblock]) _ (plain_prints _).prints
    · exact hq _ (ftBytes 32) (by simp [msgMerkleblock]) _ (bytes_prints ver 32)
    · exact hq _ (ftBytes 32) (by simp [msgMerkleblock]) _ (bytes_prints ver 32)
    · exact hq _ (ftNumber .I (allowFloat := true)) (by simp [msgMerkleblock]) _ (plain_prints _).prints
    · exact hq _ (ftNumber .I) (by simp [msgMerkleblock]) _ (plain_prints _).prints
    · exact hq _ (ftNumber .I) (by simp [msgMerkleblock]) _ (plain_prints _).prints
    · exact hq _ (ftNumber .I) (by simp [msgMerkleblock]) _ (plain_prints _).prints
    · obtain ⟨v, hv, pv⟩ := parsed_field h (by decide) (k := "hashes") (T := ftArray (ftBytes 32) none none)
        (by simp [msgMerkleblock])
      exact ⟨v, _, hv, hashes_prints ver pv (fun x l e => hn _ x l (.inr rfl) (by rw [hv, e]))⟩
    · exact hq _ (ftArray (ftNumber .b) none none) (by simp [msgMerkleblock]) _ (array_prints (plain_prints _) _ _).prints
  all_goals exfalso; revert hc; decide

/-! ### C131 -/

/-- C131 for received messages other than alerts: in Python 2, at level 1 and above, and for messages without hashes
in a list, the node goes on as it does without logging.  Missing: `C131_hashes_false`, `C131_alert_false`. -/
theorem C131_received_partial (level : Int) (n : Node) (c : Nat) (m : Msg) (now : Int) (data magic : Bytes)
    (hm : parseMessage H data magic = .ok m) (ha : m.command ≠ "alert")
    (h : n.ver = .py2 ∨ 0 < level ∨ NoHashes m) :
    n.handleMessageLogged H level c m now = n.handleMessage H c m now := by
  obtain ⟨t, ht, payload, o, hp, hc⟩ := parsed_type hm
  obtain ⟨cmd, vs⟩ := m
  simp only at hp hc ha
  subst hc
  have : logText n.ver level ⟨t.command, vs⟩ = .ok () := by
    unfold logText
    split
    · rename_i hl
      have hl : level ≤ 0 := hl
      simp only [msgStr, if_neg ha]
      by_cases hh : t.command = "getblocks" ∨ t.command = "getheaders" ∨ t.command = "merkleblock"
      · rcases h with h | h | h
        · exact fields_print (msg_print n.ver ht (.inl h) ha) (registry_nodup ht) hp
        · omega
        · exact noHashes_print n.ver ht hh hp h
      · push Not at hh
        exact fields_print (msg_print n.ver ht (.inr hh) ha) (registry_nodup ht) hp
    split
    · exact msg_debug n.ver ht ha hp
    · rfl
  simp only [Node.handleMessageLogged, this]

/-- C131 fails in Python 3 at the level of the protocol for every received message with a list of hashes
(`getblocks`, `getheaders`, `merkleblock`) that is not empty: an exception keeps its handler from being called. -/
theorem C131_hashes_false (level : Int) (hl : level ≤ 0) (n : Node) (hv : n.ver = .py3) (c : Nat) (m : Msg) (now : Int)
    (data magic : Bytes) (hm : parseMessage H data magic = .ok m) (h : ¬ NoHashes m) :
    (∃ e, n.handleMessageLogged H level c m now = (n, some e)) ∧ (n.handleMessage H c m now).2 = none := by
  obtain ⟨t, ht, payload, o, hp, hc⟩ := parsed_type hm
  obtain ⟨cmd, vs⟩ := m
  simp only at hp hc
  subst hc
  simp only [NoHashes, not_forall, not_not] at h
  obtain ⟨k, x, l, hk, hg⟩ := h
  have key : (∃ a b, Parsed (ftArray (ftBytes 32) a b) (.tuple (x :: l))) ∧
      (k, strArray (strBytes n.ver)) ∈ msgStrFns n.ver t.command ∧
      (t.command = "getblocks" ∨ t.command = "getheaders" ∨ t.command = "merkleblock") := by
    have hkm : k ∈ t.props.map (·.1) := by
      by_contra hno
      have : ∀ (ps : Proto.Props) (off o : Nat) (vs : List (String × Val)), parseFields payload ps off = .ok (o, vs) →
          k ∉ ps.map (·.1) → getField vs k = .error .keyError := by
        intro ps
        induction ps with
        | nil =>
          intro off o vs h _
          simp only [parseFields, Except.ok.injEq, Prod.mk.injEq] at h
          rw [← h.2]; rfl
        | cons p ps ih =>
          intro off o vs h hk
          obtain ⟨l, v, ts, -, h2, rfl⟩ := parseFields_step h
          simp only [List.map_cons, List.mem_cons, not_or] at hk
          rw [getField_cons_ne (fun e => hk.1 e.symm)]
          exact ih _ _ _ h2 hk.2
      rw [this _ _ _ _ hp hno] at hg
      cases hg
    have hget : ∀ T, (k, T) ∈ t.props → Parsed T (.tuple (x :: l)) := by
      intro T hT
      obtain ⟨v, hv', pv⟩ := parsed_field hp (registry_nodup ht) hT
      rw [hv'] at hg
      injection hg with hg
      rw [← hg]; exact pv
    simp only [registry, List.mem_cons, List.not_mem_nil, or_false] at ht
    rcases ht with rfl | rfl | rfl | rfl | rfl | rfl | rfl | rfl | rfl | rfl | rfl | rfl | rfl | rfl | rfl | rfl |
      rfl | rfl | rfl | rfl | rfl
    case inr.inr.inr.inr.inr.inr.inl =>
      rcases hk with rfl | rfl
      · exact ⟨⟨some 1, none, hget _ (by simp [msgGetblocks, getBlocksProps])⟩,
          by simp [msgStrFns, msgGetblocks], .inl rfl⟩
      · exact absurd hkm (by decide)
    case inr.inr.inr.inr.inr.inr.inr.inl =>
      rcases hk with rfl | rfl
      · exact ⟨⟨some 1, none, hget _ (by simp [msgGetheaders, getBlocksProps])⟩,
          by simp [msgStrFns, msgGetheaders], .inr (.inl rfl)⟩
      · exact absurd hkm (by decide)
    case inr.inr.inr.inr.inr.inr.inr.inr.inr.inr.inr.inr.inr.inr.inr.inr.inr.inr.inr.inl =>
      rcases hk with rfl | rfl
      · exact absurd hkm (by decide)
      · exact ⟨⟨none, none, hget _ (by simp [msgMerkleblock])⟩,
          by simp [msgStrFns, msgMerkleblock], .inr (.inr rfl)⟩
    all_goals exfalso; rcases hk with rfl | rfl <;> revert hkm <;> decide
  obtain ⟨⟨a, b, hpar⟩, hmem, hcmd⟩ := key
  have he := hashes_error hpar
  rw [← hv] at he
  obtain ⟨e, hE⟩ := compStr_error hmem hg he
  refine ⟨⟨e, ?_⟩, ?_⟩
  · have hna : t.command ≠ "alert" := by rcases hcmd with h | h | h <;> rw [h] <;> decide
    have : logText n.ver level ⟨t.command, vs⟩ = .error e := by
      rw [logText, if_pos (show level ≤ levelProtocol from hl), msgStr, if_neg hna, hE]
    simp only [Node.handleMessageLogged, this]
  · have h1 : t.command ≠ "version" := by rcases hcmd with h | h | h <;> rw [h] <;> decide
    have h2 : t.command ≠ "verack" := by rcases hcmd with h | h | h <;> rw [h] <;> decide
    have h3 : t.command ≠ "ping" := by rcases hcmd with h | h | h <;> rw [h] <;> decide
    have h4 : t.command ≠ "getaddr" := by rcases hcmd with h | h | h <;> rw [h] <;> decide
    have h5 : t.command ≠ "addr" := by rcases hcmd with h | h | h <;> rw [h] <;> decide
    simp only [Node.handleMessage, Node.dispatch, if_neg h1, if_neg h2, if_neg h3, if_neg h4, if_neg h5]

/-! ### Frames -/

theorem unhandled (n : Node) (c : Nat) (m : Msg) (now : Int)
    (h : m.command ≠ "version" ∧ m.command ≠ "verack" ∧ m.command ≠ "ping" ∧ m.command ≠ "getaddr" ∧
      m.command ≠ "addr") : n.handleMessage H c m now = (n, none) := by
  obtain ⟨h1, h2, h3, h4, h5⟩ := h
  simp only [Node.handleMessage, Node.dispatch, if_neg h1, if_neg h2, if_neg h3, if_neg h4, if_neg h5]

/-- C131 for what a `BaseNode` receives: whatever the frame, the log level and the version of Python, the node is
afterwards as it would be without logging. -/
theorem C131_frames (level : Int) (n : Node) (c : Nat) (now : Int) (frame : Bytes) :
    n.handleFrameLogged H level c now frame = n.handleFrame H c now frame := by
  unfold Node.handleFrameLogged Node.handleFrame
  cases hm : parseMessage H frame n.magic with
  | error e => rfl
  | ok m =>
    simp only
    by_cases h : m.command ≠ "version" ∧ m.command ≠ "verack" ∧ m.command ≠ "ping" ∧ m.command ≠ "getaddr" ∧
      m.command ≠ "addr"
    · rw [unhandled n c m now h]
      unfold Node.handleMessageLogged
      split
      · rfl
      · rw [unhandled n c m now h]
    · have hc : m.command = "version" ∨ m.command = "verack" ∨ m.command = "ping" ∨ m.command = "getaddr" ∨
          m.command = "addr" := by
        by_contra hno
        push Not at hno
        exact h hno
      obtain ⟨t, ht, payload, o, hp, hct⟩ := parsed_type hm
      have ha : m.command ≠ "alert" := by rcases hc with h | h | h | h | h <;> rw [h] <;> decide
      have hh : t.command ≠ "getblocks" ∧ t.command ≠ "getheaders" ∧ t.command ≠ "merkleblock" := by
        rw [← hct]
        rcases hc with h | h | h | h | h <;> rw [h] <;> decide
      obtain ⟨cmd, vs⟩ := m
      simp only at hp hct ha
      subst hct
      have : logText n.ver level ⟨t.command, vs⟩ = .ok () := by
        unfold logText
        split
        · simp only [msgStr, if_neg ha]
          exact fields_print (msg_print n.ver ht (.inr hh) ha) (registry_nodup ht) hp
        split
        · exact msg_debug n.ver ht ha hp
        · rfl
      simp only [Node.handleMessageLogged, this]

/-! ### The node's own messages -/

theorem init_field {ps : Proto.Props} (hn : (ps.map (·.1)).Nodup) {params out : List (String × Val)}
    (h : initLoop params ps = .ok out) {k : String} {T : FType} (hk : (k, T) ∈ ps) :
    ∃ x v, getField params k = .ok x ∧ T.validate x = .ok v ∧ v.isNone = false ∧ getField out k = .ok v := by
  induction ps generalizing out with
  | nil => cases hk
  | cons p ps ih =>
    obtain ⟨k', T'⟩ := p
    simp only [initLoop, bind_ok_iff] at h
    obtain ⟨x, hx, v, hv, h⟩ := h
    split at h
    · cases h
    · rename_i hnone
      simp only [bind_ok_iff] at h
      obtain ⟨r, hr, h⟩ := h
      injection h with h
      subst h
      rw [List.map_cons, List.nodup_cons] at hn
      rcases List.mem_cons.1 hk with e | hk
      · cases e
        exact ⟨x, v, hx, hv, by simpa using hnone, getField_head⟩
      · obtain ⟨x', v', h1, h2, h3, h4⟩ := ih hn.2 hr hk
        have : k' ≠ k := by
          rintro rfl
          exact hn.1 (List.mem_map_of_mem (f := (·.1)) hk)
        exact ⟨x', v', h1, h2, h3, by rw [getField_cons_ne this]; exact h4⟩

/-- An object made by `NetworkAddress(..)`. -/
def Built (v : Val) : Prop :=
  ∃ params out, initLoop params networkAddress.props = .ok out ∧ v = .obj "NetworkAddress" out

theorem built_new {t s v : Val} {ip : List Char} {p : Int} (h : newNetworkAddress t s ip p = .ok v) : Built v := by
  simp only [newNetworkAddress, bind_ok_iff] at h
  obtain ⟨f, hf, h⟩ := h
  injection h with h
  obtain ⟨params, hp⟩ := compInit_loop hf
  exact ⟨params, f, hp, h.symm⟩

theorem built_print {v : Val} (h : Built v) : strObject networkAddressStr v = .ok .text := by
  obtain ⟨params, out, h, rfl⟩ := h
  have hf : ∀ k T, (k, T) ∈ networkAddress.props → ∃ w, getField out k = .ok w := fun k T hk => by
    obtain ⟨-, w, -, -, -, hw⟩ := init_field (by decide) h hk
    exact ⟨w, hw⟩
  obtain ⟨w₁, h₁⟩ := hf "timestamp" _ (List.mem_cons_self ..)
  obtain ⟨w₂, h₂⟩ := hf "services" (ftNumber .Q) (by simp [networkAddress])
  obtain ⟨w₃, h₃⟩ := hf "address" ftIPAddress (by simp [networkAddress])
  obtain ⟨w₄, h₄⟩ := hf "port" (ftNumber .H (big := true)) (by simp [networkAddress])
  simp only [strObject, networkAddressStr, compStr, h₁, h₂, h₃, h₄, strPlain, ok_bind]

theorem built_debug (ver : PyVer) {v : Val} (h : Built v) : debugValue ver v = .ok () := by
  obtain ⟨params, out, h, rfl⟩ := h
  obtain ⟨-, w₃, -, -, -, h₃⟩ := init_field (by decide) h (k := "address") (T := ftIPAddress) (by simp [networkAddress])
  obtain ⟨x, w₄, -, hv, hnone, h₄⟩ := init_field (by decide) h (k := "port") (T := ftNumber .H (big := true))
    (by simp [networkAddress])
  have : ∃ i, toInt w₄ = .ok i := by
    simp only [ftNumber, numValidate] at hv
    cases x with
    | int i =>
      simp only [Except.ok.injEq] at hv
      split at hv
      · rw [← hv]; exact ⟨i, rfl⟩
      · rw [← hv] at hnone; cases hnone
    | float m k =>
      simp only [Bool.false_eq_true, if_false, Except.ok.injEq] at hv
      rw [← hv] at hnone; cases hnone
    | _ =>
      simp only [Except.ok.injEq] at hv
      rw [← hv] at hnone; cases hnone
  obtain ⟨i, hi'⟩ := this
  simp only [debugValue, if_true, h₃, h₄, hi', ok_bind]

theorem validate_bytes {n : Nat} {x v : Val} (h : (ftBytes n).validate x = .ok v) (hn : v.isNone = false) :
    ∃ b, v = .bytes b := by
  simp only [ftBytes] at h
  cases x with
  | bytes b =>
    simp only [Except.ok.injEq] at h
    split at h
    · exact ⟨b, h.symm⟩
    · rw [← h] at hn; cases hn
  | _ =>
    simp only [Except.ok.injEq] at h
    rw [← h] at hn; cases hn

theorem validate_address {x v : Val} (h : ftNetworkAddressNoTimestamp.validate x = .ok v) (hn : v.isNone = false) :
    v = x := by
  simp only [ftNetworkAddressNoTimestamp, ftNetworkAddress, ftCompound] at h
  cases x with
  | obj c f =>
    simp only [Except.ok.injEq] at h
    split at h
    · exact h.symm
    · rw [← h] at hn; cases hn
  | _ =>
    simp only [Except.ok.injEq] at h
    rw [← h] at hn; cases hn

/-- Values that `_debug` shows as they are. -/
def Simple : Val → Prop
  | .obj _ _ => False
  | .tuple _ => False
  | _ => True

theorem simple_debug {ver : PyVer} {v : Val} (h : Simple v) : DebugOk ver v := by
  cases v with
  | obj _ _ => cases h
  | tuple _ => cases h
  | _ => exact rfl

theorem validate_number {f : Fmt} {big : Bool} {x v : Val} (h : (ftNumber f big).validate x = .ok v) : Simple v := by
  simp only [ftNumber, numValidate] at h
  cases x with
  | int i =>
    simp only [Except.ok.injEq] at h
    split at h <;> · rw [← h]; exact trivial
  | float m k =>
    simp only [Bool.false_eq_true, if_false, Except.ok.injEq] at h
    rw [← h]; exact trivial
  | _ => simp only [Except.ok.injEq] at h; rw [← h]; exact trivial

theorem validate_string {x v : Val} (h : ftVarString.validate x = .ok v) : Simple v := by
  simp only [ftVarString] at h
  cases x <;> · simp only [Except.ok.injEq] at h; rw [← h]; exact trivial

theorem same_send {level : Int} {n : Node} {c : Nat} {t : MsgType} {fields : List (String × Val)}
    (ha : t.command ≠ "alert") (h1 : compStr (msgStrFns n.ver t.command) fields = .ok ())
    (h2 : msgDebug n.ver ⟨t.command, fields⟩ = .ok ()) :
    n.sendMessageLogged H level c t fields = n.sendMessage H c t fields := by
  have : logText n.ver level ⟨t.command, fields⟩ = .ok () := by
    unfold logText
    split
    · simp only [msgStr, if_neg ha, h1]
    split
    · exact h2
    · rfl
  simp only [Node.sendMessageLogged, this]

/-- C131 for what a node sends of its own accord: the greeting (`connection.py:61-71`), `verack` and `getaddr`,
`ping` and `pong`, and the answer to `getaddr` are sent as without logging. -/
theorem C131_own (level : Int) (n : Node) (c : Nat) :
    (∀ (n' : Node) address now nonce fields, n'.versionFields address now nonce = .ok fields →
      n.sendMessageLogged H level c msgVersion fields = n.sendMessage H c msgVersion fields) ∧
    (∀ t, t = msgVerack ∨ t = msgGetaddr →
      n.sendMessageLogged H level c t [] = n.sendMessage H c t []) ∧
    (∀ t nonce fields, t = msgPing ∨ t = msgPong → compInit t.props [nonce] [] = .ok fields →
      n.sendMessageLogged H level c t fields = n.sendMessage H c t fields) ∧
    (∀ entries l fields, collect entries [] = .ok l → compInit msgAddr.props [.tuple l] [] = .ok fields →
      n.sendMessageLogged H level c msgAddr fields = n.sendMessage H c msgAddr fields) := by
  refine ⟨?_, ?_, ?_, ?_⟩
  · intro n' address now nonce fields h
    simp only [Node.versionFields, bind_ok_iff] at h
    obtain ⟨recv, hr, frm, hf, h⟩ := h
    have hr' := built_new hr
    have hf' := built_new hf
    unfold compInit at h
    simp only at h
    split_ifs at h
    have hfld := fun (k : String) (T : FType) (hk : (k, T) ∈ msgVersion.props) => init_field (by decide) h hk
    obtain ⟨_, v₁, -, c₁, -, g₁⟩ := hfld "version" (ftNumber .i) (by simp [msgVersion])
    obtain ⟨_, v₂, -, c₂, -, g₂⟩ := hfld "services" (ftNumber .Q) (by simp [msgVersion])
    obtain ⟨-, v₃, -, -, -, g₃⟩ := hfld "timestamp" (ftNumber .q (allowFloat := true)) (by simp [msgVersion])
    obtain ⟨x₄, v₄, e₄, c₄, d₄, g₄⟩ := hfld "addr_recv" ftNetworkAddressNoTimestamp (by simp [msgVersion])
    obtain ⟨x₅, v₅, e₅, c₅, d₅, g₅⟩ := hfld "addr_from" ftNetworkAddressNoTimestamp (by simp [msgVersion])
    obtain ⟨_, v₆, -, c₆, d₆, g₆⟩ := hfld "nonce" (ftBytes 8) (by simp [msgVersion])
    obtain ⟨_, v₇, -, c₇, -, g₇⟩ := hfld "user_agent" ftVarString (by simp [msgVersion])
    obtain ⟨_, v₈, -, c₈, -, g₈⟩ := hfld "start_height" (ftNumber .i) (by simp [msgVersion])
    obtain ⟨-, v₉, -, -, -, g₉⟩ := hfld "relay" (ftOptional (ftNumber .B) (.int 1)) (by simp [msgVersion])
    have e₄' : x₄ = recv := by
      rw [show getField _ "addr_recv" = .ok recv from rfl] at e₄
      injection e₄ with e; exact e.symm
    have e₅' : x₅ = frm := by
      rw [show getField _ "addr_from" = .ok frm from rfl] at e₅
      injection e₅ with e; exact e.symm
    obtain rfl := (validate_address c₄ d₄).trans e₄'
    obtain rfl := (validate_address c₅ d₅).trans e₅'
    obtain ⟨b, rfl⟩ := validate_bytes c₆ d₆
    refine same_send (by decide) ?_ ?_
    · show compStr (msgStrFns n.ver "version") fields = _
      simp only [msgStrFns, if_true, compStr, g₁, g₂, g₃, g₄, g₅, g₆, g₇, g₈, g₉, strPlain, ok_bind,
        built_print hr', built_print hf', strBytes]
    · exact (show (do let vs ← getFields fields ["version", "services", "user_agent", "start_height"]
                      debugParams n.ver vs) = .ok () by
        simp only [getFields, List.mapM_cons, List.mapM_nil, g₁, g₂, g₇, g₈, ok_bind, pure_bind]
        exact debugParams_ok (by
          simp only [List.forall_mem_cons]
          exact ⟨simple_debug (validate_number c₁), simple_debug (validate_number c₂),
            simple_debug (validate_string c₇), simple_debug (validate_number c₈), by simp⟩))
  · rintro t (rfl | rfl)
    · exact same_send (by decide) rfl rfl
    · exact same_send (by decide) rfl rfl
  · intro t nonce fields ht h
    obtain ⟨params, h⟩ := compInit_loop h
    rcases ht with rfl | rfl
    · obtain ⟨_, v, -, c', d', g⟩ := init_field (by decide) h (k := "nonce") (T := ftBytes 8) (by simp [msgPing])
      obtain ⟨b, rfl⟩ := validate_bytes c' d'
      refine same_send (by decide) ?_ ?_
      · show compStr [("nonce", strBytes n.ver)] fields = _
        simp only [compStr, g, ok_bind, strBytes]
      · exact (show (do let v ← getField fields "nonce"; hexlifyOk v) = .ok () by
          simp only [g, ok_bind, hexlifyOk])
    · obtain ⟨_, v, -, c', d', g⟩ := init_field (by decide) h (k := "nonce") (T := ftBytes 8) (by simp [msgPong])
      obtain ⟨b, rfl⟩ := validate_bytes c' d'
      refine same_send (by decide) ?_ ?_
      · show compStr [("nonce", strBytes n.ver)] fields = _
        simp only [compStr, g, ok_bind, strBytes]
      · exact (show (do let v ← getField fields "nonce"; hexlifyOk v) = .ok () by
          simp only [g, ok_bind, hexlifyOk])
  · intro entries l fields hl h
    have hcol : ∀ (es : List (Addr × Val × Val)) (acc l : List Val), (∀ v ∈ acc, Built v) →
        collect es acc = .ok l → ∀ v ∈ l, Built v := by
      intro es
      induction es with
      | nil => intro acc l ha h; injection h with h; rw [← h]; exact ha
      | cons e es ih =>
        obtain ⟨address, timestamp, services⟩ := e
        intro acc l ha h
        simp only [collect] at h
        split at h
        · exact ih acc l ha h
        · simp only [bind_ok_iff] at h
          obtain ⟨a, hna, h⟩ := h
          have hb := built_new hna
          have ha' : ∀ v ∈ acc ++ [a], Built v := by
            intro v hv
            rcases List.mem_append.1 hv with hv | hv
            · exact ha v hv
            · rw [List.mem_singleton.1 hv]; exact hb
          split at h
          · injection h with h; rw [← h]; exact ha'
          · exact ih _ l ha' h
    have hb := hcol entries [] l (by simp) hl
    unfold compInit at h
    simp only at h
    split_ifs at h
    obtain ⟨x, v, e, c', d', g⟩ := init_field (by decide) h (k := "addr_list")
      (T := ftArray ftNetworkAddress none (some 1000)) (by simp [msgAddr])
    have e' : x = .tuple l := by
      rw [show getField _ "addr_list" = .ok (.tuple l) from rfl] at e
      injection e with e; exact e.symm
    subst e'
    have hv : v = .tuple l := by
      have hm : ∀ ys : List Val, (∀ y ∈ ys, Built y) → ys.mapM ftNetworkAddress.validate = .ok ys := by
        intro ys hys
        induction ys with
        | nil => rfl
        | cons y ys ih =>
          obtain ⟨p, o, -, rfl⟩ := hys y (by simp)
          rw [List.mapM_cons, ih (fun z hz => hys z (by simp [hz]))]
          rfl
      simp only [ftArray] at c'
      split_ifs at c'
      · injection c' with c'; rw [← c'] at d'; cases d'
      · injection c' with c'; rw [← c'] at d'; cases d'
      · rw [hm l hb, ok_bind] at c'
        injection c' with c'
        split at c'
        · rw [← c'] at d'; cases d'
        · exact c'.symm
    subst hv
    refine same_send (by decide) ?_ ?_
    · show compStr [("addr_list", strArray (strObject networkAddressStr))] fields = _
      simp only [compStr, g, ok_bind, strArray, mapM_text (fun y hy => built_print (hb y hy)), joinText_replicate]
    · refine debug_one n.ver g ?_
      cases l with
      | nil => exact trivial
      | cons y ys => exact built_debug n.ver (hb y (by simp))

/-! ### Alerts -/

theorem mapM_bytes_py2 : ∀ l : List Val, (∀ v ∈ l, ∃ b, v = .bytes b) →
    l.mapM (strBytes .py2) = .ok (List.replicate l.length TextKind.text)
  | [], _ => rfl
  | v :: vs, h => by
    obtain ⟨b, rfl⟩ := h v (by simp)
    rw [List.mapM_cons, mapM_bytes_py2 vs (fun w hw => h w (by simp [hw]))]
    rfl

/-- The fields of an alert and the entry `set_sub_ver`. -/
theorem alert_sub {vs : List (String × Val)} {b : Bytes} {vs' : List (String × Val)}
    (h : wFields alertFields vs b vs') : ∃ l, ("set_sub_ver", Val.tuple l) ∈ vs' ∧ ∀ v ∈ l, ∃ b, v = .bytes b := by
  obtain ⟨-, -, -, _, _, _, -, h, -, -, rfl⟩ := h
  obtain ⟨-, -, -, _, _, _, -, h, -, -, rfl⟩ := h
  obtain ⟨-, -, -, _, _, _, -, h, -, -, rfl⟩ := h
  obtain ⟨-, -, -, _, _, _, -, h, -, -, rfl⟩ := h
  obtain ⟨-, -, -, _, _, _, -, h, -, -, rfl⟩ := h
  obtain ⟨-, -, -, _, _, _, -, h, -, -, rfl⟩ := h
  obtain ⟨-, -, -, _, _, _, -, h, -, -, rfl⟩ := h
  obtain ⟨-, -, -, _, _, _, -, h, -, -, rfl⟩ := h
  obtain ⟨v, _, v', _, _, _, hv, h, -, -, rfl⟩ := h
  obtain ⟨items, hi', -, -, -, -, -, rfl⟩ := hv
  refine ⟨items.map (fun x => x.2.2), by simp, ?_⟩
  intro w hw
  obtain ⟨i, hi, rfl⟩ := List.mem_map.1 hw
  obtain ⟨s, -, -, -, e⟩ := hi' i hi
  exact ⟨s, e⟩

/-- C131 for an alert with a well-formed payload: in Python 2, at level 1 and above, and when it names no
sub-versions, the node goes on as it does without logging.  Missing: `C131_alert_false`. -/
theorem C131_alert_partial (level : Int) (n : Node) (c : Nat) (now : Int) (fields vs : List (String × Val))
    (b rest : Bytes) (vs' : List (String × Val)) (h : wFields alertFields vs b vs')
    (hp : getField fields "payload" = .ok (.bytes (b ++ rest)))
    (hs : n.ver = .py2 ∨ 0 < level ∨ ("set_sub_ver", Val.tuple []) ∈ vs') :
    n.handleMessageLogged H level c ⟨"alert", fields⟩ now = n.handleMessage H c ⟨"alert", fields⟩ now := by
  have hf := alert_fill vs b vs' h rest
  have hk := (wFields_keys h).2
  have hnd : (vs'.map (·.1)).Nodup := by
    rw [hk]
    decide
  have hget : ∀ k ∈ alertFields.map (·.1), ∃ v, getField vs' k = .ok v := by
    intro k hk'
    rw [← hk] at hk'
    obtain ⟨⟨k', v⟩, hm, rfl⟩ := List.mem_map.1 hk'
    exact ⟨v, getField_mem hnd hm⟩
  have : logText n.ver level ⟨"alert", fields⟩ = .ok () := by
    unfold logText
    split
    · rename_i hl
      have hl : level ≤ 0 := hl
      obtain ⟨w, hw⟩ := hget "version" (by decide)
      obtain ⟨l, hm, hb⟩ := alert_sub h
      have hg := getField_mem hnd hm
      have hj : ∃ ks, l.mapM (strBytes n.ver) = .ok ks ∧ joinText ks = .ok () := by
        rcases hs with hs | hs | hs
        · rw [hs]
          exact ⟨_, mapM_bytes_py2 l hb, joinText_replicate _⟩
        · omega
        · rw [getField_mem hnd hs] at hg
          simp only [Except.ok.injEq, Val.tuple.injEq] at hg
          rw [← hg]
          exact ⟨[], rfl, rfl⟩
      obtain ⟨ks, h1, h2⟩ := hj
      simp only [msgStr, if_true, alertStr, hp, payloadBytes, alertGet, hf, ok_bind, hw, hg, subVersions, h1, h2]
    split
    · obtain ⟨w, hw⟩ := hget "status_bar" (by decide)
      have : msgDebug n.ver ⟨"alert", fields⟩ = (do
          let p ← getField fields "payload"
          let payload ← payloadBytes p
          let _ ← (alertGet payload [] "status_bar").2
          .ok ()) := rfl
      rw [this]
      simp only [hp, payloadBytes, alertGet, hf, ok_bind, hw]
    · rfl
  simp only [Node.handleMessageLogged, this]

/-- C131 fails for alerts: at the levels 0 and 1 a payload that breaks off keeps the handler from being called, in
either version of Python; at level 0 in Python 3 so does every well-formed payload that names a sub-version. -/
theorem C131_alert_false :
    (∀ (level : Int), level ≤ 1 → ∀ (n : Node) (c : Nat) (now : Int) (fields d : List (String × Val)) (p : Bytes)
      (e : PyErr), getField fields "payload" = .ok (.bytes p) → alertFill alertSteps p = (d, some e) →
      n.handleMessageLogged H level c ⟨"alert", fields⟩ now = (n, some e)) ∧
    (∀ (level : Int), level ≤ 0 → ∀ (n : Node), n.ver = .py3 → ∀ (c : Nat) (now : Int)
      (fields vs : List (String × Val)) (b rest : Bytes) (vs' : List (String × Val)), wFields alertFields vs b vs' →
      getField fields "payload" = .ok (.bytes (b ++ rest)) → ("set_sub_ver", Val.tuple []) ∉ vs' →
      n.handleMessageLogged H level c ⟨"alert", fields⟩ now = (n, some .typeError)) ∧
    ∀ (n : Node) (c : Nat) (now : Int) (fields : List (String × Val)),
      n.handleMessage H c ⟨"alert", fields⟩ now = (n, none) := by
  refine ⟨?_, ?_, ?_⟩
  · intro level hl n c now fields d p e hp hf
    have : logText n.ver level ⟨"alert", fields⟩ = .error e := by
      unfold logText
      split
      · simp only [msgStr, if_true, alertStr, hp, payloadBytes, alertGet, hf, ok_bind, error_bind]
      split
      · have : msgDebug n.ver ⟨"alert", fields⟩ = (do
            let p ← getField fields "payload"
            let payload ← payloadBytes p
            let _ ← (alertGet payload [] "status_bar").2
            .ok ()) := rfl
        rw [this]
        simp only [hp, payloadBytes, alertGet, hf, ok_bind, error_bind]
      · exact absurd hl ‹_›
    simp only [Node.handleMessageLogged, this]
  · intro level hl n hv c now fields vs b rest vs' h hp hs
    have hf := alert_fill vs b vs' h rest
    have hk := (wFields_keys h).2
    have hnd : (vs'.map (·.1)).Nodup := by
      rw [hk]
      decide
    obtain ⟨w, hw⟩ : ∃ v, getField vs' "version" = .ok v := by
      have hk' : "version" ∈ vs'.map (·.1) := by rw [hk]; decide
      obtain ⟨⟨k', v⟩, hm, rfl⟩ := List.mem_map.1 hk'
      exact ⟨v, getField_mem hnd hm⟩
    obtain ⟨l, hm, hb⟩ := alert_sub h
    have hg := getField_mem hnd hm
    have hj : ∃ ks, l.mapM (strBytes n.ver) = .ok ks ∧ joinText ks = .error .typeError := by
      cases l with
      | nil => exact absurd hm hs
      | cons v l =>
        have hall : ∀ l : List Val, (∀ v ∈ l, ∃ b, v = .bytes b) →
            l.mapM (strBytes .py3) = .ok (List.replicate l.length TextKind.bytes) := by
          intro l hb
          induction l with
          | nil => rfl
          | cons v l ih =>
            obtain ⟨b, rfl⟩ := hb v (by simp)
            rw [List.mapM_cons, ih (fun w hw => hb w (by simp [hw]))]
            rfl
        rw [hv]
        exact ⟨_, hall _ hb, by simp [joinText]⟩
    obtain ⟨ks, h1, h2⟩ := hj
    have : logText n.ver level ⟨"alert", fields⟩ = .error .typeError := by
      unfold logText
      rw [if_pos (show level ≤ levelProtocol from hl)]
      simp only [msgStr, if_true, alertStr, hp, payloadBytes, alertGet, hf, ok_bind, hw, hg, subVersions, h1, h2]
    simp only [Node.handleMessageLogged, this]
  · intro n c now fields
    exact unhandled n c _ now (show "alert" ≠ "version" ∧ "alert" ≠ "verack" ∧ "alert" ≠ "ping" ∧
      "alert" ≠ "getaddr" ∧ "alert" ≠ "addr" by decide)

/-- An alert that breaks off after the first five fields: it is handed to the handler unless the level is 0 or 1. -/
example (n : Node) : n.handleMessageLogged H 1 0 ⟨"alert", [("payload", .bytes (List.replicate 28 0))]⟩ 0
    = (n, some .indexError) ∧
    n.handleMessageLogged H 2 0 ⟨"alert", [("payload", .bytes (List.replicate 28 0))]⟩ 0 = (n, none) :=
  ⟨C131_alert_false.1 1 (by decide) n 0 0 _ _ _ _ rfl rfl, rfl⟩

/-! ### Sending -/

/-- A request for the headers after a block. -/
theorem locator_wire (version : Int) (hver : inRange .I version) (block stop : Bytes) (hb : block.length = 32)
    (hs : stop.length = 32) : wFields locatorFields [("version", .int version),
      ("block_locator_hashes", .tuple [.bytes block]), ("hash_stop", .bytes stop)]
      (numBytes .I false version ++ (([1] ++ block) ++ (stop ++ []))) [("version", .int version),
      ("block_locator_hashes", .tuple [.bytes block]), ("hash_stop", .bytes stop)] := by
  refine ⟨_, _, _, _, _, _, .inl ⟨version, rfl, hver, rfl, rfl⟩, ⟨_, _, _, _, _, _,
    ⟨[(.bytes block, block, .bytes block)], ?_, by simp, by simp, (by show 1 < varLimit; decide), rfl, ?_, rfl⟩,
    ⟨_, _, _, _, _, _, ⟨hs, rfl, rfl⟩, ⟨rfl, rfl, rfl⟩, rfl, rfl, rfl⟩, rfl, rfl, rfl⟩, rfl, rfl, rfl⟩
  · intro t ht
    rw [List.mem_singleton.1 ht]
    exact ⟨hb, rfl, rfl⟩
  · simp only [List.map_cons, List.map_nil, List.flatten_cons, List.flatten_nil, List.append_nil]
    rfl

/-- C131 fails for sending: in Python 3 at the level of the protocol a node cannot ask for the headers after a block,
though it can without logging. -/
theorem C131_send_false (level : Int) (hl : level ≤ 0) (n : Node) (hv : n.ver = .py3) (hm : n.magic.length = 4) (c : Nat)
    (version : Int) (hver : inRange .I version) (block stop : Bytes) (hb : block.length = 32) (hs : stop.length = 32) :
    n.sendMessageLogged H level c msgGetheaders [("version", .int version),
      ("block_locator_hashes", .tuple [.bytes block]), ("hash_stop", .bytes stop)] = (n, some .typeError) ∧
    n.sendMessage H c msgGetheaders [("version", .int version),
      ("block_locator_hashes", .tuple [.bytes block]), ("hash_stop", .bytes stop)] =
      (n.upd c (fun k => { k with sendBuf := k.sendBuf ++ wireFrame H n.magic "getheaders" (numBytes .I false version ++ ([1] ++ block) ++ stop) }), none) := by
  constructor
  · have : logText n.ver level ⟨"getheaders", [("version", .int version),
        ("block_locator_hashes", .tuple [.bytes block]), ("hash_stop", .bytes stop)]⟩ = .error .typeError := by
      unfold logText
      rw [if_pos (show level ≤ levelProtocol from hl), hv]
      rfl
    simp only [Node.sendMessageLogged]
    rw [show msgGetheaders.command = "getheaders" from rfl, this]
  · have hw := locator_wire version hver block stop hb hs
    have hlen : (numBytes .I false version).length = 4 := size_eq .I false version
    obtain ⟨t, ht, hc, -, -, hbin, -⟩ := C63_message H "getheaders" locatorFields (by simp [messages]) _ _ _ n.magic [] hw
      (by simp only [List.length_append, hlen, hb, hs, List.length_singleton, List.length_nil]; decide) hm
    have : t = msgGetheaders := by
      simp only [registry, List.mem_cons, List.not_mem_nil, or_false] at ht
      rcases ht with rfl | rfl | rfl | rfl | rfl | rfl | rfl | rfl | rfl | rfl | rfl | rfl | rfl | rfl | rfl | rfl | rfl |
        rfl | rfl | rfl | rfl <;> first | rfl | exact absurd hc (by decide)
    subst this
    simp only [Node.sendMessage, hbin, List.append_nil, List.append_assoc]

/-- A request for headers in Python 3: at level 0 it is not handed to the handler, at level 1 it is; in Python 2 it is at
both. -/
example (n : Node) (hv : n.ver = .py3) (n' : Node) (hv' : n'.ver = .py2) (magic : Bytes) (hm : magic.length = 4) :
    ∃ data m, parseMessage H data magic = .ok m ∧
      (∃ e, n.handleMessageLogged H 0 0 m 0 = (n, some e)) ∧
      n.handleMessageLogged H 1 0 m 0 = n.handleMessage H 0 m 0 ∧
      n'.handleMessageLogged H 0 0 m 0 = n'.handleMessage H 0 m 0 := by
  have hw := locator_wire 70001 ⟨by decide, by decide⟩ (List.replicate 32 5) (List.replicate 32 0) (by simp) (by simp)
  obtain ⟨t, ht, hc, -, -, -, hp⟩ := C63_message H "getheaders" locatorFields (by simp [messages]) _ _ _ magic [] hw
    (by decide) hm
  exact ⟨_, _, hp, (C131_hashes_false 0 (by decide) n hv 0 _ 0 _ _ hp
      (fun h => h "block_locator_hashes" (.bytes (List.replicate 32 5)) [] (by decide) rfl)).1,
    C131_received_partial 1 n 0 _ 0 _ _ hp (show "getheaders" ≠ "alert" by decide) (.inr (.inl (by decide))),
    C131_received_partial 0 n' 0 _ 0 _ _ hp (show "getheaders" ≠ "alert" by decide) (.inl hv')⟩

end NBC.Props
