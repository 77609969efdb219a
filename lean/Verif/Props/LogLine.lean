import Verif.Proofs.LogLine
import Verif.Props.LogText

/-!
# Property C157: what a peer sends cannot forge lines in the log
-/

namespace NBC.Props
open NBC NBC.Spec NBC.Spec.Wire NBC.Proto NBC.P2P
open NBC.Aes (PyVer)

variable {H : Hashes}

/-- The lines of a text that are ended, `cur` being what stands before it on the first one. -/
def linesFrom : List Char → List Char → List (List Char)
  | _, [] => []
  | cur, c :: cs => if c = '\n' then cur :: linesFrom [] cs else linesFrom (cur ++ [c]) cs

/-- The lines of a log with these entries. -/
def logLines (entries : List (List Char)) : List (List Char) := linesFrom [] entries.flatten

/-! ### The long texts -/

theorem addressText_clean (ver : PyVer) : CleanFn ftNetworkAddress (textObject ver "NetworkAddress" (networkAddressText ver)) :=
  object_clean (by decide) (.cons (number_clean ver _ _ _) (.cons (number_clean ver _ _ _) (.cons (ip_clean ver)
    (.cons (number_clean ver _ _ _) .nil)))) (by decide) (by cases ver <;> decide)

theorem addressText'_clean (ver : PyVer) :
    CleanFn ftNetworkAddressNoTimestamp (textObject ver "NetworkAddress" (networkAddressText ver)) := by
  rintro v ⟨d, l, h⟩
  simp only [ftNetworkAddressNoTimestamp, bind_ok_iff] at h
  obtain ⟨⟨l', v'⟩, h1, h2⟩ := h
  simp only [Except.ok.injEq, Prod.mk.injEq] at h2
  rw [← h2.2]
  exact addressText_clean ver v' ⟨_, _, h1⟩

theorem inventoryText_clean (ver : PyVer) :
    CleanFn (ftCompound inventoryVector) (textObject ver "InventoryVector" (inventoryVectorText ver)) :=
  object_clean (by decide) (.cons (number_clean ver _ _ _) (.cons (bytes_clean ver 32) .nil)) (by decide)
    (by cases ver <;> decide)

theorem outPointText_clean (ver : PyVer) : CleanFn (ftCompound outPoint) (textObject ver "OutPoint" (outPointText ver)) :=
  object_clean (by decide) (.cons (bytes_clean ver 32) (.cons (number_clean ver _ _ _) .nil)) (by decide)
    (by cases ver <;> decide)

theorem txnIn_all (ver : PyVer) : CleanAll txnIn.props (txnInText ver) :=
  .cons (outPointText_clean ver) (.cons (string_clean ver) (.cons (number_clean ver _ _ _) .nil))

theorem txnOut_all (ver : PyVer) : CleanAll txnOut.props (txnOutText ver) :=
  .cons (number_clean ver _ _ _) (.cons (string_clean ver) .nil)

theorem txn_all (ver : PyVer) : CleanAll txn.props (txnText ver) :=
  .cons (number_clean ver _ _ _)
    (.cons (array_clean (object_clean (by decide) (txnIn_all ver) (by decide) (by cases ver <;> decide)) _ _)
      (.cons (array_clean (object_clean (by decide) (txnOut_all ver) (by decide) (by cases ver <;> decide)) _ _)
        (.cons (number_clean ver _ _ _) .nil)))

theorem blockHeader_all (ver : PyVer) : CleanAll blockHeader.props (blockHeaderText ver) :=
  .cons (number_clean ver _ _ _) (.cons (bytes_clean ver 32) (.cons (bytes_clean ver 32)
    (.cons (number_clean ver _ _ _) (.cons (number_clean ver _ _ _) (.cons (number_clean ver _ _ _)
      (.cons (size_clean ver) .nil))))))

theorem msg_all (ver : PyVer) {t : MsgType} (ht : t ∈ registry) (ha : t.command ≠ "alert") :
    CleanAll t.props (msgTextFns ver t.command) ∧ (∀ k ∈ (msgTextFns ver t.command).map (·.1), Clean (lit k)) := by
  have hn : ∀ f big af, CleanFn (ftNumber f big af) (textPlain ver) := number_clean ver
  have hs := string_clean ver
  simp only [registry, List.mem_cons, List.not_mem_nil, or_false] at ht
  rcases ht with rfl | rfl | rfl | rfl | rfl | rfl | rfl | rfl | rfl | rfl | rfl | rfl | rfl | rfl | rfl | rfl |
    rfl | rfl | rfl | rfl | rfl
  · exact ⟨.cons (hn _ _ _) (.cons (hn _ _ _) (.cons (hn _ _ _) (.cons (addressText'_clean ver)
      (.cons (addressText'_clean ver) (.cons (bytes_clean ver 8) (.cons hs (.cons (hn _ _ _)
        (.cons (optional_clean ver _ _) .nil)))))))), by cases ver <;> decide⟩
  · exact ⟨.nil, by cases ver <;> decide⟩
  · exact ⟨.cons (array_clean (addressText_clean ver) _ _) .nil, by cases ver <;> decide⟩
  · exact ⟨.cons (array_clean (inventoryText_clean ver) _ _) .nil, by cases ver <;> decide⟩
  · exact ⟨.cons (array_clean (inventoryText_clean ver) _ _) .nil, by cases ver <;> decide⟩
  · exact ⟨.cons (array_clean (inventoryText_clean ver) _ _) .nil, by cases ver <;> decide⟩
  · exact ⟨.cons (hn _ _ _) (.cons (array_clean (bytes_clean ver 32) _ _) (.cons (bytes_clean ver 32) .nil)),
      by cases ver <;> decide⟩
  · exact ⟨.cons (hn _ _ _) (.cons (array_clean (bytes_clean ver 32) _ _) (.cons (bytes_clean ver 32) .nil)),
      by cases ver <;> decide⟩
  · exact ⟨txn_all ver, by cases ver <;> decide⟩
  · exact ⟨.cons (hn _ _ _) (.cons (bytes_clean ver 32) (.cons (bytes_clean ver 32) (.cons (hn _ _ _) (.cons (hn _ _ _)
      (.cons (hn _ _ _) (.cons (array_clean (object_clean (by decide) (txn_all ver) (by decide)
        (by cases ver <;> decide)) _ _) .nil)))))), by cases ver <;> decide⟩
  · exact ⟨.cons (array_clean (object_clean (by decide) (blockHeader_all ver) (by decide) (by cases ver <;> decide)) _ _) .nil,
      by cases ver <;> decide⟩
  · exact ⟨.nil, by cases ver <;> decide⟩
  · exact ⟨.nil, by cases ver <;> decide⟩
  · exact ⟨.cons (bytes_clean ver 8) .nil, by cases ver <;> decide⟩
  · exact ⟨.cons (bytes_clean ver 8) .nil, by cases ver <;> decide⟩
  · exact ⟨.cons hs (.cons (hn _ _ _) (.cons hs .nil)), by cases ver <;> decide⟩
  · exact ⟨.cons (array_clean (hn _ _ _) _ _) (.cons (hn _ _ _) (.cons (hn _ _ _) (.cons (hn _ _ _) .nil))),
      by cases ver <;> decide⟩
  · exact ⟨.cons hs .nil, by cases ver <;> decide⟩
  · exact ⟨.nil, by cases ver <;> decide⟩
  · exact ⟨.cons (hn _ _ _) (.cons (bytes_clean ver 32) (.cons (bytes_clean ver 32) (.cons (hn _ _ _) (.cons (hn _ _ _)
      (.cons (hn _ _ _) (.cons (hn _ _ _) (.cons (array_clean (bytes_clean ver 32) _ _)
        (.cons (array_clean (hn _ _ _) _ _) .nil)))))))), by cases ver <;> decide⟩
  · exact absurd rfl ha

theorem className_clean {t : MsgType} (ht : t ∈ registry) : Clean (lit (className t.command)) ∧
    Clean (lit (msgName t.command)) := by
  simp only [registry, List.mem_cons, List.not_mem_nil, or_false] at ht
  rcases ht with rfl | rfl | rfl | rfl | rfl | rfl | rfl | rfl | rfl | rfl | rfl | rfl | rfl | rfl | rfl | rfl |
    rfl | rfl | rfl | rfl | rfl <;> decide

theorem percentD_clean {v : Val} {t : List Char} (h : percentD v = .ok t) : Clean t := by
  cases v <;> first | (cases h; done) | skip
  injection h with h
  rw [← h]
  exact clean_dec _

theorem percentR_clean {ver : PyVer} {v : Val} {t : List Char} (h : percentR ver v = .ok t) : Clean t := by
  cases v <;> first | (cases h; done) | skip
  injection h with h
  rw [← h]
  exact clean_reprBytes _ _

/-- In Python 3 no byte string is joined. -/
theorem subs_nil {l : List Val} {ks : List Shown} {ts : List (List Char)}
    (h : l.mapM (subText .py3) = .ok ks)
    (ht : onlyText ks = .ok ts) : ts = [] := by
  cases ks with
  | nil => injection ht with ht; exact ht.symm
  | cons k ks =>
    obtain ⟨x, -, e⟩ := mapM_mem h k (by simp)
    cases x <;> first | (cases e; done) | skip
    injection e with e
    rw [← e] at ht
    cases ht

theorem alertText_clean {fields : List (String × Val)} {t : List Char} (h : alertText .py3 fields = .ok t) : Clean t := by
  simp only [alertText, bind_ok_iff] at h
  obtain ⟨p, -, b, -, w, -, x1, ⟨_, -, h1⟩, x2, ⟨_, -, h2⟩, x3, ⟨_, -, h3⟩, x4, ⟨_, -, h4⟩, x5, ⟨_, -, h5⟩, y1, -, y2, -, y3, hc,
    x6, ⟨_, -, h6⟩, x7, ⟨_, -, h7⟩, z1, -, z2, -, z3, hz, z4, hs, x8, ⟨_, -, h8⟩, x9, ⟨_, -, h9⟩, x10, ⟨_, -, h10⟩,
    x11, ⟨_, -, h11⟩, h⟩ := h
  injection h with h
  rw [← h, subs_nil hz hs]
  have d1 := percentD_clean h1
  have d2 := percentD_clean h2
  have d3 := percentD_clean h3
  have d4 := percentD_clean h4
  have d5 := percentD_clean h5
  have d6 := percentD_clean h6
  have d7 := percentD_clean h7
  have d8 := percentD_clean h8
  have d9 := percentR_clean h9
  have d10 := percentR_clean h10
  have d11 := percentR_clean h11
  have dc : Clean (joinWith (lit ", ") y3) := clean_join (by decide) (fun x hx => by
    obtain ⟨v, -, e⟩ := mapM_mem hc x hx
    exact percentD_clean e)
  repeat' apply Clean.append
  all_goals first | assumption | decide

/-! ### The short texts -/

/-- The text of the value, if there is one, is clean. -/
def CleanItem (ver : PyVer) (H : Hashes) (v : Val) : Prop := ∀ t, debugValueText ver H v = .ok t → Clean t

/-- The same for a parameter: of a list the first element is shown. -/
def CleanArg (ver : PyVer) (H : Hashes) : Val → Prop
  | .tuple (v :: _) => CleanItem ver H v
  | .tuple [] => True
  | v => CleanItem ver H v

theorem debugItem_clean {ver : PyVer} {k : List Char} (hk : Clean k) {v : Val} (hv : CleanItem ver H v)
    {l : List (List Char)} (h : debugItem ver H k v = .ok l) : ∀ t ∈ l, Clean t := by
  unfold debugItem at h
  split at h
  · simp only [bind_ok_iff] at h
    obtain ⟨t, h1, h2⟩ := h
    injection h2 with h2
    rw [← h2]
    intro x hx
    rw [List.mem_singleton.1 hx]
    exact hk.append (Clean.cons (by decide) (hv t h1))
  · injection h with h
    rw [← h]; simp

theorem debugParam_clean {ver : PyVer} {k : String} (hk : Clean (lit k)) {v : Val} (hv : CleanArg ver H v)
    {l : List (List Char)} (h : debugParam ver H k v = .ok l) : ∀ t ∈ l, Clean t := by
  cases v with
  | tuple vs =>
    cases vs with
    | nil =>
      injection h with h
      rw [← h]
      intro x hx
      rw [List.mem_singleton.1 hx]
      exact ((show Clean (lit "len(") by decide).append hk).append (by decide)
    | cons v vs =>
      simp only [debugParam, bind_ok_iff] at h
      obtain ⟨r, h1, h2⟩ := h
      injection h2 with h2
      rw [← h2]
      intro x hx
      rcases List.mem_cons.1 hx with rfl | hx
      · exact (((show Clean (lit "len(") by decide).append hk).append (by decide)).append (clean_dec _)
      · exact debugItem_clean (hk.append (by decide)) hv h1 x hx
  | _ => exact debugItem_clean hk hv h

theorem debugText_clean {ver : PyVer} {name : String} (hname : Clean (lit name)) {ps : List (String × Val)}
    (hp : ∀ p ∈ ps, Clean (lit p.1) ∧ CleanArg ver H p.2) {t : List Char} (h : debugText ver H name ps = .ok t) : Clean t := by
  simp only [debugText, bind_ok_iff] at h
  obtain ⟨l, h1, h2⟩ := h
  injection h2 with h2
  rw [← h2]
  have key : ∀ (ps : List (String × Val)) (l : List (List Char)), (∀ p ∈ ps, Clean (lit p.1) ∧ CleanArg ver H p.2) →
      debugItems ver H ps = .ok l → ∀ t ∈ l, Clean t := by
    intro ps
    induction ps with
    | nil =>
      intro l _ h
      injection h with h
      rw [← h]; simp
    | cons p ps ih =>
      intro l hp h
      obtain ⟨k, v⟩ := p
      simp only [debugItems, bind_ok_iff] at h
      obtain ⟨x, h1, l', h2, h3⟩ := h
      injection h3 with h3
      rw [← h3]
      intro t ht
      have hkv := hp (k, v) (by simp)
      rcases List.mem_append.1 ht with ht | ht
      · exact debugParam_clean hkv.1 hkv.2 h1 t ht
      · exact ih l' (fun p hp' => hp p (by simp [hp'])) h2 t ht
  refine Clean.append (clean_join (by decide) ?_) (by decide)
  intro x hx
  rcases List.mem_cons.1 hx with rfl | hx
  · exact Clean.cons (by decide) hname
  · exact key ps l hp h1 x hx

theorem item_int (ver : PyVer) (i : Int) : CleanItem ver H (.int i) := by
  intro t h
  injection h with h
  rw [← h]
  exact clean_dec i

theorem item_hex (ver : PyVer) (b : Bytes) : CleanItem ver H (.bytes (hexlify b)) := by
  intro t h
  injection h with h
  rw [← h]
  exact clean_hex ver b

theorem item_bytes3 (b : Bytes) : CleanItem .py3 H (.bytes b) := by
  intro t h
  injection h with h
  rw [← h]
  exact clean_strOf3 b

theorem arg_number {ver : PyVer} {f : Fmt} {big af : Bool} {v : Val} (h : Parsed (ftNumber f big af) v) :
    CleanArg ver H v := by
  obtain ⟨i, -, rfl⟩ := parsed_number h
  exact item_int ver i

theorem arg_string {v : Val} (h : Parsed ftVarString v) : CleanArg .py3 H v := by
  obtain ⟨b, rfl, -⟩ := parsed_string h
  exact item_bytes3 b

theorem arg_array {ver : PyVer} {T : FType} {a c : Option Nat} (hT : ∀ v, Parsed T v → CleanItem ver H v)
    {v : Val} (h : Parsed (ftArray T a c) v) : CleanArg ver H v := by
  obtain ⟨l, rfl, -, hl⟩ := parsed_array h
  cases l with
  | nil => exact trivial
  | cons x xs => exact hT x (hl x (by simp))

theorem item_address {ver : PyVer} {v : Val} (h : Parsed ftNetworkAddress v) : CleanItem ver H v := by
  obtain ⟨d, o, vs, h1, rfl⟩ := parsed_object h
  obtain ⟨a, ha, hpa⟩ := parsed_field h1 (by decide) (k := "address") (T := ftIPAddress) (by simp [networkAddress])
  obtain ⟨p, hp, hpp⟩ := parsed_field h1 (by decide) (k := "port") (T := ftNumber .H (big := true))
    (by simp [networkAddress])
  obtain ⟨i, -, rfl⟩ := parsed_number hpp
  obtain ⟨s, rfl, hs⟩ := parsed_ip hpa
  intro t ht
  simp only [debugValueText, networkAddress, if_true, ha, hp, ok_bind, toInt, Except.ok.injEq] at ht
  rw [← ht]
  exact hs.append (Clean.cons (by decide) (clean_dec i))

theorem objectType_clean {v : Val} {t : List Char} (h : objectTypeText v = .ok t) : Clean t := by
  unfold objectTypeText at h
  repeat' split at h
  all_goals first | (cases h; done) | skip
  all_goals
    injection h with h
    rw [← h]
    decide

theorem item_inventory {ver : PyVer} {v : Val} (h : Parsed (ftCompound inventoryVector) v) : CleanItem ver H v := by
  obtain ⟨d, o, vs, h1, rfl⟩ := parsed_object h
  obtain ⟨p, hp, hpp⟩ := parsed_field h1 (by decide) (k := "hash") (T := ftBytes 32) (by simp [inventoryVector])
  obtain ⟨b, rfl, -⟩ := parsed_bytes hpp
  intro t ht
  simp only [debugValueText, inventoryVector, if_true, hp, ok_bind, hexText,
    show ("InventoryVector" = "NetworkAddress") = False by decide, if_false, bind_ok_iff, Except.ok.injEq] at ht
  obtain ⟨_, -, t', h2, rfl⟩ := ht
  exact (objectType_clean h2).append (Clean.cons (by decide) (clean_hex ver b))

theorem item_txn {ver : PyVer} {v : Val} (h : Parsed (ftCompound txn) v) : CleanItem ver H v := by
  obtain ⟨d, o, vs, h1, rfl⟩ := parsed_object h
  intro t ht
  have hn : txn.name = "Txn" := rfl
  simp only [debugValueText, hn, if_true, if_false, show ("Txn" = "NetworkAddress") = False by decide,
    show ("Txn" = "InventoryVector") = False by decide, bind_ok_iff, Except.ok.injEq] at ht
  obtain ⟨b, -, rfl⟩ := ht
  exact clean_hex ver _

theorem item_header {ver : PyVer} {v : Val} (h : Parsed (ftCompound blockHeader) v) : CleanItem ver H v := by
  obtain ⟨d, o, vs, h1, rfl⟩ := parsed_object h
  intro t ht
  have hn : blockHeader.name = "BlockHeader" := rfl
  simp only [debugValueText, hn, if_true, if_false, show ("BlockHeader" = "NetworkAddress") = False by decide,
    show ("BlockHeader" = "InventoryVector") = False by decide, show ("BlockHeader" = "Txn") = False by decide,
    bind_ok_iff, Except.ok.injEq] at ht
  obtain ⟨b, -, rfl⟩ := ht
  exact clean_hex ver _

theorem item_txnIn {ver : PyVer} {v : Val} (h : Parsed (ftCompound txnIn) v) : CleanItem ver H v := by
  obtain ⟨d, o, vs, h1, rfl⟩ := parsed_object h
  intro t ht
  exact compText_clean (by decide) (txnIn_all ver) (by decide) (by cases ver <;> decide) h1
    (show compText ver "TxnIn" (txnInText ver) vs = .ok t from ht)

theorem item_txnOut {ver : PyVer} {v : Val} (h : Parsed (ftCompound txnOut) v) : CleanItem ver H v := by
  obtain ⟨d, o, vs, h1, rfl⟩ := parsed_object h
  intro t ht
  exact compText_clean (by decide) (txnOut_all ver) (by decide) (by cases ver <;> decide) h1
    (show compText ver "TxnOut" (txnOutText ver) vs = .ok t from ht)

/-- The parameters named in `keys` -/
theorem named_clean {ver : PyVer} {vs : List (String × Val)} {keys : List (String × String)} {l : List (String × Val)}
    (h : namedFields vs keys = .ok l) (hk : ∀ p ∈ keys, Clean (lit p.1))
    (hv : ∀ p ∈ keys, ∀ v, getField vs p.2 = .ok v → CleanArg ver H v) :
    ∀ p ∈ l, Clean (lit p.1) ∧ CleanArg ver H p.2 := by
  intro p hp
  obtain ⟨q, hq, e⟩ := mapM_mem h p hp
  simp only [bind_ok_iff] at e
  obtain ⟨v, h1, h2⟩ := e
  injection h2 with h2
  rw [← h2]
  exact ⟨hk q hq, hv q hq v h1⟩

theorem field_arg {ver : PyVer} {data : Bytes} {ps : Proto.Props} {o : Nat} {vs : List (String × Val)}
    (h : parseFields data ps 0 = .ok (o, vs)) (hn : (ps.map (·.1)).Nodup) {k : String} {T : FType} (hk : (k, T) ∈ ps)
    (hT : ∀ v, Parsed T v → CleanArg ver H v) : ∀ v, getField vs k = .ok v → CleanArg ver H v := by
  intro v hv
  obtain ⟨w, hw, hp⟩ := parsed_field h hn hk
  rw [hw] at hv
  injection hv with hv
  exact hv ▸ hT w hp

theorem unpack_arg : ∀ (fs : List (String × Fmt)) (d : Bytes) (r : List (String × Val)), unpackNames fs d = .ok r →
    ∀ p ∈ r, CleanArg .py3 H p.2
  | [], [], r, h => by
    injection h with h
    rw [← h]; simp
  | [], _ :: _, r, h => by cases h
  | (k, f) :: fs, d, r, h => by
    simp only [unpackNames, bind_ok_iff] at h
    obtain ⟨v, -, r', h1, h2⟩ := h
    injection h2 with h2
    rw [← h2, List.forall_mem_cons]
    exact ⟨item_int .py3 v, unpack_arg fs _ r' h1⟩

theorem numbers_arg {fs : List (String × Fmt)} {data : Bytes} {d : List (String × Val)} {n : Nat}
    (h : numbersStep fs data = .ok (d, n)) : ∀ p ∈ d, CleanArg .py3 H p.2 := by
  simp only [numbersStep, bind_ok_iff, Except.ok.injEq, Prod.mk.injEq] at h
  obtain ⟨r, h1, rfl, -⟩ := h
  exact unpack_arg _ _ _ h1

theorem set_arg {k : String} {T : FType} (hT : ∀ v, Parsed T v → CleanItem .py3 H v) {data : Bytes}
    {d : List (String × Val)} {n : Nat} (h : setStep k T data = .ok (d, n)) : ∀ p ∈ d, CleanArg .py3 H p.2 := by
  simp only [setStep, bind_ok_iff, Except.ok.injEq, Prod.mk.injEq] at h
  obtain ⟨⟨vl, s⟩, h1, rfl, -⟩ := h
  simp only [parseVarSet, bind_ok_iff] at h1
  obtain ⟨⟨off, i⟩, -, h2⟩ := h1
  have hs := (loop_parsed h2).2
  intro p hp
  rw [List.mem_singleton.1 hp]
  cases s with
  | nil => exact trivial
  | cons x xs => exact hT x (hs x (by simp))

theorem string_arg {k : String} {data : Bytes} {d : List (String × Val)} {n : Nat} (h : stringStep k data = .ok (d, n)) :
    ∀ p ∈ d, CleanArg .py3 H p.2 := by
  simp only [stringStep, bind_ok_iff, Except.ok.injEq, Prod.mk.injEq] at h
  obtain ⟨⟨vl, s⟩, -, rfl, -⟩ := h
  intro p hp
  rw [List.mem_singleton.1 hp]
  exact item_bytes3 s

theorem fill_arg {ss : List AlertStep} (hs : ∀ s ∈ ss, ∀ data d n, s data = .ok (d, n) → ∀ p ∈ d, CleanArg .py3 H p.2) :
    ∀ data, ∀ p ∈ (alertFill ss data).1, CleanArg .py3 H p.2 := by
  induction ss with
  | nil => intro data p hp; cases hp
  | cons s ss ih =>
    intro data p hp
    simp only [alertFill] at hp
    split at hp
    · cases hp
    · rename_i d n e
      rcases List.mem_append.1 hp with hp | hp
      · exact hs s (by simp) data d n e p hp
      · exact ih (fun s' h' => hs s' (by simp [h'])) _ p hp

theorem alert_status {payload : Bytes} {k : String} {v : Val} (h : (alertGet payload [] k).2 = .ok v) :
    CleanArg .py3 H v := by
  have hf : ∀ p ∈ (alertFill alertSteps payload).1, CleanArg .py3 H p.2 := by
    refine fill_arg ?_ payload
    simp only [alertSteps, List.forall_mem_cons]
    exact ⟨fun _ _ _ h => numbers_arg h, fun _ _ _ h => set_arg (fun v hv => by
        obtain ⟨i, -, rfl⟩ := parsed_number hv
        exact item_int .py3 i) h, fun _ _ _ h => numbers_arg h, fun _ _ _ h => set_arg (fun v hv => by
        obtain ⟨b, rfl, -⟩ := parsed_string hv
        exact item_bytes3 b) h, fun _ _ _ h => numbers_arg h, fun _ _ _ h => string_arg h, fun _ _ _ h => string_arg h,
      fun _ _ _ h => string_arg h, by simp⟩
  unfold alertGet at h
  simp only at h
  split at h
  · cases h
  · rename_i d e
    rw [e] at hf
    unfold getField at h
    split at h
    · rename_i p hp
      injection h with h
      rw [← h]
      exact hf p (List.mem_of_find?_eq_some hp)
    · cases h

/-- Messages whose strings are not shown as they are: in Python 2 not the ones with a user agent, a reason or an alert. -/
def Quoted (ver : PyVer) (command : String) : Prop :=
  ver = .py3 ∨ command ≠ "version" ∧ command ≠ "reject" ∧ command ≠ "alert"

theorem args_clean {ver : PyVer} {t : MsgType} (ht : t ∈ registry) (hq : Quoted ver t.command) {payload : Bytes} {o : Nat}
    {vs : List (String × Val)} (h : parseFields payload t.props 0 = .ok (o, vs)) {l : List (String × Val)}
    (hl : debugArgs ⟨t.command, vs⟩ = .ok l) : ∀ p ∈ l, Clean (lit p.1) ∧ CleanArg ver H p.2 := by
  have hnd := registry_nodup ht
  have nothing : ∀ l : List (String × Val), (Except.ok [] : Py _) = .ok l → ∀ p ∈ l, Clean (lit p.1) ∧ CleanArg ver H p.2 := by
    intro l hl
    injection hl with hl
    rw [← hl]; simp
  have inv : namedFields vs [("i", "inventory")] = .ok l → ("inventory", ftArray (ftCompound inventoryVector) none (some 50000)) ∈ t.props →
      ∀ p ∈ l, Clean (lit p.1) ∧ CleanArg ver H p.2 := by
    intro hl hm
    refine named_clean hl (by decide) ?_
    simp only [List.forall_mem_cons]
    exact ⟨field_arg h hnd hm (fun v hv => arg_array (fun w hw => item_inventory hw) hv), by simp⟩
  have loc : (do
      let v ← getField vs "block_locator_hashes"
      let x ← hexVals v
      .ok [("blh", x)]) = Except.ok (ε := PyErr) l → ("block_locator_hashes", ftArray (ftBytes 32) (some 1) none) ∈ t.props →
      ∀ p ∈ l, Clean (lit p.1) ∧ CleanArg ver H p.2 := by
    intro hl hm
    simp only [bind_ok_iff] at hl
    obtain ⟨v, h1, x, h2, h3⟩ := hl
    injection h3 with h3
    rw [← h3]
    intro p hp
    rw [List.mem_singleton.1 hp]
    refine ⟨(by decide : Clean (lit "blh")), ?_⟩
    obtain ⟨w, hw, hp⟩ := parsed_field h hnd hm
    rw [hw] at h1
    injection h1 with h1
    subst h1
    obtain ⟨vs', rfl, -, hv⟩ := parsed_array hp
    simp only [hexVals, bind_ok_iff] at h2
    obtain ⟨r, h2, h4⟩ := h2
    injection h4 with h4
    rw [← h4]
    cases r with
    | nil => exact trivial
    | cons y r =>
      obtain ⟨z, hz, e⟩ := mapM_mem h2 y (by simp)
      obtain ⟨b, rfl, -⟩ := parsed_bytes (hv z hz)
      injection e with e
      rw [← e]
      exact item_hex ver b
  have png : (do
      let v ← getField vs "nonce"
      let x ← hexVal' v
      .ok [("n", x)]) = Except.ok (ε := PyErr) l → ("nonce", ftBytes 8) ∈ t.props →
      ∀ p ∈ l, Clean (lit p.1) ∧ CleanArg ver H p.2 := by
    intro hl hm
    simp only [bind_ok_iff] at hl
    obtain ⟨v, h1, x, h2, h3⟩ := hl
    injection h3 with h3
    rw [← h3]
    intro p hp
    rw [List.mem_singleton.1 hp]
    refine ⟨(by decide : Clean (lit "n")), ?_⟩
    obtain ⟨w, hw, hp⟩ := parsed_field h hnd hm
    rw [hw] at h1
    injection h1 with h1
    subst h1
    obtain ⟨b, rfl, -⟩ := parsed_bytes hp
    injection h2 with h2
    rw [← h2]
    exact item_hex ver b
  simp only [registry, List.mem_cons, List.not_mem_nil, or_false] at ht
  rcases ht with rfl | rfl | rfl | rfl | rfl | rfl | rfl | rfl | rfl | rfl | rfl | rfl | rfl | rfl | rfl | rfl |
    rfl | rfl | rfl | rfl | rfl
  · obtain rfl := hq.resolve_right (fun h => h.1 rfl)
    refine named_clean (show namedFields vs [("v", "version"), ("s", "services"), ("ua", "user_agent"),
      ("sh", "start_height")] = .ok l from hl) (by decide) ?_
    simp only [List.forall_mem_cons]
    exact ⟨field_arg h hnd (T := ftNumber .i) (by simp [msgVersion]) (fun v hv => arg_number hv),
      field_arg h hnd (T := ftNumber .Q) (by simp [msgVersion]) (fun v hv => arg_number hv),
      field_arg h hnd (T := ftVarString) (by simp [msgVersion]) (fun v hv => arg_string hv),
      field_arg h hnd (T := ftNumber .i) (by simp [msgVersion]) (fun v hv => arg_number hv), by simp⟩
  · exact nothing l hl
  · refine named_clean (show namedFields vs [("a", "addr_list")] = .ok l from hl) (by decide) ?_
    simp only [List.forall_mem_cons]
    exact ⟨field_arg h hnd (T := ftArray ftNetworkAddress none (some 1000)) (by simp [msgAddr])
      (fun v hv => arg_array (fun w hw => item_address hw) hv), by simp⟩
  · exact inv hl (by simp [msgInv, invProps])
  · exact inv hl (by simp [msgGetdata, invProps])
  · exact inv hl (by simp [msgNotfound, invProps])
  · exact loc hl (by simp [msgGetblocks, getBlocksProps])
  · exact loc hl (by simp [msgGetheaders, getBlocksProps])
  · refine named_clean (show namedFields vs [("in", "tx_in"), ("out", "tx_out")] = .ok l from hl) (by decide) ?_
    simp only [List.forall_mem_cons]
    exact ⟨field_arg h hnd (T := ftArray (ftCompound txnIn) (some 1) none) (by simp [msgTx, txn])
      (fun v hv => arg_array (fun w hw => item_txnIn hw) hv),
      field_arg h hnd (T := ftArray (ftCompound txnOut) (some 1) none) (by simp [msgTx, txn])
      (fun v hv => arg_array (fun w hw => item_txnOut hw) hv), by simp⟩
  · have hl : (do
        let version ← getField vs "version"
        let prevBlock ← getField vs "prev_block"
        let merkleRoot ← getField vs "merkle_root"
        let timestamp ← getField vs "timestamp"
        let bits ← getField vs "bits"
        let nonce ← getField vs "nonce"
        let h ← Util.getBlockHeader version prevBlock merkleRoot timestamp bits nonce
        let l ← namedFields vs [("t", "txns")]
        .ok (("h", Val.bytes (hexlify h)) :: l)) = Except.ok (ε := PyErr) l := hl
    simp only [bind_ok_iff] at hl
    obtain ⟨_, -, _, -, _, -, _, -, _, -, _, -, b, -, l', h1, h2⟩ := hl
    injection h2 with h2
    rw [← h2]
    simp only [List.forall_mem_cons]
    refine ⟨⟨(by decide : Clean (lit "h")), item_hex ver b⟩, ?_⟩
    refine named_clean h1 (by decide) ?_
    simp only [List.forall_mem_cons]
    exact ⟨field_arg h hnd (T := ftArray (ftCompound txn) none none) (by simp [msgBlock])
      (fun v hv => arg_array (fun w hw => item_txn hw) hv), by simp⟩
  · refine named_clean (show namedFields vs [("h", "headers")] = .ok l from hl) (by decide) ?_
    simp only [List.forall_mem_cons]
    exact ⟨field_arg h hnd (T := ftArray (ftCompound blockHeader) none none) (by simp [msgHeaders])
      (fun v hv => arg_array (fun w hw => item_header hw) hv), by simp⟩
  · exact nothing l hl
  · exact nothing l hl
  · exact png hl (by simp [msgPing])
  · exact png hl (by simp [msgPong])
  · obtain rfl := hq.resolve_right (fun h => h.2.1 rfl)
    refine named_clean (show namedFields vs [("m", "message"), ("r", "reason")] = .ok l from hl) (by decide) ?_
    simp only [List.forall_mem_cons]
    exact ⟨field_arg h hnd (T := ftVarString) (by simp [msgReject]) (fun v hv => arg_string hv),
      field_arg h hnd (T := ftVarString) (by simp [msgReject]) (fun v hv => arg_string hv), by simp⟩
  · exact nothing l hl
  · exact nothing l hl
  · exact nothing l hl
  · exact nothing l hl
  · obtain rfl := hq.resolve_right (fun h => h.2.2 rfl)
    have hl : (do
        let p ← getField vs "payload"
        let payload ← payloadBytes p
        let v ← (alertGet payload [] "status_bar").2
        .ok [("s", v)]) = Except.ok (ε := PyErr) l := hl
    simp only [bind_ok_iff] at hl
    obtain ⟨_, -, b, -, v, h1, h2⟩ := hl
    injection h2 with h2
    rw [← h2]
    intro p hp
    rw [List.mem_singleton.1 hp]
    exact ⟨(by decide : Clean (lit "s")), alert_status h1⟩


/-! ### The lines -/

theorem clean_newline {t : List Char} (h : Clean t) : '\n' ∉ t := fun hm => absurd (h _ hm) (by decide)

theorem linesFrom_end {t : List Char} (h : '\n' ∉ t) (cur rest : List Char) :
    linesFrom cur (t ++ '\n' :: rest) = (cur ++ t) :: linesFrom [] rest := by
  induction t generalizing cur with
  | nil => simp [linesFrom]
  | cons c t ih =>
    have hc : c ≠ '\n' := fun e => h (by simp [e])
    rw [List.cons_append, linesFrom, if_neg hc, ih (fun hm => h (by simp [hm]))]
    simp

theorem linesFrom_mid {f : List Char} (h : '\n' ∉ f) (a b cur : List Char) :
    f ∈ linesFrom cur (a ++ '\n' :: (f ++ '\n' :: b)) := by
  induction a generalizing cur with
  | nil =>
    rw [List.nil_append, linesFrom, if_pos rfl, linesFrom_end h]
    simp
  | cons c a ih =>
    rw [List.cons_append, linesFrom]
    split
    · exact List.mem_cons_of_mem _ (ih [])
    · exact ih _

/-- An entry that is one line, and who it says it is from. -/
def EntryOf (sources : List (List Char)) (e : List Char) : Prop :=
  ∃ who ∈ sources, ∃ t, e = ('(' :: (who ++ lit ") " ++ t)) ++ ['\n'] ∧ Clean ('(' :: (who ++ lit ") " ++ t))

theorem logLine_entry {sources : List (List Char)} {who t : List Char} (hw : who ∈ sources) (hc : Clean who) (ht : Clean t) :
    EntryOf sources (logLine who t) :=
  ⟨who, hw, t, by simp [logLine], Clean.cons (by decide) ((hc.append (by decide)).append ht)⟩

theorem entries_lines {sources : List (List Char)} {es : List (List Char)} (h : ∀ e ∈ es, EntryOf sources e) :
    es = (logLines es).map (· ++ ['\n']) ∧ ∀ l ∈ logLines es, Clean l ∧ ∃ who ∈ sources, '(' :: (who ++ lit ") ") <+: l := by
  induction es with
  | nil => exact ⟨rfl, by intro l hl; cases hl⟩
  | cons e es ih =>
    obtain ⟨who, hw, t, he, hc⟩ := h e (by simp)
    obtain ⟨i1, i2⟩ := ih (fun x hx => h x (by simp [hx]))
    have key : logLines (e :: es) = ('(' :: (who ++ lit ") " ++ t)) :: logLines es := by
      simp only [logLines, List.flatten_cons, he, List.append_assoc, List.singleton_append]
      rw [← List.append_assoc who, linesFrom_end (by simpa using clean_newline hc)]
      simp
    rw [key]
    refine ⟨by rw [List.map_cons, ← i1, ← he], ?_⟩
    intro l hl
    rcases List.mem_cons.1 hl with rfl | hl
    · exact ⟨hc, who, hw, t, by simp⟩
    · exact i2 l hl

theorem received_clean {ver : PyVer} {level : Int} {data magic : Bytes} {m : Msg} (h : parseMessage H data magic = .ok m)
    (hq : ver = .py3 ∨ 1 < level ∨ m.command ≠ "alert" ∧ (level ≤ 0 ∨ m.command ≠ "version" ∧ m.command ≠ "reject"))
    {t : List Char} (ht : receivedText ver H level m = .ok (some t)) : Clean t := by
  obtain ⟨ty, hty, payload, o, hp, hcmd⟩ := parsed_type h
  obtain ⟨cmd, vs⟩ := m
  simp only at hcmd hp hq
  subst hcmd
  unfold receivedText at ht
  split at ht
  · rename_i hl
    have hl : level ≤ 0 := hl
    simp only [bind_ok_iff, Except.ok.injEq, Option.some.injEq] at ht
    obtain ⟨x, h1, rfl⟩ := ht
    refine (show Clean (lit "<<< ") by decide).append ?_
    unfold msgText at h1
    split at h1
    · rename_i ha
      rcases hq with rfl | hq | hq
      · exact alertText_clean h1
      · omega
      · exact absurd ha hq.1
    · rename_i ha
      obtain ⟨h2, h3⟩ := msg_all ver hty ha
      exact compText_clean (className_clean hty).1 h2 (registry_nodup hty) h3 hp h1
  · rename_i hl0
    have hl0 : ¬ level ≤ 0 := hl0
    split at ht
    · rename_i hl
      have hl : level ≤ 1 := hl
      simp only [bind_ok_iff, Except.ok.injEq, Option.some.injEq] at ht
      obtain ⟨x, h1, rfl⟩ := ht
      refine (show Clean (lit "<<< ") by decide).append ?_
      simp only [msgDebugText, bind_ok_iff] at h1
      obtain ⟨l, h2, h3⟩ := h1
      refine debugText_clean (className_clean hty).1 (args_clean hty ?_ hp h2) h3
      rcases hq with hq | hq | ⟨ha, hq | hq⟩
      · exact .inl hq
      · omega
      · omega
      · exact .inr ⟨hq.1, hq.2, ha⟩
    · cases ht

theorem invalid_clean (ver : PyVer) (data magic : Bytes) : Clean (invalidText ver H data magic) := by
  unfold invalidText
  split
  · decide
  split
  · decide
  split
  · decide
  · exact (((show Clean (lit "command: ") by decide).append (clean_reprUnicode ver _)).append (by decide)).append
      (clean_reprBytes ver data) |>.append (by decide)

/-- C157, as far as it holds: whatever a peer sends, each entry is one line of printable characters that begins with the
address of the peer or with `(node)`, and the lines of the log are these entries — in Python 3, above the level of debugging,
at the level of the protocol for all messages but alerts, and at the level of debugging for all messages but versions,
rejections and alerts.  Missing: `C157_reject_false`, `C157_version_false`, `C157_alert_false`. -/
theorem C157_lines_partial (ver : PyVer) (level : Int) (source : List Char) (hs : Clean source) (magic data : Bytes)
    (hq : ∀ m, parseMessage H data magic = .ok m →
      ver = .py3 ∨ 1 < level ∨ m.command ≠ "alert" ∧ (level ≤ 0 ∨ m.command ≠ "version" ∧ m.command ≠ "reject")) :
    let entries := frameLog ver H level source magic data
    entries = (logLines entries).map (· ++ ['\n']) ∧
      ∀ l ∈ logLines entries, Clean l ∧ ∃ who ∈ [source, lit "node"], '(' :: (who ++ lit ") ") <+: l := by
  refine entries_lines (fun e he => ?_)
  unfold frameLog at he
  split at he
  · rename_i m hm
    split at he
    · cases he
    · rename_i r hr
      rcases List.mem_append.1 he with he | he
      · obtain ⟨t, ht, rfl⟩ := List.mem_map.1 he
        have : r = some t := by simpa using ht
        subst this
        exact logLine_entry (by simp) hs (received_clean hm (hq m hm) hr)
      · split at he
        · cases he
        · rw [List.mem_singleton.1 he]
          refine logLine_entry (by simp) hs ((by decide : Clean (lit "error: method not defined: command_")).append ?_)
          obtain ⟨ty, hty, -, -, -, hcmd⟩ := parsed_type hm
          rw [hcmd]
          exact (className_clean hty).2
  · split at he
    · rw [List.mem_singleton.1 he]
      refine logLine_entry (by simp) (by decide) ?_
      exact ((((by decide : Clean (lit "invalid command: ")).append (clean_reprBytes ver data)).append (by decide)).append
        (invalid_clean ver data magic)).append (by decide)
    · cases he

/-! ### Forged lines -/

theorem join_mem {sep x : List Char} : ∀ {l : List (List Char)}, x ∈ l → ∃ a b, joinWith sep l = a ++ (x ++ b)
  | [y], h => ⟨[], [], by rw [List.mem_singleton.1 h]; simp [joinWith]⟩
  | y :: z :: l, h => by
    rcases List.mem_cons.1 h with rfl | h
    · exact ⟨[], sep ++ joinWith sep (z :: l), by simp [joinWith]⟩
    · obtain ⟨a, b, e⟩ := join_mem (sep := sep) h
      exact ⟨y ++ sep ++ a, b, by simp [joinWith, e]⟩

theorem debugItems_mem {ps : List (String × Val)} {l : List (List Char)} (h : debugItems .py2 H ps = .ok l) {k : String}
    {b : Bytes} (hb : b ≠ []) (hm : (k, Val.bytes b) ∈ ps) : (lit k ++ '=' :: latin1Decode b) ∈ l := by
  induction ps generalizing l with
  | nil => cases hm
  | cons p ps ih =>
    obtain ⟨k', v'⟩ := p
    simp only [debugItems, bind_ok_iff] at h
    obtain ⟨x, h1, l', h2, h3⟩ := h
    injection h3 with h3
    rw [← h3]
    rcases List.mem_cons.1 hm with e | hm
    · cases e
      have : debugParam .py2 H k (.bytes b) = .ok [lit k ++ '=' :: latin1Decode b] := by
        simp only [debugParam, debugItem, truthy, hb, ne_eq, not_false_eq_true, decide_true, if_true, debugValueText, ok_bind]
        rfl
      rw [this] at h1
      injection h1 with h1
      rw [← h1]
      simp
    · exact List.mem_append_right _ (ih h2 hm)

theorem debugItems_ok (ps : List (String × Val)) (h : ∀ p ∈ ps, (∃ i, p.2 = .int i) ∨ ∃ b, p.2 = .bytes b) :
    ∃ l, debugItems .py2 H ps = .ok l := by
  induction ps with
  | nil => exact ⟨[], rfl⟩
  | cons p ps ih =>
    obtain ⟨l, hl⟩ := ih (fun q hq => h q (by simp [hq]))
    obtain ⟨k, v⟩ := p
    have : ∃ x, debugParam .py2 H k v = .ok x := by
      rcases h (k, v) (by simp) with ⟨i, hi⟩ | ⟨b, hb⟩
      · simp only at hi
        subst hi
        simp only [debugParam, debugItem, debugValueText, ok_bind]
        split <;> exact ⟨_, rfl⟩
      · simp only at hb
        subst hb
        simp only [debugParam, debugItem, debugValueText, ok_bind]
        split <;> exact ⟨_, rfl⟩
    obtain ⟨x, hx⟩ := this
    exact ⟨x ++ l, by simp only [debugItems, hx, hl, ok_bind]⟩

theorem varSize_le (n : Nat) : (varSize n).length ≤ 9 := by
  unfold varSize
  repeat' split
  all_goals simp [beBytes_length]

/-- The text of a newline, the line, a newline -/
theorem decode_between (a b fake : Bytes) :
    latin1Decode (a ++ 10 :: (fake ++ 10 :: b)) = latin1Decode a ++ '\n' :: (latin1Decode fake ++ '\n' :: latin1Decode b) := by
  simp only [latin1Decode, List.map_append, List.map_cons]
  rfl

theorem decode_newline {fake : Bytes} (h : (10 : UInt8) ∉ fake) : '\n' ∉ latin1Decode fake := by
  intro hm
  obtain ⟨x, hx, e⟩ := List.mem_map.1 hm
  have h1 := latin1_byte _ x.toNat_lt
  rw [e] at h1
  have : x = 10 := UInt8.toNat_inj.1 h1.symm
  exact h (this ▸ hx)

theorem forged {source a b fake : List Char} {t : List Char} (h : t = a ++ '\n' :: (fake ++ '\n' :: b)) (hf : '\n' ∉ fake)
    (rest : List (List Char)) : fake ∈ logLines (logLine source t :: rest) := by
  have := linesFrom_mid hf ('(' :: (source ++ lit ") " ++ a)) (b ++ '\n' :: rest.flatten) []
  simpa [logLines, logLine, h] using this

theorem debug_forged {m : Msg} {ps : List (String × Val)} {l : List (List Char)} (ha : debugArgs m = .ok ps)
    (hl : debugItems .py2 H ps = .ok l) {k : String} {a b fake : Bytes}
    (hm : (k, Val.bytes (a ++ 10 :: (fake ++ 10 :: b))) ∈ ps) (hf : (10 : UInt8) ∉ fake) (source : List Char) (magic data : Bytes)
    (h : parseMessage H data magic = .ok m) :
    latin1Decode fake ∈ logLines (frameLog .py2 H 1 source magic data) := by
  have hmem := debugItems_mem hl (by simp) hm
  obtain ⟨x, y, e⟩ := join_mem (sep := [' ']) (List.mem_cons_of_mem ('<' :: lit (className m.command)) hmem)
  have hr : receivedText .py2 H 1 m = .ok (some (lit "<<< " ++
      (joinWith [' '] (('<' :: lit (className m.command)) :: l) ++ ['>']))) := by
    simp only [receivedText, show ¬ (1 : Int) ≤ levelProtocol by decide, show (1 : Int) ≤ levelDebug by decide, if_false,
      if_true, msgDebugText, ha, ok_bind, debugText, hl]
  unfold frameLog
  simp only [h, hr, Option.toList_some, List.map_cons, List.map_nil, List.cons_append, List.nil_append]
  refine forged (a := lit "<<< " ++ x ++ lit k ++ '=' :: latin1Decode a) (b := latin1Decode b ++ y ++ ['>']) ?_
    (decode_newline hf) _
  rw [e, decode_between]
  simp

/-- C157 fails in Python 2 at the level of debugging: a peer puts any line of its choice into the log with a message of
rejection. -/
theorem C157_reject_false (source : List Char) (magic : Bytes) (hm : magic.length = 4) (fake : Bytes) (hf : (10 : UInt8) ∉ fake)
    (hl : fake.length < 2 ^ 31) :
    ∃ payload, payload.length < 2 ^ 32 ∧
      latin1Decode fake ∈ logLines (frameLog .py2 H 1 source magic (wireFrame H magic "reject" payload)) := by
  have hr : ([] ++ 10 :: (fake ++ 10 :: ([] : Bytes)) : Bytes).length < varLimit := by
    simp only [List.nil_append, List.length_cons, List.length_append, List.length_nil, varLimit]
    omega
  generalize hreason : ([] ++ 10 :: (fake ++ 10 :: ([] : Bytes)) : Bytes) = reason at hr
  have hw : wFields [("message", wVarString), ("ccode", wNumber .B false false), ("reason", wVarString)]
      [("message", .bytes []), ("ccode", .int 1), ("reason", .bytes reason)]
      ((varSize 0 ++ []) ++ (numBytes .B false 1 ++ ((varSize reason.length ++ reason) ++ [])))
      [("message", .bytes []), ("ccode", .int 1), ("reason", .bytes reason)] :=
    ⟨_, _, _, _, _, _, ⟨[], by decide, .inl rfl, rfl, rfl⟩, ⟨_, _, _, _, _, _, .inl ⟨1, rfl, ⟨by decide, by decide⟩, rfl, rfl⟩,
      ⟨_, _, _, _, _, _, ⟨reason, hr, .inl rfl, rfl, rfl⟩, ⟨rfl, rfl, rfl⟩, rfl, rfl, rfl⟩, rfl, rfl, rfl⟩, rfl, rfl, rfl⟩
  have hp := parseFields_zero (ps := msgReject.props) (.cons ftVarString_refines (.cons (ftNumber_refines ..)
    (.cons ftVarString_refines .nil))) hw []
  have hlen : ((varSize 0 ++ []) ++ (numBytes .B false 1 ++ ((varSize reason.length ++ reason) ++ [])) : Bytes).length
      < 2 ^ 32 := by
    have h1 := varSize_le reason.length
    have h2 : (varSize 0 ++ [] ++ numBytes .B false 1 : Bytes).length = 2 := rfl
    simp only [List.length_append, List.length_nil] at h2 ⊢
    have h3 : reason.length = fake.length + 2 := by rw [← hreason]; simp
    omega
  refine ⟨_, hlen, ?_⟩
  have h := parseMessage_frame H (t := msgReject) (by simp [registry]) _ magic [] hm hlen
  rw [List.append_nil] at hp
  rw [hp, List.append_nil] at h
  obtain ⟨l, hl'⟩ := debugItems_ok (H := H) [("m", .bytes []), ("r", .bytes reason)] (by
    simp only [List.forall_mem_cons]
    exact ⟨.inr ⟨_, rfl⟩, .inr ⟨_, rfl⟩, by simp⟩)
  exact debug_forged (m := ⟨"reject", _⟩) (ps := [("m", .bytes []), ("r", .bytes reason)]) rfl hl' (k := "r") (a := []) (b := [])
    (by rw [hreason]; simp) hf source magic _ h

/-- C157 fails in Python 2 at the level of debugging for versions as well: a user agent with a line of its own puts it into
the log. -/
theorem C157_version_false (source : List Char) (magic data : Bytes) (m : Msg) (h : parseMessage H data magic = .ok m)
    (hc : m.command = "version") (before fake after : Bytes) (hf : (10 : UInt8) ∉ fake)
    (hu : getField m.fields "user_agent" = .ok (.bytes (before ++ 10 :: (fake ++ 10 :: after)))) :
    latin1Decode fake ∈ logLines (frameLog .py2 H 1 source magic data) := by
  obtain ⟨ty, hty, payload, o, hp, hcmd⟩ := parsed_type h
  obtain ⟨cmd, vs⟩ := m
  simp only at hcmd hp hc hu
  subst hc
  obtain rfl : ty = msgVersion := by
    simp only [registry, List.mem_cons, List.not_mem_nil, or_false] at hty
    rcases hty with rfl | rfl | rfl | rfl | rfl | rfl | rfl | rfl | rfl | rfl | rfl | rfl | rfl | rfl | rfl | rfl |
      rfl | rfl | rfl | rfl | rfl <;> first | rfl | exact absurd hcmd (by decide)
  obtain ⟨v₁, h₁, p₁⟩ := parsed_field hp (by decide) (k := "version") (T := ftNumber .i) (by simp [msgVersion])
  obtain ⟨v₂, h₂, p₂⟩ := parsed_field hp (by decide) (k := "services") (T := ftNumber .Q) (by simp [msgVersion])
  obtain ⟨v₄, h₄, p₄⟩ := parsed_field hp (by decide) (k := "start_height") (T := ftNumber .i) (by simp [msgVersion])
  obtain ⟨i₁, -, rfl⟩ := parsed_number p₁
  obtain ⟨i₂, -, rfl⟩ := parsed_number p₂
  obtain ⟨i₄, -, rfl⟩ := parsed_number p₄
  obtain ⟨l, hl⟩ := debugItems_ok (H := H) [("v", .int i₁), ("s", .int i₂),
      ("ua", .bytes (before ++ 10 :: (fake ++ 10 :: after))), ("sh", .int i₄)] (by
    simp only [List.forall_mem_cons]
    exact ⟨.inl ⟨_, rfl⟩, .inl ⟨_, rfl⟩, .inr ⟨_, rfl⟩, .inl ⟨_, rfl⟩, by simp⟩)
  have hargs : debugArgs ⟨"version", vs⟩ = .ok [("v", .int i₁), ("s", .int i₂),
      ("ua", .bytes (before ++ 10 :: (fake ++ 10 :: after))), ("sh", .int i₄)] := by
    show namedFields vs [("v", "version"), ("s", "services"), ("ua", "user_agent"), ("sh", "start_height")] = _
    simp only [namedFields, List.mapM_cons, List.mapM_nil, h₁, h₂, hu, h₄, ok_bind, pure_bind]
    rfl
  exact debug_forged hargs hl (k := "ua") (a := before) (b := after) (by simp) hf source magic data h

/-- The payload of an alert for the client with this name. -/
def alertFor (sub : Bytes) : Bytes :=
  numBytes .i false 0 ++ (numBytes .q false 0 ++ (numBytes .q false 0 ++ (numBytes .i false 0 ++ (numBytes .i false 0 ++
    (varSize 0 ++ (numBytes .i false 0 ++ (numBytes .i false 0 ++ ((varSize 1 ++ (varSize sub.length ++ sub)) ++
      (numBytes .i false 0 ++ (varSize 0 ++ (varSize 0 ++ (varSize 0 ++ []))))))))))))

theorem alertFor_length (sub : Bytes) : (alertFor sub).length ≤ 54 + sub.length := by
  have h1 := varSize_le sub.length
  have h0 : (varSize 0).length = 1 := rfl
  have h1' : (varSize 1).length = 1 := rfl
  have hi : (numBytes .i false 0).length = 4 := rfl
  have hq : (numBytes .q false 0).length = 8 := rfl
  simp only [alertFor, List.length_append, List.length_nil, h0, h1', hi, hq]
  omega

theorem alertFor_fill (sub : Bytes) (h : sub.length < varLimit) : alertFill alertSteps (alertFor sub) =
    ([("version", .int 0), ("relay_until", .int 0), ("expiration", .int 0), ("id", .int 0), ("cancel", .int 0),
      ("set_cancel", .tuple []), ("min_ver", .int 0), ("max_ver", .int 0), ("set_sub_ver", .tuple [.bytes sub]),
      ("priority", .int 0), ("comment", .bytes []), ("status_bar", .bytes []), ("reserved", .bytes [])], none) := by
  have num : ∀ f big af, wNumber f big af (.int 0) (numBytes f big 0) (.int 0) := by
    intro f big af
    exact .inl ⟨0, rfl, ⟨by cases f <;> decide, by cases f <;> decide⟩, rfl, rfl⟩
  have empty : wVarString (.bytes []) (varSize 0) (.bytes []) := ⟨[], by decide, .inl rfl, by simp, rfl⟩
  have hw : wFields alertFields [("version", .int 0), ("relay_until", .int 0), ("expiration", .int 0), ("id", .int 0),
      ("cancel", .int 0), ("set_cancel", .tuple []), ("min_ver", .int 0), ("max_ver", .int 0),
      ("set_sub_ver", .tuple [.bytes sub]), ("priority", .int 0), ("comment", .bytes []), ("status_bar", .bytes []),
      ("reserved", .bytes [])] (alertFor sub)
      [("version", .int 0), ("relay_until", .int 0), ("expiration", .int 0), ("id", .int 0), ("cancel", .int 0),
      ("set_cancel", .tuple []), ("min_ver", .int 0), ("max_ver", .int 0), ("set_sub_ver", .tuple [.bytes sub]),
      ("priority", .int 0), ("comment", .bytes []), ("status_bar", .bytes []), ("reserved", .bytes [])] := by
    refine ⟨_, _, _, _, _, _, num _ _ _, ?_, rfl, rfl, rfl⟩
    refine ⟨_, _, _, _, _, _, num _ _ _, ?_, rfl, rfl, rfl⟩
    refine ⟨_, _, _, _, _, _, num _ _ _, ?_, rfl, rfl, rfl⟩
    refine ⟨_, _, _, _, _, _, num _ _ _, ?_, rfl, rfl, rfl⟩
    refine ⟨_, _, _, _, _, _, num _ _ _, ?_, rfl, rfl, rfl⟩
    refine ⟨_, _, _, _, _, _, ⟨[], by simp, by simp, by simp, by decide, rfl, by simp, rfl⟩, ?_, rfl, rfl, rfl⟩
    refine ⟨_, _, _, _, _, _, num _ _ _, ?_, rfl, rfl, rfl⟩
    refine ⟨_, _, _, _, _, _, num _ _ _, ?_, rfl, rfl, rfl⟩
    refine ⟨_, _, _, _, _, _, ⟨[(.bytes sub, varSize sub.length ++ sub, .bytes sub)], ?_, by simp, by simp, by simp [varLimit], rfl,
      by simp, rfl⟩, ?_, rfl, rfl, rfl⟩
    · intro t ht
      rw [List.mem_singleton.1 ht]
      exact ⟨sub, h, .inl rfl, rfl, rfl⟩
    refine ⟨_, _, _, _, _, _, num _ _ _, ?_, rfl, rfl, rfl⟩
    refine ⟨_, _, _, _, _, _, empty, ?_, rfl, rfl, rfl⟩
    refine ⟨_, _, _, _, _, _, empty, ?_, rfl, rfl, rfl⟩
    exact ⟨_, _, _, _, _, _, empty, ⟨rfl, rfl, rfl⟩, rfl, rfl, rfl⟩
  have := alert_fill _ _ _ hw []
  rw [List.append_nil] at this
  exact this

/-- C157 fails in Python 2 at the level of the protocol: a peer puts any line of its choice into the log with an alert. -/
theorem C157_alert_false (source : List Char) (magic : Bytes) (hm : magic.length = 4) (fake : Bytes) (hf : (10 : UInt8) ∉ fake)
    (hl : fake.length < 2 ^ 31) :
    ∃ payload, payload.length < 2 ^ 32 ∧
      latin1Decode fake ∈ logLines (frameLog .py2 H 0 source magic (wireFrame H magic "alert" payload)) := by
  have hs : ([] ++ 10 :: (fake ++ 10 :: ([] : Bytes)) : Bytes).length = fake.length + 2 := by simp
  generalize hsub : ([] ++ 10 :: (fake ++ 10 :: ([] : Bytes)) : Bytes) = sub at hs
  have hlim : sub.length < varLimit := by unfold varLimit; omega
  have hal : (alertFor sub).length < varLimit := by
    have := alertFor_length sub
    unfold varLimit
    omega
  have hw : wFields [("payload", wVarString), ("signature", wVarString)]
      [("payload", .bytes (alertFor sub)), ("signature", .bytes [])]
      ((varSize (alertFor sub).length ++ alertFor sub) ++ ((varSize 0 ++ []) ++ []))
      [("payload", .bytes (alertFor sub)), ("signature", .bytes [])] :=
    ⟨_, _, _, _, _, _, ⟨_, hal, .inl rfl, rfl, rfl⟩, ⟨_, _, _, _, _, _, ⟨[], by decide, .inl rfl, rfl, rfl⟩,
      ⟨rfl, rfl, rfl⟩, rfl, rfl, rfl⟩, rfl, rfl, rfl⟩
  have hp := parseFields_zero (ps := msgAlert.props) (.cons ftVarString_refines (.cons ftVarString_refines .nil)) hw []
  have hlen : ((varSize (alertFor sub).length ++ alertFor sub) ++ ((varSize 0 ++ []) ++ []) : Bytes).length < 2 ^ 32 := by
    have h2 := varSize_le (alertFor sub).length
    have h3 := alertFor_length sub
    have h0 : (varSize 0).length = 1 := rfl
    simp only [List.length_append, List.length_nil, h0]
    omega
  refine ⟨_, hlen, ?_⟩
  have h := parseMessage_frame H (t := msgAlert) (by simp [registry]) _ magic [] hm hlen
  rw [List.append_nil] at hp
  rw [hp, List.append_nil] at h
  have hfill := alertFor_fill sub hlim
  have ht : alertText .py2 [("payload", .bytes (alertFor sub)), ("signature", .bytes [])] =
      .ok ((lit "<message.Alert version=" ++ decText 0 ++ lit " relay_until=" ++ decText 0 ++ lit " expiration=" ++ decText 0 ++
        lit " id=" ++ decText 0 ++ lit " cancel=" ++ decText 0 ++ lit " cancel_set=[" ++ [] ++ lit "] min_ver=" ++ decText 0 ++
        lit " maxver=" ++ decText 0 ++ lit " set_sub_ver=[") ++ latin1Decode sub ++ lit "] priority=" ++ decText 0 ++
        lit " comment=" ++ reprBytes .py2 [] ++ lit " status_bar=" ++ reprBytes .py2 [] ++ lit " reserverd=" ++
        reprBytes .py2 [] ++ lit ">") := by
    have e0 : getField [("payload", Val.bytes (alertFor sub)), ("signature", .bytes [])] "payload" =
        .ok (.bytes (alertFor sub)) := rfl
    simp only [alertText, e0, ok_bind, payloadBytes, alertGet, hfill]
    rfl
  generalize (lit "<message.Alert version=" ++ decText 0 ++ lit " relay_until=" ++ decText 0 ++ lit " expiration=" ++ decText 0 ++
        lit " id=" ++ decText 0 ++ lit " cancel=" ++ decText 0 ++ lit " cancel_set=[" ++ [] ++ lit "] min_ver=" ++ decText 0 ++
        lit " maxver=" ++ decText 0 ++ lit " set_sub_ver=[") = x at ht
  have hr : receivedText .py2 H 0 ⟨"alert", [("payload", .bytes (alertFor sub)), ("signature", .bytes [])]⟩ = (do
      let t ← alertText .py2 [("payload", .bytes (alertFor sub)), ("signature", .bytes [])]
      .ok (some (lit "<<< " ++ t))) := rfl
  rw [ht, ok_bind] at hr
  have h : parseMessage H (wireFrame H magic "alert" _) magic =
      .ok ⟨"alert", [("payload", .bytes (alertFor sub)), ("signature", .bytes [])]⟩ := h
  unfold frameLog
  rw [h]
  simp only [hr, Option.toList_some, List.map_cons, List.map_nil, List.cons_append, List.nil_append]
  refine forged (a := lit "<<< " ++ x) (b := lit "] priority=" ++ decText 0 ++
        lit " comment=" ++ reprBytes .py2 [] ++ lit " status_bar=" ++ reprBytes .py2 [] ++ lit " reserverd=" ++
        reprBytes .py2 [] ++ lit ">") ?_ (decode_newline hf) _
  rw [← hsub, decode_between]
  simp [latin1Decode]

/-! ### Refused frames -/

/-- The value of a hexadecimal digit. -/
def hexOf (c : Char) : Nat := if c.toNat < 58 then c.toNat - 48 else c.toNat - 87

/-- The first character of what stands between the quotes of a literal. -/
def readChar : List Char → Option (Char × List Char)
  | '\\' :: 't' :: r => some ('\t', r)
  | '\\' :: 'n' :: r => some ('\n', r)
  | '\\' :: 'r' :: r => some ('\r', r)
  | '\\' :: 'x' :: a :: b :: r => some (Char.ofNat (16 * hexOf a + hexOf b), r)
  | '\\' :: c :: r => some (c, r)
  | c :: r => some (c, r)
  | [] => none

theorem hexOf_digit : ∀ n < 16, hexOf (Nat.digitChar n) = n := by decide

theorem readChar_plain {c : Char} (h : c ≠ '\\') (r : List Char) : readChar (c :: r) = some (c, r) := by
  unfold readChar
  split <;> simp_all

theorem readChar_repr {q c : Char} (hq : q = '\'' ∨ q = '"') (hc : c.toNat < 256) (r : List Char) :
    readChar (reprChar (fun _ => false) q c ++ r) = some (c, r) := by
  have esc : readChar (hexEscape c.toNat ++ r) = some (c, r) := by
    show some (Char.ofNat (16 * hexOf (Nat.digitChar (c.toNat / 16 % 16)) + hexOf (Nat.digitChar (c.toNat % 16))), r) = _
    rw [hexOf_digit _ (Nat.mod_lt _ (by decide)), hexOf_digit _ (Nat.mod_lt _ (by decide)),
      show 16 * (c.toNat / 16 % 16) + c.toNat % 16 = c.toNat by omega, Char.ofNat_toNat]
  unfold reprChar
  split
  · rename_i h
    rcases h with rfl | rfl
    · rcases hq with rfl | rfl <;> rfl
    · rfl
  rename_i hn
  split
  · rename_i h; subst h; rfl
  split
  · rename_i h; subst h; rfl
  split
  · rename_i h; subst h; rfl
  split
  · exact esc
  split
  · exact readChar_plain (fun e => hn (.inr e)) r
  rw [if_neg (by simp)]
  exact esc

theorem reprChar_head {q c : Char} (hq : q = '\'' ∨ q = '"') (r : List Char) :
    (reprChar (fun _ => false) q c ++ r).head? ≠ some q := by
  have h1 : '\\' ≠ q := by rcases hq with rfl | rfl <;> decide
  unfold reprChar hexEscape
  repeat' split
  all_goals simp_all

/-- What is between the quotes, and what follows them, can be told from the text. -/
theorem literal_inj {q : Char} (hq : q = '\'' ∨ q = '"') {a b : List Char} (ha : ∀ c ∈ a, c.toNat < 256)
    (hb : ∀ c ∈ b, c.toNat < 256) {r s : List Char}
    (h : a.flatMap (reprChar (fun _ => false) q) ++ q :: r = b.flatMap (reprChar (fun _ => false) q) ++ q :: s) : a = b := by
  induction a generalizing b with
  | nil =>
    cases b with
    | nil => rfl
    | cons d b =>
      have := reprChar_head (c := d) hq (b.flatMap (reprChar (fun _ => false) q) ++ q :: s)
      rw [← List.append_assoc, ← List.flatMap_cons, ← h] at this
      simp at this
  | cons c a ih =>
    cases b with
    | nil =>
      have := reprChar_head (c := c) hq (a.flatMap (reprChar (fun _ => false) q) ++ q :: r)
      rw [← List.append_assoc, ← List.flatMap_cons, h] at this
      simp at this
    | cons d b =>
      rw [List.flatMap_cons, List.flatMap_cons, List.append_assoc, List.append_assoc] at h
      have h' := congrArg readChar h
      rw [readChar_repr hq (ha c (by simp)), readChar_repr hq (hb d (by simp))] at h'
      simp only [Option.some.injEq, Prod.mk.injEq] at h'
      rw [h'.1, ih (fun x hx => ha x (by simp [hx])) (fun x hx => hb x (by simp [hx])) h'.2]

theorem reprBytes_inj {ver : PyVer} {a b : Bytes} {r s : List Char} (h : reprBytes ver a ++ r = reprBytes ver b ++ s) :
    a = b := by
  have quote : ∀ s : List Char, reprQuote s = '\'' ∨ reprQuote s = '"' := by
    intro s
    unfold reprQuote
    split <;> simp
  have small : ∀ x : Bytes, ∀ c ∈ latin1Decode x, c.toNat < 256 := by
    intro x c hc
    obtain ⟨y, -, rfl⟩ := List.mem_map.1 hc
    rw [latin1_byte _ y.toNat_lt]
    exact y.toNat_lt
  have main : reprWith (fun _ => false) (latin1Decode a) ++ r = reprWith (fun _ => false) (latin1Decode b) ++ s → a = b := by
    intro h
    simp only [reprWith, List.cons_append, List.append_assoc, List.nil_append, List.cons.injEq] at h
    rw [h.1] at h
    exact latin1Decode_inj (literal_inj (quote _) (small a) (small b) h.2)
  cases ver with
  | py2 => exact main h
  | py3 =>
    simp only [reprBytes, List.cons_append, List.cons.injEq, true_and] at h
    exact main h

/-- A frame that is refused is named in the log, by the node and not the peer, whole and in quotes; up to the level of
information there is no other entry and above it none. -/
theorem C157_refused (ver : PyVer) (level : Int) (source : List Char) (magic data : Bytes) (e : PyErr)
    (h : parseMessage H data magic = .error e) (he : e = .unknownMsgError ∨ e = .msgFormatError) :
    ∃ why, Clean why ∧ frameLog ver H level source magic data = if level ≤ 2 then
      [lit "(node) invalid command: " ++ reprBytes ver data ++ lit " (" ++ why ++ lit ")" ++ ['\n']] else [] := by
  refine ⟨invalidText ver H data magic, invalid_clean ver data magic, ?_⟩
  unfold frameLog
  rw [h]
  have : levelInfo = 2 := rfl
  simp only [he, true_and, this]
  split
  · simp [logLine, lit]
  · rfl

/-- No two frames that are refused leave the same entry. -/
theorem C157_told_apart (ver : PyVer) (level : Int) (hl : level ≤ 2) (source source' : List Char) (magic data data' : Bytes)
    (e e' : PyErr) (h : parseMessage H data magic = .error e) (he : e = .unknownMsgError ∨ e = .msgFormatError)
    (h' : parseMessage H data' magic = .error e') (he' : e' = .unknownMsgError ∨ e' = .msgFormatError) :
    frameLog ver H level source magic data = frameLog ver H level source' magic data' ↔ data = data' := by
  obtain ⟨w, -, h1⟩ := C157_refused ver level source magic data e h he
  obtain ⟨w', -, h2⟩ := C157_refused ver level source' magic data' e' h' he'
  constructor
  · intro hh
    rw [h1, h2, if_pos hl, if_pos hl, List.cons.injEq] at hh
    have := hh.1
    simp only [List.append_assoc] at this
    exact reprBytes_inj (List.append_cancel_left this)
  · rintro rfl
    unfold frameLog
    rw [h]

/-! ### Whether there is a text -/

/-- The kind of what is shown -/
def kindOf : Shown → TextKind
  | .text _ => .text
  | .bytes _ => .bytes

/-- The two models of a method agree. -/
def Agree (s : StrFn) (t : TextFn) : Prop := ∀ v, s v = (t v).map kindOf

theorem agree_plain (ver : PyVer) : Agree strPlain (textPlain ver) := by
  intro v
  cases v <;> rfl

theorem agree_repr (ver : PyVer) : Agree strPlain (textRepr ver) := by
  intro v
  cases v <;> rfl

theorem agree_bytes (ver : PyVer) : Agree (strBytes ver) (textBytes ver) := by
  intro v
  cases v <;> cases ver <;> rfl

theorem agree_mapM {s : StrFn} {t : TextFn} (h : Agree s t) (l : List Val) :
    l.mapM s = (l.mapM t).map (·.map kindOf) := by
  induction l with
  | nil => rfl
  | cons x l ih =>
    rw [List.mapM_cons, List.mapM_cons, h x, ih]
    cases t x with
    | error e => rfl
    | ok k => cases l.mapM t <;> rfl

theorem agree_join (ks : List Shown) : joinText (ks.map kindOf) = (onlyText ks).map (fun _ => ()) := by
  induction ks with
  | nil => rfl
  | cons k ks ih =>
    cases k with
    | bytes b => simp [joinText, kindOf, onlyText]; rfl
    | text t =>
      have : joinText ((Shown.text t :: ks).map kindOf) = joinText (ks.map kindOf) := by
        simp [joinText, kindOf]
      rw [this, ih]
      simp only [onlyText]
      cases onlyText ks <;> rfl

theorem agree_array {s : StrFn} {t : TextFn} (h : Agree s t) : Agree (strArray s) (textArray t) := by
  intro v
  cases v with
  | tuple l =>
    simp only [strArray, textArray, agree_mapM h l]
    cases l.mapM t with
    | error e => rfl
    | ok ks =>
      simp only [Except.map, ok_bind, agree_join ks]
      cases onlyText ks <;> rfl
  | _ => rfl

/-- The names are the same and the methods agree. -/
inductive AgreeAll : List (String × StrFn) → List (String × TextFn) → Prop
  | nil : AgreeAll [] []
  | cons {k : String} {s : StrFn} {t : TextFn} {ss : List (String × StrFn)} {ts : List (String × TextFn)} :
      Agree s t → AgreeAll ss ts → AgreeAll ((k, s) :: ss) ((k, t) :: ts)

theorem agree_comp {ver : PyVer} {name : String} {ss : List (String × StrFn)} {ts : List (String × TextFn)}
    (h : AgreeAll ss ts) (vs : List (String × Val)) : compStr ss vs = (compText ver name ts vs).map (fun _ => ()) := by
  have key : compStr ss vs = (fieldTexts ver ts vs).map (fun _ => ()) := by
    induction h with
    | nil => rfl
    | @cons k s t ss ts hs h ih =>
      simp only [compStr, fieldTexts]
      cases getField vs k with
      | error e => rfl
      | ok v =>
        simp only [ok_bind, hs v]
        cases t v with
        | error e => rfl
        | ok x =>
          simp only [Except.map, ok_bind, ih]
          cases fieldTexts ver ts vs <;> rfl
  rw [key, compText]
  cases fieldTexts ver ts vs <;> rfl

theorem agree_object {ver : PyVer} {name : String} {ss : List (String × StrFn)} {ts : List (String × TextFn)}
    (h : AgreeAll ss ts) : Agree (strObject ss) (textObject ver name ts) := by
  intro v
  cases v with
  | obj cls fields =>
    simp only [strObject, textObject, agree_comp (ver := ver) (name := name) h fields]
    cases compText ver name ts fields <;> rfl
  | _ => rfl

theorem agree_address (ver : PyVer) : AgreeAll networkAddressStr (networkAddressText ver) :=
  .cons (agree_plain ver) (.cons (agree_plain ver) (.cons (agree_plain ver) (.cons (agree_plain ver) .nil)))

theorem agree_inventory (ver : PyVer) : AgreeAll (inventoryVectorStr ver) (inventoryVectorText ver) :=
  .cons (agree_plain ver) (.cons (agree_bytes ver) .nil)

theorem agree_txnIn (ver : PyVer) : AgreeAll (txnInStr ver) (txnInText ver) :=
  .cons (agree_object (.cons (agree_bytes ver) (.cons (agree_plain ver) .nil))) (.cons (agree_repr ver)
    (.cons (agree_plain ver) .nil))

theorem agree_txnOut (ver : PyVer) : AgreeAll txnOutStr (txnOutText ver) :=
  .cons (agree_plain ver) (.cons (agree_repr ver) .nil)

theorem agree_txn (ver : PyVer) : AgreeAll (txnStr ver) (txnText ver) :=
  .cons (agree_plain ver) (.cons (agree_array (agree_object (agree_txnIn ver)))
    (.cons (agree_array (agree_object (agree_txnOut ver))) (.cons (agree_plain ver) .nil)))

theorem agree_header (ver : PyVer) {ss : List (String × StrFn)} {ts : List (String × TextFn)} (h : AgreeAll ss ts) :
    AgreeAll (headerStr ver ++ ss) (headerText ver ++ ts) :=
  .cons (agree_plain ver) (.cons (agree_bytes ver) (.cons (agree_bytes ver) (.cons (agree_plain ver) (.cons (agree_plain ver)
    (.cons (agree_plain ver) h)))))

theorem agree_ite {c : Prop} [Decidable c] {a a' : List (String × StrFn)} {b b' : List (String × TextFn)}
    (h : AgreeAll a b) (h' : AgreeAll a' b') : AgreeAll (if c then a else a') (if c then b else b') := by
  by_cases hc : c
  · rwa [if_pos hc, if_pos hc]
  · rwa [if_neg hc, if_neg hc]

theorem agree_msg (ver : PyVer) (command : String) : AgreeAll (msgStrFns ver command) (msgTextFns ver command) := by
  have p := agree_plain ver
  have b := agree_bytes ver
  have r := agree_repr ver
  have a := agree_object (ver := ver) (name := "NetworkAddress") (agree_address ver)
  unfold msgStrFns msgTextFns
  refine agree_ite ?_ ?_
  · exact .cons p (.cons p (.cons p (.cons a (.cons a (.cons b (.cons r (.cons p (.cons p .nil))))))))
  refine agree_ite ?_ ?_
  · exact .cons (agree_array a) .nil
  refine agree_ite ?_ ?_
  · exact .cons (agree_array (agree_object (agree_inventory ver))) .nil
  refine agree_ite ?_ ?_
  · exact .cons p (.cons (agree_array b) (.cons b .nil))
  refine agree_ite ?_ ?_
  · exact agree_txn ver
  refine agree_ite ?_ ?_
  · exact agree_header ver (.cons (agree_array (agree_object (agree_txn ver))) .nil)
  refine agree_ite ?_ ?_
  · exact .cons (agree_array (agree_object (agree_header ver (.cons p .nil)))) .nil
  refine agree_ite ?_ ?_
  · exact .cons b .nil
  refine agree_ite ?_ ?_
  · exact .cons r (.cons p (.cons r .nil))
  refine agree_ite ?_ ?_
  · exact .cons (agree_array p) (.cons p (.cons p (.cons p .nil)))
  refine agree_ite ?_ ?_
  · exact .cons r .nil
  refine agree_ite ?_ ?_
  · exact agree_header ver (.cons p (.cons (agree_array b) (.cons (agree_array p) .nil)))
  · exact .nil

theorem agree_value (ver : PyVer) (v : Val) : debugValue ver v = (debugValueText ver H v).map (fun _ => ()) := by
  cases v with
  | obj cls fields =>
    simp only [debugValue, debugValueText]
    split
    · cases getField fields "address" with
      | error e => rfl
      | ok a =>
        simp only [ok_bind]
        cases getField fields "port" with
        | error e => rfl
        | ok p =>
          simp only [ok_bind]
          cases toInt p with
          | error e => rfl
          | ok i => cases a <;> rfl
    split
    · cases getField fields "object_type" with
      | error e => rfl
      | ok o =>
        simp only [ok_bind]
        have ho : objectTypeOk o = (objectTypeText o).map (fun _ => ()) := by
          cases o with
          | int i =>
            simp only [objectTypeOk, objectTypeText]
            repeat' split
            all_goals first | rfl | omega
          | _ => rfl
        rw [ho]
        cases objectTypeText o with
        | error e => rfl
        | ok t =>
          simp only [ok_bind, Except.map]
          cases getField fields "hash" with
          | error e => rfl
          | ok h => cases h <;> rfl
    split
    · cases compBinary txn.props fields <;> rfl
    split
    · simp only [Util.blockHash]
      cases compBinary blockHeader.props fields <;> rfl
    split
    · exact agree_comp (agree_txnIn ver) fields
    split
    · exact agree_comp (agree_txnOut ver) fields
    · rfl
  | _ => rfl

theorem agree_item (ver : PyVer) (k : List Char) (v : Val) : debugValue ver v = (debugItem ver H k v).map (fun _ => ()) := by
  unfold debugItem
  split
  · rw [agree_value (H := H) ver v]
    cases debugValueText ver H v <;> rfl
  · cases v <;> first | rfl | (rename_i h; simp [truthy] at h)

theorem agree_items (ver : PyVer) (ps : List (String × Val)) :
    debugParams ver (ps.map (·.2)) = (debugItems ver H ps).map (fun _ => ()) := by
  induction ps with
  | nil => rfl
  | cons p ps ih =>
    obtain ⟨k, v⟩ := p
    have step : ∀ x : Py (List (List Char)), (do
        x.map (fun _ => ())
        debugParams ver (ps.map (·.2))) = ((do
        let x ← x
        let l ← debugItems ver H ps
        .ok (x ++ l)) : Py (List (List Char))).map (fun _ => ()) := by
      intro x
      rw [ih]
      cases x with
      | error e => rfl
      | ok x => cases debugItems ver H ps <;> rfl
    simp only [debugItems, ← step]
    cases v with
    | tuple l =>
      cases l with
      | nil => rfl
      | cons x l =>
        simp only [List.map_cons, debugParams, debugParam, agree_item (H := H) ver (lit k ++ lit "[0]") x]
        cases debugItem ver H (lit k ++ lit "[0]") x <;> rfl
    | _ => simp only [List.map_cons, debugParams, debugParam, agree_item (H := H) ver (lit k)]

theorem agree_text (ver : PyVer) (name : String) (ps : List (String × Val)) :
    debugParams ver (ps.map (·.2)) = (debugText ver H name ps).map (fun _ => ()) := by
  rw [agree_items (H := H), debugText]
  cases debugItems ver H ps <;> rfl

theorem agree_named (vs : List (String × Val)) (keys : List (String × String)) :
    getFields vs (keys.map (·.2)) = (namedFields vs keys).map (·.map (·.2)) := by
  induction keys with
  | nil => rfl
  | cons p ps ih =>
    have ih : (ps.map (·.2)).mapM (getField vs) = _ := ih
    simp only [getFields, namedFields, List.map_cons, List.mapM_cons, ih]
    cases getField vs p.2 with
    | error e => rfl
    | ok v =>
      simp only [ok_bind]
      cases ps.mapM (fun p => do
        let v ← getField vs p.2
        Except.ok (p.1, v)) <;> rfl

theorem agree_fields (ver : PyVer) (name : String) (vs : List (String × Val)) (keys : List (String × String)) :
    (do
      let l ← getFields vs (keys.map (·.2))
      debugParams ver l) = (do
      let l ← namedFields vs keys
      debugText ver H name l).map (fun _ => ()) := by
  rw [agree_named]
  cases namedFields vs keys with
  | error e => rfl
  | ok l => exact agree_text ver name l

/-- There is a text for the log where C131 says that one can be made, and otherwise the same exception (alerts apart). -/
theorem C157_text (ver : PyVer) (level : Int) (m : Msg) (ha : m.command ≠ "alert") :
    logText ver level m = (receivedText ver H level m).map (fun _ => ()) := by
  unfold logText receivedText
  split
  · rw [msgStr, if_neg ha, msgText, if_neg ha, agree_comp (ver := ver) (name := className m.command) (agree_msg ver m.command)]
    cases compText ver (className m.command) (msgTextFns ver m.command) m.fields <;> rfl
  split
  swap
  · rfl
  have : msgDebug ver m = (msgDebugText ver H m).map (fun _ => ()) := by
    generalize hn : className m.command = name
    unfold msgDebug msgDebugText debugArgs
    rw [hn]
    split
    · exact agree_fields ver name m.fields [("v", "version"), ("s", "services"), ("ua", "user_agent"), ("sh", "start_height")]
    split
    · exact agree_fields ver name m.fields [("a", "addr_list")]
    split
    · exact agree_fields ver name m.fields [("i", "inventory")]
    split
    · cases getField m.fields "block_locator_hashes" with
      | error e => rfl
      | ok v =>
        cases v with
        | tuple l =>
          have h : l.mapM hexlifyOk = (l.mapM hexVal').map (·.map (fun _ => ())) := by
            induction l with
            | nil => rfl
            | cons x l ih =>
              rw [List.mapM_cons, List.mapM_cons, ih]
              cases x <;> first | rfl | (cases l.mapM hexVal' <;> rfl)
          simp only [ok_bind, hexlifyAll, hexVals, h]
          cases hr : l.mapM hexVal' with
          | error e => rfl
          | ok r =>
            have hb : debugParams ver [Val.tuple r] = .ok () := by
              cases r with
              | nil => rfl
              | cons y r =>
                obtain ⟨z, -, e⟩ := mapM_mem hr y (by simp)
                cases z <;> first | (cases e; done) | skip
                injection e with e
                rw [← e]
                rfl
            have := agree_text (H := H) ver name [("blh", .tuple r)]
            rw [show ([("blh", Val.tuple r)] : List (String × Val)).map (·.2) = [Val.tuple r] from rfl, hb] at this
            exact this
        | _ => rfl
    split
    · exact agree_fields ver name m.fields [("in", "tx_in"), ("out", "tx_out")]
    split
    · cases getField m.fields "version" with
      | error e => rfl
      | ok v₁ =>
      cases getField m.fields "prev_block" with
      | error e => rfl
      | ok v₂ =>
      cases getField m.fields "merkle_root" with
      | error e => rfl
      | ok v₃ =>
      cases getField m.fields "timestamp" with
      | error e => rfl
      | ok v₄ =>
      cases getField m.fields "bits" with
      | error e => rfl
      | ok v₅ =>
      cases getField m.fields "nonce" with
      | error e => rfl
      | ok v₆ =>
      simp only [ok_bind]
      cases Util.getBlockHeader v₁ v₂ v₃ v₄ v₅ v₆ with
      | error e => rfl
      | ok b =>
        simp only [ok_bind]
        have h1 := agree_named m.fields [("t", "txns")]
        rw [show ([("t", "txns")] : List (String × String)).map (·.2) = ["txns"] from rfl] at h1
        rw [h1]
        cases namedFields m.fields [("t", "txns")] with
        | error e => rfl
        | ok l => exact agree_text (H := H) ver name (("h", .bytes (hexlify b)) :: l)
    split
    · exact agree_fields ver name m.fields [("h", "headers")]
    split
    · cases getField m.fields "nonce" with
      | error e => rfl
      | ok v =>
        cases v with
        | bytes b => exact agree_text (H := H) ver name [("n", .bytes (hexlify b))]
        | _ => rfl
    split
    · exact agree_fields ver name m.fields [("m", "message"), ("r", "reason")]
    rfl
  rw [this]
  cases msgDebugText ver H m <;> rfl

/-! ### Cases -/

/-- A ping, at both levels -/
example : frameLog .py2 Hashes.toy 1 (lit "10.0.0.1") [1, 2, 3, 4] (wireFrame Hashes.toy [1, 2, 3, 4] "ping"
      [0, 1, 2, 10, 4, 5, 6, 255]) = [lit "(10.0.0.1) <<< <Ping n=0001020a040506ff>" ++ ['\n']] ∧
    frameLog .py3 Hashes.toy 0 (lit "10.0.0.1") [1, 2, 3, 4] (wireFrame Hashes.toy [1, 2, 3, 4] "ping"
      [0, 1, 2, 10, 4, 5, 6, 255]) = [lit "(10.0.0.1) <<< <Ping nonce=b'0x0001020a040506ff'>" ++ ['\n']] := by
  decide +kernel

/-- A rejection with a newline in the reason: two lines in Python 2, one in Python 3 -/
example : logLines (frameLog .py2 Hashes.toy 1 (lit "10.0.0.1") [1, 2, 3, 4] (wireFrame Hashes.toy [1, 2, 3, 4] "reject"
      ([1, 65, 16, 4, 10] ++ [40, 66, 41]))) =
      [lit "(10.0.0.1) <<< <Reject m=A r=", lit "(B)>", lit "(10.0.0.1) error: method not defined: command_reject"] ∧
    logLines (frameLog .py3 Hashes.toy 1 (lit "10.0.0.1") [1, 2, 3, 4] (wireFrame Hashes.toy [1, 2, 3, 4] "reject"
      ([1, 65, 16, 4, 10] ++ [40, 66, 41]))) =
      [lit "(10.0.0.1) <<< <Reject m=b'A' r=b'\\n(B)'>", lit "(10.0.0.1) error: method not defined: command_reject"] := by
  decide +kernel

/-- A version whose user agent has a line of its own, which names another peer -/
example : lit "(10.0.0.9) ok" ∈ logLines (frameLog .py2 Hashes.toy 1 (lit "10.0.0.1") [1, 2, 3, 4]
    (wireFrame Hashes.toy [1, 2, 3, 4] "version" ([114, 17, 1, 0] ++ List.replicate 76 0 ++
      (15 :: 10 :: ascii "(10.0.0.9) ok" ++ [10]) ++ [0, 0, 0, 0, 1]))) := by
  decide +kernel

/-- The hypotheses of `C157_lines_partial` for an address list, in Python 2 -/
example : let data := wireFrame Hashes.toy [1, 2, 3, 4] "addr" ([1] ++ [1, 0, 0, 0] ++ [1, 0, 0, 0, 0, 0, 0, 0] ++
      List.replicate 10 0 ++ [255, 255, 10, 0, 0, 2] ++ [35, 39])
    (∀ m, parseMessage Hashes.toy data [1, 2, 3, 4] = .ok m →
      m.command ≠ "alert" ∧ m.command ≠ "version" ∧ m.command ≠ "reject") ∧
    logLines (frameLog .py2 Hashes.toy 1 (lit "10.0.0.1") [1, 2, 3, 4] data) =
      [lit "(10.0.0.1) <<< <Address len(a)=1 a[0]=10.0.0.2:8999>"] := by
  refine ⟨?_, by decide +kernel⟩
  intro m hm
  have : (parseMessage Hashes.toy (wireFrame Hashes.toy [1, 2, 3, 4] "addr" ([1] ++ [1, 0, 0, 0] ++ [1, 0, 0, 0, 0, 0, 0, 0] ++
      List.replicate 10 0 ++ [255, 255, 10, 0, 0, 2] ++ [35, 39])) [1, 2, 3, 4]).toOption.map (·.command) = some "addr" := by
    decide +kernel
  rw [hm] at this
  have : m.command = "addr" := by simpa [Except.toOption] using this
  rw [this]
  decide

/-- A newline in a frame that is refused, and a quote in it -/
example : frameLog .py3 Hashes.toy 2 (lit "10.0.0.1") [1, 2, 3, 4] [10, 39] =
    [lit "(node) invalid command: b\"\\n'\" (bad magic number)" ++ ['\n']] := by decide +kernel

/-- The same in Python 2; the address of the peer is not in the entry. -/
example : logLines (frameLog .py2 Hashes.toy 2 (lit "10.0.0.1") [1, 2, 3, 4] [10, 200]) =
    [lit "(node) invalid command: '\\n\\xc8' (bad magic number)"] := by decide +kernel

end NBC.Props
