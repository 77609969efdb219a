import Verif.Proofs.Lenient
import Verif.Proofs.Frame
import Verif.Spec.Built

/-!
# What is constructed and written
-/

namespace NBC.Proto
open NBC.Spec NBC.Spec.Wire NBC.Spec.Reading NBC.Spec.Lenient NBC.Spec.Built

/-- Whatever the type accepts and writes is in the relation. -/
def Emits (T : FType) (W : WType) : Prop :=
  ∀ w v b, Built w → T.validate w = .ok v → v.isNone = false → T.binary v = .ok b → ∃ v', W v b v'

theorem number_emits (f : Fmt) (big af : Bool) : Emits (ftNumber f big af) (wNumber f big af) := by
  intro w v b hw hv hn hb
  clear hw
  simp only [ftNumber] at hv hb
  obtain ⟨i, hi', hp⟩ := bind_ok_iff.1 hb
  obtain ⟨hr, rfl⟩ := pack_ok_iff.1 hp
  unfold numValidate at hv
  split at hv
  · rename_i j
    split_ifs at hv <;> cases hv
    · cases hi'
      exact ⟨_, .inl ⟨_, rfl, hr, rfl, rfl⟩⟩
    · cases hn
  · rename_i m k
    by_cases haf : af = true
    · rw [if_pos haf] at hv
      split_ifs at hv with h <;> cases hv
      · simp only [toInt, Except.ok.injEq, trunc_eq] at hi'
        subst hi'
        rw [range_eq] at h
        push_cast at h
        exact ⟨_, .inr ⟨haf, m, k, rfl, h.1, h.2, rfl, rfl⟩⟩
      · cases hn
    · rw [if_neg haf] at hv
      cases hv
      cases hn
  · cases hv
    cases hn

theorem relay_emits : Emits (ftOptional (ftNumber .B) (.int 1)) wRelay := by
  intro w v b hw hv hn hb
  simp only [ftOptional] at hv hb
  cases hc : (ftNumber .B).validate w with
  | error e =>
    rw [hc] at hv
    cases hv
    exact number_emits .B false false (.int 1) (.int 1) b (.int 1) rfl rfl hb
  | ok value =>
    rw [hc] at hv
    simp only [Except.ok.injEq] at hv
    by_cases h0 : value.isNone = true
    · rw [if_pos h0] at hv
      cases hv
      exact number_emits .B false false (.int 1) (.int 1) b (.int 1) rfl rfl hb
    · rw [if_neg h0] at hv
      subst hv
      exact number_emits .B false false w value b hw hc hn hb

theorem varInt_written {n : Int} {b : Bytes} (h : varIntBinary n = .ok b) : ∃ m : Nat, n = m ∧ writtenSize m b := by
  have hr : 0 ≤ n ∧ n < 2 ^ 64 := by
    unfold varIntBinary at h
    have key : ∀ {f : Fmt} {b : Bytes}, pack f false n = .ok b → lo f ≤ n ∧ n < hi f := fun h => (pack_ok_iff.1 h).1
    split_ifs at h
    · have := key h
      simp only [lo, hi, twos, bits, Bool.false_eq_true, if_false] at this
      omega
    · omega
    · omega
    · obtain ⟨_, h, -⟩ := bind_ok_iff.1 h
      have := key h
      simp only [lo, hi, twos, bits, Bool.false_eq_true, if_false] at this
      omega
  refine ⟨n.toNat, by omega, by omega, ?_⟩
  rw [show n = (n.toNat : Int) by omega, varIntBinary_eq _ (by omega)] at h
  injection h with h
  exact h.symm

theorem count_emits : Emits ftVarInteger (xCount writtenSize) := by
  intro w v b _ _ _ hb
  simp only [ftVarInteger] at hb
  split at hb
  · obtain ⟨m, rfl, hm⟩ := varInt_written hb
    exact ⟨_, m, hm, rfl, rfl⟩
  · cases hb

theorem bytes_emits (n : Nat) : Emits (ftBytes n) (wBytes n) := by
  intro w v b hw hv hn hb
  clear hw
  simp only [ftBytes] at hv hb
  split at hv
  · rename_i x
    by_cases hl : x.length = n
    · rw [if_pos hl] at hv
      cases hv
      cases hb
      exact ⟨_, hl, rfl, rfl⟩
    · rw [if_neg hl] at hv
      cases hv
      cases hn
  · cases hv
    cases hn

theorem latin1_inv {s : List Char} {b : Bytes} (h : latin1Encode s = .ok b) :
    s = b.map (fun x => Char.ofNat x.toNat) := by
  unfold latin1Encode at h
  by_cases hs : s.all (fun c => decide (c.toNat < 256)) = true
  · rw [if_pos hs] at h
    injection h with h
    subst h
    rw [List.map_map]
    symm
    conv_rhs => rw [← List.map_id s]
    refine List.map_congr_left (fun c hc => ?_)
    have : c.toNat < 256 := by simpa using List.all_eq_true.1 hs c hc
    simp only [Function.comp, id]
    rw [UInt8.toNat_ofNat', Nat.mod_eq_of_lt this]
    exact Char.ofNat_toNat c
  · rw [if_neg hs] at h
    cases h

theorem string_written {s b : Bytes} (h : varStringBinary s = .ok b) : ∃ p, writtenSize s.length p ∧ b = p ++ s := by
  unfold varStringBinary at h
  obtain ⟨p, hp, h⟩ := bind_ok_iff.1 h
  obtain ⟨m, hm, hs⟩ := varInt_written hp
  injection h with h
  refine ⟨p, ?_, h.symm⟩
  rwa [show s.length = m by exact_mod_cast hm]

theorem string_emits : Emits ftVarString (xString writtenSize) := by
  intro w v b _ _ _ hb
  simp only [ftVarString] at hb
  split at hb
  · obtain ⟨p, hp, rfl⟩ := string_written hb
    exact ⟨_, p, _, hp, .inl rfl, rfl, rfl⟩
  · obtain ⟨s, hs, hb⟩ := bind_ok_iff.1 hb
    obtain ⟨p, hp, rfl⟩ := string_written hb
    exact ⟨_, p, s, hp, .inr (by rw [latin1_inv hs]), rfl, rfl⟩
  · cases hb

theorem packAll_length {f : Fmt} {n : Nat} {g : List Int} {b : Bytes} (h : packAll f n g = .ok b) :
    b.length = n * f.size := by
  unfold packAll at h
  by_cases hl : g.length ≠ n
  · rw [if_pos hl] at h
    cases h
  · rw [if_neg hl] at h
    obtain ⟨bs, hbs, h'⟩ := bind_ok_iff.1 h
    clear h
    injection h' with h
    subst h
    rw [← not_not.1 hl]
    clear hl
    induction g generalizing bs with
    | nil => cases hbs; simp
    | cons x xs ih =>
      rw [List.mapM_cons] at hbs
      obtain ⟨c, hc, hbs⟩ := bind_ok_iff.1 hbs
      obtain ⟨cs, hcs, hbs⟩ := bind_ok_iff.1 hbs
      cases hbs
      obtain ⟨-, rfl⟩ := pack_ok_iff.1 hc
      rw [List.flatten_cons, List.length_append, numBytes_length, ih cs hcs, List.length_cons]
      ring

theorem ipBinary_length {s : List Char} {b : Bytes} (h : ipBinary s = .ok b) : b.length = 16 := by
  unfold ipBinary at h
  split at h
  · obtain ⟨c, hc, h⟩ := bind_ok_iff.1 h
    injection h with h
    subst h
    rw [List.length_append, packAll_length hc]
    rfl
  · obtain ⟨g, -, h⟩ := bind_ok_iff.1 h
    cases g with
    | none => cases h
    | some g =>
      rw [packAll_length h]
      rfl

theorem ip_emits : Emits ftIPAddress xIp := by
  intro w v b _ _ _ hb
  simp only [ftIPAddress] at hb
  split at hb
  · exact ⟨_, _, rfl, hb, ipBinary_length hb, rfl⟩
  · cases hb

/-! ### Arrays -/

theorem mapM_emits {T : FType} {W : WType} (hT : Emits T W) {l l' : List Val} {bs : List Bytes}
    (hl : ∀ v ∈ l, Built v) (h1 : l.mapM T.validate = .ok l') (hn : ∀ v ∈ l', v.isNone = false)
    (h2 : l'.mapM T.binary = .ok bs) :
    ∃ items : List (Val × Bytes × Val), (∀ t ∈ items, W t.1 t.2.1 t.2.2) ∧ items.map (·.1) = l' ∧
      items.map (·.2.1) = bs ∧ items.length = l.length := by
  induction l generalizing l' bs with
  | nil => cases h1; cases h2; exact ⟨[], by simp, rfl, rfl, rfl⟩
  | cons x xs ih =>
    rw [List.mapM_cons] at h1
    obtain ⟨v, hv, h1⟩ := bind_ok_iff.1 h1
    obtain ⟨vs, hvs, h1⟩ := bind_ok_iff.1 h1
    cases h1
    rw [List.mapM_cons] at h2
    obtain ⟨c, hc, h2⟩ := bind_ok_iff.1 h2
    obtain ⟨cs, hcs, h2⟩ := bind_ok_iff.1 h2
    cases h2
    obtain ⟨v', hW⟩ := hT x v c (hl x (by simp)) hv (hn v (by simp)) hc
    obtain ⟨items, h3, h4, h5, h6⟩ := ih (fun y hy => hl y (by simp [hy])) hvs (fun y hy => hn y (by simp [hy])) hcs
    refine ⟨(v, c, v') :: items, ?_, by simp [h4], by simp [h5], by simp [h6]⟩
    intro t ht
    rcases List.mem_cons.1 ht with rfl | ht
    · exact hW
    · exact h3 t ht

theorem array_emits {T : FType} {W : WType} (hT : Emits T W) (a c : Option Nat) (hc : c ≠ some 0) :
    Emits (ftArray T a c) (xArray writtenSize W (a.getD 0) c) := by
  intro w v b hw hv hn hb
  simp only [ftArray] at hv
  split at hv
  · rename_i l
    have hl : ∀ v ∈ l, Built v := by cases hw; assumption
    split_ifs at hv with h1 h2
    · cases hv; cases hn
    · cases hv; cases hn
    · obtain ⟨l', hl', hv⟩ := bind_ok_iff.1 hv
      simp only [Except.ok.injEq] at hv
      by_cases hany : l'.any Val.isNone = true
      · rw [if_pos hany] at hv
        subst hv
        cases hn
      · rw [if_neg hany] at hv
        subst hv
        simp only [ftArray] at hb
        obtain ⟨p, hp, hb⟩ := bind_ok_iff.1 hb
        obtain ⟨bs, hbs, hb⟩ := bind_ok_iff.1 hb
        injection hb with hb
        subst hb
        obtain ⟨m, hm, hs⟩ := varInt_written hp
        have hm : l'.length = m := by exact_mod_cast hm
        have hnn : ∀ v ∈ l', v.isNone = false := by
          intro v hv
          by_contra h
          exact hany (List.any_eq_true.2 ⟨v, hv, by simpa using h⟩)
        obtain ⟨items, h3, h4, h5, h6⟩ := mapM_emits hT hl hl' hnn hbs
        have hlen : items.length = l'.length := by rw [← h4, List.length_map]
        refine ⟨_, p, items, by rw [hlen, hm]; exact hs, h3, ?_, ?_, by rw [h4], by rw [h5], rfl⟩
        · rw [h6]; omega
        · rintro h rfl
          rw [h6]
          simp only [Option.getD_some] at h2
          have : h ≠ 0 := fun h0 => hc (by rw [h0])
          omega
  · cases hv; cases hn

/-! ### Fields -/

inductive EmitAll : Props → List (String × WType) → Prop
  | nil : EmitAll [] []
  | cons {k : String} {T : FType} {W : WType} {ps : Props} {ws : List (String × WType)} :
      Emits T W → EmitAll ps ws → EmitAll ((k, T) :: ps) ((k, W) :: ws)

theorem init_emits {ps : Props} {ws : List (String × WType)} (hr : EmitAll ps ws) (hn : (ps.map (·.1)).Nodup)
    {params fields : List (String × Val)} {b : Bytes} (hp : ∀ e ∈ params, Built e.2)
    (h1 : initLoop params ps = .ok fields) (h2 : compBinary ps fields = .ok b) : ∃ vs', wFields ws fields b vs' := by
  induction hr generalizing fields b with
  | nil =>
    cases h1
    simp only [compBinary, List.mapM_nil] at h2
    cases h2
    exact ⟨[], rfl, rfl, rfl⟩
  | @cons k T W ps ws hT hr ih =>
    rw [List.map_cons, List.nodup_cons] at hn
    simp only [initLoop] at h1
    obtain ⟨w, hw, h1⟩ := bind_ok_iff.1 h1
    obtain ⟨v, hv, h1⟩ := bind_ok_iff.1 h1
    split_ifs at h1 with hnone
    obtain ⟨r, hr', h1⟩ := bind_ok_iff.1 h1
    injection h1 with h1
    subst h1
    have hwb : Built w := by
      unfold getField at hw
      split at hw
      · rename_i e he
        injection hw with hw
        subst hw
        exact hp _ (List.mem_of_find?_eq_some he)
      · cases hw
    unfold compBinary at h2
    rw [List.mapM_cons] at h2
    simp only [getField_head, ok_bind] at h2
    obtain ⟨bs, hbs, h2⟩ := bind_ok_iff.1 h2
    obtain ⟨c, hc, hbs⟩ := bind_ok_iff.1 hbs
    obtain ⟨cs, hcs, hbs⟩ := bind_ok_iff.1 hbs
    cases hbs
    injection h2 with h2
    have hcong : ps.mapM (fun p => do let x ← getField ((k, v) :: r) p.1; p.2.binary x) =
        ps.mapM (fun p => do let x ← getField r p.1; p.2.binary x) := by
      refine mapM_congr ps (fun p hp => ?_)
      have hk : k ≠ p.1 := by
        rintro rfl
        exact hn.1 (List.mem_map_of_mem (f := (·.1)) hp)
      simp only [getField_cons_ne hk]
    rw [hcong] at hcs
    obtain ⟨vs', hvs'⟩ := ih hn.2 hr' (b := cs.flatten) (by unfold compBinary; rw [hcs, ok_bind])
    obtain ⟨v', hv'⟩ := hT w v c hwb hv (by simpa using hnone) hc
    exact ⟨(k, v') :: vs', v, c, v', r, cs.flatten, vs', hv', hvs', rfl, by rw [← h2, List.flatten_cons], rfl⟩

theorem compInit_emits {ps : Props} {ws : List (String × WType)} (hr : EmitAll ps ws) (hn : (ps.map (·.1)).Nodup)
    {args : List Val} {kw fields : List (String × Val)} {b : Bytes} (ha : ∀ v ∈ args, Built v)
    (hk : ∀ e ∈ kw, Built e.2) (h1 : compInit ps args kw = .ok fields) (h2 : compBinary ps fields = .ok b) :
    ∃ vs', wFields ws fields b vs' := by
  unfold compInit at h1
  simp only at h1
  split_ifs at h1
  refine init_emits hr hn ?_ h1 h2
  intro e he
  rcases List.mem_append.1 he with he | he
  · exact ha _ (List.of_mem_zip he).2
  · exact hk _ he

theorem class_unique {c c' : Cls} (h : c ∈ classes) (h' : c' ∈ classes) (hn : c'.name = c.name) : c' = c := by
  simp only [classes, List.mem_cons, List.not_mem_nil, or_false] at h h'
  rcases h with rfl | rfl | rfl | rfl | rfl | rfl | rfl <;> rcases h' with rfl | rfl | rfl | rfl | rfl | rfl | rfl <;>
    first
    | rfl
    | exact absurd hn (by decide)

theorem object_inits {c : Cls} (hc : c ∈ classes) {w v : Val} (hw : Built w)
    (hv : (ftCompound c).validate w = .ok v) (hn : v.isNone = false) :
    ∃ args kw fields, (∀ v ∈ args, Built v) ∧ (∀ e ∈ kw, Built e.2) ∧ compInit c.props args kw = .ok fields ∧
      v = .obj c.name fields := by
  simp only [ftCompound] at hv
  cases hw with
  | obj c' hc' args kw fields ha hk h =>
    simp only [Except.ok.injEq] at hv
    by_cases he : c'.name = c.name
    · rw [if_pos he] at hv
      subst hv
      obtain rfl := class_unique hc hc' he
      exact ⟨args, kw, fields, ha, hk, h, rfl⟩
    · rw [if_neg he] at hv
      subst hv
      cases hn
  | _ => cases hv; cases hn

theorem object_emits {c : Cls} (hc : c ∈ classes) {ws : List (String × WType)} (h : EmitAll c.props ws)
    (hnd : (c.props.map (·.1)).Nodup) : Emits (ftCompound c) (wObject c.name ws) := by
  intro w v b hw hv hn hb
  obtain ⟨args, kw, fields, ha, hk, hi', rfl⟩ := object_inits hc hw hv hn
  obtain ⟨vs', hvs'⟩ := compInit_emits h hnd ha hk hi' hb
  exact ⟨_, fields, vs', hvs', rfl, rfl⟩

theorem endpoint_emitAll : EmitAll networkAddress.props (("timestamp", wNumber .I false true) :: xEndpointFields) :=
  .cons (number_emits .I false true) (.cons (number_emits .Q false false) (.cons ip_emits
    (.cons (number_emits .H true false) .nil)))

theorem address_emits : Emits ftNetworkAddress xAddress :=
  object_emits (c := networkAddress) (by simp [classes]) endpoint_emitAll (by decide)

theorem endpoint_emits : Emits ftNetworkAddressNoTimestamp xEndpoint := by
  intro w v b hw hv hn hb
  simp only [ftNetworkAddressNoTimestamp] at hv hb
  obtain ⟨c, hc, hb⟩ := bind_ok_iff.1 hb
  injection hb with hb
  subst hb
  obtain ⟨v', vs, vs', ⟨t, bt, t', ts, b₂, ts', ht, hf, rfl, rfl, rfl⟩, rfl, rfl⟩ := address_emits w v c hw hv hn hc
  refine ⟨_, t, bt, t', ts, ts', ht, ?_, rfl, rfl⟩
  have : (bt ++ b₂).drop 4 = b₂ := List.drop_left' (wNumber_length ht)
  rw [this]
  exact hf

/-! ### Messages -/

theorem txn_emits : EmitAll txn.props (xTx writtenSize) :=
  .cons (number_emits .I false false) (.cons (array_emits (object_emits (c := txnIn) (by simp [classes])
    (.cons (object_emits (c := outPoint) (by simp [classes]) (.cons (bytes_emits 32)
      (.cons (number_emits .I false false) .nil)) (by decide)) (.cons string_emits
        (.cons (number_emits .I false false) .nil))) (by decide)) _ _ (by simp))
    (.cons (array_emits (object_emits (c := txnOut) (by simp [classes]) (.cons (number_emits .q false false)
      (.cons string_emits .nil)) (by decide)) _ _ (by simp)) (.cons (number_emits .I false false) .nil)))

theorem header_emits {ps : Props} {ws : List (String × WType)} (h : EmitAll ps ws) :
    EmitAll (("version", ftNumber .I) :: ("prev_block", ftBytes 32) :: ("merkle_root", ftBytes 32) ::
      ("timestamp", ftNumber .I (allowFloat := true)) :: ("bits", ftNumber .I) :: ("nonce", ftNumber .I) :: ps)
      (headerFields ++ ws) :=
  .cons (number_emits .I false false) (.cons (bytes_emits 32) (.cons (bytes_emits 32)
    (.cons (number_emits .I false true) (.cons (number_emits .I false false)
      (.cons (number_emits .I false false) h)))))

theorem registry_emits :
    List.Forall₂ (fun t e => t.command = e.1 ∧ EmitAll t.props e.2) registry (sent writtenSize writtenSize) := by
  have hinv : EmitAll invProps (xInventory writtenSize) :=
    .cons (array_emits (object_emits (c := inventoryVector) (by simp [classes]) (.cons (number_emits .I false false)
      (.cons (bytes_emits 32) .nil)) (by decide)) _ _ (by simp)) .nil
  have hloc : EmitAll getBlocksProps (xLocator writtenSize) :=
    .cons (number_emits .I false false) (.cons (array_emits (bytes_emits 32) _ _ (by simp))
      (.cons (bytes_emits 32) .nil))
  refine .cons ⟨rfl, ?_⟩ (.cons ⟨rfl, .nil⟩ (.cons ⟨rfl, .cons (array_emits address_emits _ _ (by simp)) .nil⟩
    (.cons ⟨rfl, hinv⟩ (.cons ⟨rfl, hinv⟩ (.cons ⟨rfl, hinv⟩
    (.cons ⟨rfl, hloc⟩ (.cons ⟨rfl, hloc⟩ (.cons ⟨rfl, txn_emits⟩ (.cons ⟨rfl, ?_⟩
    (.cons ⟨rfl, ?_⟩ (.cons ⟨rfl, .nil⟩ (.cons ⟨rfl, .nil⟩ (.cons ⟨rfl, ?_⟩ (.cons ⟨rfl, ?_⟩ (.cons ⟨rfl, ?_⟩
    (.cons ⟨rfl, ?_⟩ (.cons ⟨rfl, .cons string_emits .nil⟩ (.cons ⟨rfl, .nil⟩ (.cons ⟨rfl, ?_⟩
    (.cons ⟨rfl, .cons string_emits (.cons string_emits .nil)⟩ .nil))))))))))))))))))))
  · exact .cons (number_emits .i false false) (.cons (number_emits .Q false false)
      (.cons (number_emits .q false true) (.cons endpoint_emits (.cons endpoint_emits
        (.cons (bytes_emits 8) (.cons string_emits (.cons (number_emits .i false false)
          (.cons relay_emits .nil))))))))
  · exact header_emits (.cons (array_emits (object_emits (c := txn) (by simp [classes]) txn_emits (by decide)) _ _
      (by simp)) .nil)
  · exact .cons (array_emits (object_emits (c := blockHeader) (by simp [classes])
      (header_emits (.cons count_emits .nil)) (by decide)) _ _ (by simp)) .nil
  · exact .cons (bytes_emits 8) .nil
  · exact .cons (bytes_emits 8) .nil
  · exact .cons string_emits (.cons (number_emits .B false false) (.cons string_emits .nil))
  · exact .cons (array_emits (number_emits .B false false) _ _ (by simp)) (.cons (number_emits .I false false)
      (.cons (number_emits .I false false) (.cons (number_emits .B false false) .nil)))
  · exact header_emits (.cons (number_emits .I false false) (.cons (array_emits (bytes_emits 32) _ _ (by simp))
      (.cons (array_emits (number_emits .b false false) _ _ (by simp)) .nil)))

/-! ### The texts -/

/-- What is written, if shorter than `N`, is a text of what it stands for. -/
def TextOf (N : Nat) (W : WType) (R : RType) : Prop := ∀ v b v', W v b v' → b.length < N → R b v'

/-- The texts in front of fewer than `N` bytes (including the text) are in `T`. -/
def Within (N : Nat) (S T : Sizes) : Prop := ∀ n p, S n p → n + p.length < N → T n p

/-- No empty texts. -/
def Solid (W : WType) : Prop := ∀ v b v', W v b v' → b ≠ []

theorem number_text (N : Nat) (f : Fmt) (big af : Bool) : TextOf N (wNumber f big af) (rNumber f big) := by
  rintro v b v' (⟨i, rfl, hr, rfl, rfl⟩ | ⟨-, m, k, rfl, hl, hh, rfl, rfl⟩) -
  · exact ⟨i, hr, rfl, rfl⟩
  · exact ⟨trunc m k, trunc_inRange hl hh, rfl, rfl⟩

theorem bytes_text (N n : Nat) : TextOf N (wBytes n) (rBytes n) := by
  rintro v b v' ⟨hl, rfl, rfl⟩ -
  exact ⟨hl, rfl⟩

theorem string_text {N : Nat} {S T : Sizes} (h : Within N S T) : TextOf N (xString S) (rString T) := by
  rintro v b v' ⟨p, s, hS, -, rfl, rfl⟩ hb
  rw [List.length_append] at hb
  exact ⟨p, s, h _ _ hS (by omega), rfl, rfl⟩

theorem ip_text (N : Nat) : TextOf N xIp rIp := by
  rintro v b v' ⟨s, rfl, -, hl, rfl⟩ -
  exact ⟨hl, rfl⟩

theorem length_le_flatten {l : List Bytes} (h : ∀ b ∈ l, b ≠ []) : l.length ≤ l.flatten.length := by
  induction l with
  | nil => simp
  | cons b l ih =>
    have := ih (fun c hc => h c (by simp [hc]))
    have := List.length_pos_iff.2 (h b (by simp))
    simp only [List.flatten_cons, List.length_append, List.length_cons]
    omega

theorem array_text {N : Nat} {S T : Sizes} (h : Within N S T) {W : WType} {R : RType} (hW : TextOf N W R)
    (hs : Solid W) (a : Nat) (c : Option Nat) : TextOf N (xArray S W a c) (rArray T R) := by
  rintro v b v' ⟨p, items, hS, hi', -, -, rfl, rfl, rfl⟩ hb
  rw [List.length_append] at hb
  have hlen : (items.map (·.2.1)).length ≤ (items.map (·.2.1)).flatten.length := by
    refine length_le_flatten (fun b hb => ?_)
    obtain ⟨t, ht, rfl⟩ := List.mem_map.1 hb
    exact hs _ _ _ (hi' t ht)
  rw [List.length_map] at hlen
  refine ⟨p, items.map (·.2), by rw [List.length_map]; exact h _ _ hS (by omega), ?_, ?_, ?_⟩
  · intro t ht
    obtain ⟨t', ht', rfl⟩ := List.mem_map.1 ht
    refine hW _ _ _ (hi' t' ht') ?_
    have : t'.2.1.length ≤ (items.map (·.2.1)).flatten.length :=
      (List.sublist_flatten_of_mem (List.mem_map_of_mem (f := fun t : Val × Bytes × Val => t.2.1) ht')).length_le
    omega
  · rw [List.map_map]
    rfl
  · rw [List.map_map]
    rfl

inductive TextAll (N : Nat) : List (String × WType) → List (String × RType) → Prop
  | nil : TextAll N [] []
  | cons {k : String} {W : WType} {R : RType} {ws : List (String × WType)} {rs : List (String × RType)} :
      TextOf N W R → TextAll N ws rs → TextAll N ((k, W) :: ws) ((k, R) :: rs)

theorem fields_text {N : Nat} {ws : List (String × WType)} {rs : List (String × RType)} (h : TextAll N ws rs)
    {vs vs' : List (String × Val)} {b : Bytes} (hw : wFields ws vs b vs') (hb : b.length < N) : rFields rs b vs' := by
  induction h generalizing vs b vs' with
  | nil =>
    obtain ⟨rfl, rfl, rfl⟩ := hw
    exact ⟨rfl, rfl⟩
  | cons hW _ ih =>
    obtain ⟨v, b₁, v', ts, b₂, ts', h1, h2, rfl, rfl, rfl⟩ := hw
    rw [List.length_append] at hb
    exact ⟨b₁, v', b₂, ts', hW _ _ _ h1 (by omega), ih h2 (by omega), rfl, rfl⟩

theorem object_text {N : Nat} {ws : List (String × WType)} {rs : List (String × RType)} (h : TextAll N ws rs)
    (name : String) : TextOf N (wObject name ws) (rObject name rs) := by
  rintro v b v' ⟨vs, vs', hf, rfl, rfl⟩ hb
  exact ⟨vs', fields_text h hf hb, rfl⟩

theorem number_solid (f : Fmt) (big af : Bool) : Solid (wNumber f big af) := by
  rintro v b v' h rfl
  have := wNumber_length h
  cases f <;> exact absurd this (by decide)

theorem bytes_solid {n : Nat} (hn : n ≠ 0) : Solid (wBytes n) := by
  rintro v b v' ⟨hl, -, -⟩ rfl
  exact hn hl.symm

theorem object_solid {k : String} {W : WType} (h : Solid W) (ws : List (String × WType)) (name : String) :
    Solid (wObject name ((k, W) :: ws)) := by
  rintro v b v' ⟨vs, vs', ⟨v1, b₁, v1', ts, b₂, ts', h1, -, -, rfl, -⟩, -, -⟩ e
  exact h _ _ _ h1 (List.append_eq_nil_iff.1 e).1

theorem endpoint_texts (N : Nat) : TextAll N xEndpointFields (fulls endpoint) :=
  .cons (number_text _ .Q false false) (.cons (ip_text N) (.cons (number_text _ .H true false) .nil))

theorem endpoint_text (N : Nat) : TextOf N xEndpoint lEndpoint.full := by
  rintro v b v' ⟨t, bt, t', vs, vs', -, hf, rfl, rfl⟩ hb
  exact ⟨vs', fields_text (endpoint_texts N) hf hb, rfl⟩

theorem tx_text {N : Nat} {S T : Sizes} (h : Within N S T) : TextAll N (xTx S) (fulls (lTx T)) :=
  .cons (number_text N .I false false) (.cons (array_text h (object_text
    (.cons (object_text (.cons (bytes_text N 32) (.cons (number_text N .I false false) .nil)) _) (.cons (string_text h)
      (.cons (number_text N .I false false) .nil))) _) (object_solid (object_solid (bytes_solid (by decide)) _ _) _ _) _ _)
    (.cons (array_text h (object_text (.cons (number_text N .q false false) (.cons (string_text h) .nil)) _)
      (object_solid (number_solid _ _ _) _ _) _ _) (.cons (number_text N .I false false) .nil)))

theorem header_text {N : Nat} {ws : List (String × WType)} {ls : List (String × LType)} (h : TextAll N ws (fulls ls)) :
    TextAll N (headerFields ++ ws) (fulls (lHeader ++ ls)) :=
  .cons (number_text N .I false false) (.cons (bytes_text N 32) (.cons (bytes_text N 32)
    (.cons (number_text N .I false true) (.cons (number_text N .I false false)
      (.cons (number_text N .I false false) h)))))

theorem sent_texts {N : Nat} {S V T : Sizes} (h : Within N S T) (hV : ∀ n p, V n p → T n p) :
    List.Forall₂ (fun e l => e.1 = l.1 ∧ TextAll N e.2 (fulls l.2)) (sent S V) (languages T) := by
  have hinv : TextAll N (xInventory S) (fulls (lInventory T)) :=
    .cons (array_text h (object_text (.cons (number_text N .I false false) (.cons (bytes_text N 32) .nil)) _)
      (object_solid (number_solid _ _ _) _ _) _ _) .nil
  have hloc : TextAll N (xLocator S) (fulls (lLocator T)) :=
    .cons (number_text N .I false false) (.cons (array_text h (bytes_text N 32) (bytes_solid (by decide)) _ _)
      (.cons (bytes_text N 32) .nil))
  refine .cons ⟨rfl, ?_⟩ (.cons ⟨rfl, .nil⟩ (.cons ⟨rfl, ?_⟩
    (.cons ⟨rfl, hinv⟩ (.cons ⟨rfl, hinv⟩ (.cons ⟨rfl, hinv⟩
    (.cons ⟨rfl, hloc⟩ (.cons ⟨rfl, hloc⟩ (.cons ⟨rfl, tx_text h⟩ (.cons ⟨rfl, ?_⟩
    (.cons ⟨rfl, ?_⟩ (.cons ⟨rfl, .nil⟩ (.cons ⟨rfl, .nil⟩ (.cons ⟨rfl, ?_⟩ (.cons ⟨rfl, ?_⟩ (.cons ⟨rfl, ?_⟩
    (.cons ⟨rfl, ?_⟩ (.cons ⟨rfl, .cons (string_text h) .nil⟩ (.cons ⟨rfl, .nil⟩ (.cons ⟨rfl, ?_⟩
    (.cons ⟨rfl, .cons (string_text h) (.cons (string_text h) .nil)⟩ .nil))))))))))))))))))))
  · exact .cons (number_text N .i false false) (.cons (number_text N .Q false false)
      (.cons (number_text N .q false true) (.cons (endpoint_text N) (.cons (endpoint_text N)
        (.cons (bytes_text N 8) (.cons (string_text h) (.cons (number_text N .i false false)
          (.cons (number_text N .B false false) .nil))))))))
  · exact .cons (array_text h (object_text (.cons (number_text N .I false true) (endpoint_texts N)) _)
      (object_solid (number_solid _ _ _) _ _) _ _) .nil
  · exact header_text (ls := [_]) (.cons (array_text h (object_text (tx_text h) _)
      (object_solid (number_solid _ _ _) _ _) _ _) .nil)
  · have hcount : TextOf N (xCount V) (rSize T) := by
      rintro v b v' ⟨n, hn, rfl, rfl⟩ -
      exact ⟨n, hV n b hn, rfl⟩
    exact .cons (array_text h (object_text (header_text (ls := [("txn_count", lSize T)]) (.cons hcount .nil)) _)
      (object_solid (number_solid _ _ _) _ _) _ _) .nil
  · exact .cons (bytes_text N 8) .nil
  · exact .cons (bytes_text N 8) .nil
  · exact .cons (string_text h) (.cons (number_text N .B false false) (.cons (string_text h) .nil))
  · exact .cons (array_text h (number_text N .B false false) (number_solid _ _ _) _ _) (.cons (number_text N .I false false)
      (.cons (number_text N .I false false) (.cons (number_text N .B false false) .nil)))
  · exact header_text (ls := [_, _, _]) (.cons (number_text N .I false false) (.cons (array_text h (bytes_text N 32)
      (bytes_solid (by decide)) _ _) (.cons (array_text h (number_text N .b false false) (number_solid _ _ _) _ _) .nil)))

end NBC.Proto
