import Verif.Model.LogText
import Verif.Proofs.Reading
import Verif.Proofs.Piecewise

/-!
# Texts for the log: lemmas
-/

namespace NBC.Proto
open NBC.Aes (PyVer)
open NBC.Spec NBC.Spec.Wire NBC.Spec.Reading

/-- The value was read from some text. -/
def Parsed (T : FType) (v : Val) : Prop := ∃ data l, T.parse data = .ok (l, v)

/-- A text can be made of what was read. -/
def Prints (T : FType) (s : StrFn) : Prop := ∀ v, Parsed T v → ∃ k, s v = .ok k

/-- The same, and it is not `bytes`. -/
def PrintsText (T : FType) (s : StrFn) : Prop := ∀ v, Parsed T v → s v = .ok .text

/-- What was read can be written. -/
def Dumps (T : FType) : Prop := ∀ v, Parsed T v → ∃ b, T.binary v = .ok b

theorem PrintsText.prints {T : FType} {s : StrFn} (h : PrintsText T s) : Prints T s :=
  fun v hv => ⟨_, h v hv⟩

theorem parsed_number {f : Fmt} {big af : Bool} {v : Val} (h : Parsed (ftNumber f big af) v) :
    ∃ i, inRange f i ∧ v = .int i := by
  obtain ⟨d, l, h⟩ := h
  obtain ⟨b, rest, -, -, i, hi', -, rfl⟩ := number_sound f big af d l v h
  exact ⟨i, hi', rfl⟩

theorem parsed_bytes {n : Nat} {v : Val} (h : Parsed (ftBytes n) v) : ∃ b, v = .bytes b ∧ b.length ≤ n := by
  obtain ⟨d, l, h⟩ := h
  simp only [ftBytes, Except.ok.injEq, Prod.mk.injEq] at h
  exact ⟨_, h.2.symm, by rw [List.length_take]; omega⟩

theorem readSize_lt {n : Nat} {b : Bytes} (h : readSize n b) : n < 2 ^ 32 := by
  rcases h with ⟨h, -⟩ | ⟨h, -⟩ | ⟨h, -⟩ <;> omega

theorem parsed_size {v : Val} (h : Parsed ftVarInteger v) : ∃ n : Nat, n < 2 ^ 32 ∧ v = .int n := by
  obtain ⟨d, l, h⟩ := h
  obtain ⟨b, rest, -, -, n, hn, rfl⟩ := size_sound d l v h
  exact ⟨n, readSize_lt hn, rfl⟩

theorem varIntParse_lt {d : Bytes} {l : Nat} {i : Int} (h : varIntParse d = .ok (l, i)) :
    ∃ n : Nat, n < 2 ^ 32 ∧ i = n := by
  have : ftVarInteger.parse d = .ok (l, .int i) := by simp only [ftVarInteger, h, ok_bind]
  obtain ⟨n, hn, e⟩ := parsed_size ⟨d, l, this⟩
  injection e with e
  exact ⟨n, hn, e⟩

theorem parsed_string {v : Val} (h : Parsed ftVarString v) : ∃ b, v = .bytes b ∧ b.length < 2 ^ 32 := by
  obtain ⟨d, l, h⟩ := h
  simp only [ftVarString, varStringParse, bind_ok_iff] at h
  obtain ⟨⟨l', b⟩, ⟨⟨vl, i⟩, h1, h2⟩, h3⟩ := h
  simp only [Except.ok.injEq, Prod.mk.injEq] at h2 h3
  obtain ⟨n, hn, rfl⟩ := varIntParse_lt h1
  refine ⟨b, h3.2.symm, ?_⟩
  rw [← h2.2, List.length_take]
  simp only [Int.toNat_natCast]
  omega

theorem loop_parsed {T : FType} {data : Bytes} {n off o : Nat} {vs : List Val}
    (h : varSetLoop T data n off = .ok (o, vs)) : vs.length = n ∧ ∀ v ∈ vs, Parsed T v := by
  induction n generalizing off o vs with
  | zero =>
    simp only [varSetLoop, Except.ok.injEq, Prod.mk.injEq] at h
    rw [← h.2]; simp
  | succ n ih =>
    simp only [varSetLoop, bind_ok_iff] at h
    obtain ⟨⟨l, v⟩, h1, ⟨o', ts⟩, h2, h⟩ := h
    simp only [Except.ok.injEq, Prod.mk.injEq] at h
    obtain ⟨hl, ht⟩ := ih h2
    rw [← h.2]
    refine ⟨by simp [hl], fun x hx => ?_⟩
    rcases List.mem_cons.1 hx with rfl | hx
    · exact ⟨_, _, h1⟩
    · exact ht x hx

theorem parsed_array {T : FType} {a c : Option Nat} {v : Val} (h : Parsed (ftArray T a c) v) :
    ∃ l, v = .tuple l ∧ l.length < 2 ^ 32 ∧ ∀ x ∈ l, Parsed T x := by
  obtain ⟨d, l, h⟩ := h
  simp only [ftArray, parseVarSet, bind_ok_iff] at h
  obtain ⟨⟨l', vs⟩, ⟨⟨off, i⟩, h1, h2⟩, h3⟩ := h
  simp only [Except.ok.injEq, Prod.mk.injEq] at h3
  obtain ⟨n, hn, rfl⟩ := varIntParse_lt h1
  obtain ⟨hl, hv⟩ := loop_parsed h2
  exact ⟨vs, h3.2.symm, by rw [hl]; exact_mod_cast hn, hv⟩

/-! ### Texts of field types -/

theorem plain_prints (T : FType) : PrintsText T strPlain := fun _ _ => rfl

theorem bytes_prints (ver : PyVer) (n : Nat) : Prints (ftBytes n) (strBytes ver) := by
  intro v hv
  obtain ⟨b, rfl, -⟩ := parsed_bytes hv
  exact ⟨_, rfl⟩

theorem bytes_printsText (n : Nat) : PrintsText (ftBytes n) (strBytes .py2) := by
  intro v hv
  obtain ⟨b, rfl, -⟩ := parsed_bytes hv
  rfl

theorem mapM_text {s : StrFn} {l : List Val} (h : ∀ x ∈ l, s x = .ok .text) :
    l.mapM s = .ok (List.replicate l.length .text) := by
  induction l with
  | nil => rfl
  | cons x xs ih =>
    rw [List.mapM_cons, h x (by simp), ok_bind, ih (fun y hy => h y (by simp [hy])), ok_bind]
    rfl

theorem joinText_replicate (n : Nat) : joinText (List.replicate n .text) = .ok () := by
  rw [joinText, if_neg]
  intro h
  cases List.eq_of_mem_replicate h

theorem array_prints {T : FType} {s : StrFn} (h : PrintsText T s) (a c : Option Nat) :
    PrintsText (ftArray T a c) (strArray s) := by
  intro v hv
  obtain ⟨l, rfl, -, hl⟩ := parsed_array hv
  simp only [strArray, mapM_text (fun x hx => h x (hl x hx)), joinText_replicate, ok_bind]

/-! ### Texts of objects -/

theorem parsed_field {data : Bytes} {ps : Props} {off o : Nat} {vs : List (String × Val)}
    (h : parseFields data ps off = .ok (o, vs)) (hn : (ps.map (·.1)).Nodup) {k : String} {T : FType}
    (hk : (k, T) ∈ ps) : ∃ v, getField vs k = .ok v ∧ Parsed T v := by
  induction ps generalizing off o vs with
  | nil => cases hk
  | cons p ps ih =>
    obtain ⟨k', T'⟩ := p
    obtain ⟨l, v, ts, h1, h2, rfl⟩ := parseFields_step h
    rw [List.map_cons, List.nodup_cons] at hn
    rcases List.mem_cons.1 hk with e | hk
    · cases e
      exact ⟨v, getField_head, _, _, h1⟩
    · obtain ⟨w, hw, hp⟩ := ih h2 hn.2 hk
      have : k' ≠ k := by
        rintro rfl
        exact hn.1 (List.mem_map_of_mem (f := (·.1)) hk)
      exact ⟨w, by rw [getField_cons_ne this]; exact hw, hp⟩

inductive PrintAll : Props → List (String × StrFn) → Prop
  | nil : PrintAll [] []
  | cons {k : String} {T : FType} {s : StrFn} {ps : Props} {ss : List (String × StrFn)} :
      Prints T s → PrintAll ps ss → PrintAll ((k, T) :: ps) ((k, s) :: ss)

theorem PrintAll.mem {ps : Props} {ss : List (String × StrFn)} (h : PrintAll ps ss) {k : String} {s : StrFn}
    (hk : (k, s) ∈ ss) : ∃ T, (k, T) ∈ ps ∧ Prints T s := by
  induction h with
  | nil => cases hk
  | @cons k' T s' ps ss hs h ih =>
    rcases List.mem_cons.1 hk with e | hk
    · cases e
      exact ⟨T, by simp, hs⟩
    · obtain ⟨T', h1, h2⟩ := ih hk
      exact ⟨T', by simp [h1], h2⟩

theorem compStr_of {ss : List (String × StrFn)} {vs : List (String × Val)}
    (h : ∀ p ∈ ss, ∃ v k, getField vs p.1 = .ok v ∧ p.2 v = .ok k) : compStr ss vs = .ok () := by
  induction ss with
  | nil => rfl
  | cons p ss ih =>
    obtain ⟨v, k, h1, h2⟩ := h p (by simp)
    obtain ⟨key, s⟩ := p
    simp only at h1 h2
    simp only [compStr, h1, h2, ok_bind]
    exact ih (fun q hq => h q (by simp [hq]))

theorem fields_print {ps : Props} {ss : List (String × StrFn)} (hr : PrintAll ps ss)
    (hn : (ps.map (·.1)).Nodup) {data : Bytes} {off o : Nat} {vs : List (String × Val)}
    (h : parseFields data ps off = .ok (o, vs)) : compStr ss vs = .ok () := by
  refine compStr_of (fun p hp => ?_)
  obtain ⟨T, hT, hs⟩ := hr.mem hp
  obtain ⟨v, hv, hpv⟩ := parsed_field h hn hT
  obtain ⟨k, hk⟩ := hs v hpv
  exact ⟨v, k, hv, hk⟩

theorem parsed_object {c : Cls} {v : Val} (h : Parsed (ftCompound c) v) :
    ∃ data o vs, parseFields data c.props 0 = .ok (o, vs) ∧ v = .obj c.name vs := by
  obtain ⟨d, l, h⟩ := h
  obtain ⟨vs, h1, rfl⟩ := object_inv h
  exact ⟨_, _, vs, h1, rfl⟩

theorem object_prints {c : Cls} {ss : List (String × StrFn)} (hr : PrintAll c.props ss)
    (hn : (c.props.map (·.1)).Nodup) : PrintsText (ftCompound c) (strObject ss) := by
  intro v hv
  obtain ⟨d, o, vs, h1, rfl⟩ := parsed_object hv
  simp only [strObject, fields_print hr hn h1, ok_bind]

/-! ### Writing what was read -/

theorem number_dumps (f : Fmt) (big af : Bool) : Dumps (ftNumber f big af) := by
  intro v hv
  obtain ⟨i, hi', rfl⟩ := parsed_number hv
  exact ⟨_, number_writes f big af _ _ ⟨i, hi', rfl, rfl⟩⟩

theorem bytes_dumps (n : Nat) : Dumps (ftBytes n) := by
  intro v hv
  obtain ⟨b, rfl, -⟩ := parsed_bytes hv
  exact ⟨b, rfl⟩

theorem varIntBinary_lt {n : Nat} (h : n < 2 ^ 32) : ∃ b, varIntBinary n = .ok b :=
  ⟨_, varIntBinary_eq n (by omega)⟩

theorem size_dumps : Dumps ftVarInteger := by
  intro v hv
  obtain ⟨n, hn, rfl⟩ := parsed_size hv
  obtain ⟨b, hb⟩ := varIntBinary_lt hn
  exact ⟨b, by simp only [ftVarInteger, hb]⟩

theorem string_dumps : Dumps ftVarString := by
  intro v hv
  obtain ⟨b, rfl, hb⟩ := parsed_string hv
  obtain ⟨p, hp⟩ := varIntBinary_lt hb
  exact ⟨p ++ b, by simp only [ftVarString, varStringBinary, hp, ok_bind]⟩

theorem mapM_dumps {α β : Type} {f : α → Py β} {l : List α} (h : ∀ x ∈ l, ∃ b, f x = .ok b) :
    ∃ bs, l.mapM f = .ok bs := by
  induction l with
  | nil => exact ⟨[], rfl⟩
  | cons x xs ih =>
    obtain ⟨b, hb⟩ := h x (by simp)
    obtain ⟨bs, hbs⟩ := ih (fun y hy => h y (by simp [hy]))
    exact ⟨b :: bs, by rw [List.mapM_cons, hb, ok_bind, hbs, ok_bind]; rfl⟩

theorem array_dumps {T : FType} (h : Dumps T) (a c : Option Nat) : Dumps (ftArray T a c) := by
  intro v hv
  obtain ⟨l, rfl, hlen, hl⟩ := parsed_array hv
  obtain ⟨p, hp⟩ := varIntBinary_lt hlen
  obtain ⟨bs, hbs⟩ := mapM_dumps (fun x hx => h x (hl x hx))
  exact ⟨p ++ bs.flatten, by simp only [ftArray, hp, hbs, ok_bind]⟩

theorem fields_dump {ps : Props} (hr : ∀ p ∈ ps, Dumps p.2) (hn : (ps.map (·.1)).Nodup) {data : Bytes}
    {off o : Nat} {vs : List (String × Val)} (h : parseFields data ps off = .ok (o, vs)) :
    ∃ b, compBinary ps vs = .ok b := by
  obtain ⟨bs, hbs⟩ := mapM_dumps (f := fun p : String × FType => do
      let v ← getField vs p.1
      p.2.binary v) (l := ps) (fun p hp => by
    obtain ⟨v, hv, hpv⟩ := parsed_field h hn (T := p.2) (k := p.1) hp
    obtain ⟨b, hb⟩ := hr p hp v hpv
    exact ⟨b, by rw [hv, ok_bind, hb]⟩)
  exact ⟨bs.flatten, by simp only [compBinary, hbs, ok_bind]⟩

theorem object_dumps {c : Cls} (hr : ∀ p ∈ c.props, Dumps p.2) (hn : (c.props.map (·.1)).Nodup) :
    Dumps (ftCompound c) := by
  intro v hv
  obtain ⟨d, o, vs, h1, rfl⟩ := parsed_object hv
  obtain ⟨b, hb⟩ := fields_dump hr hn h1
  exact ⟨b, by simp only [ftCompound, hb]⟩

end NBC.Proto
