import Verif.Props.Protocol
import Verif.Model.Alert

/-!
C111: the fields of an alert.
-/

namespace NBC.Props

open NBC NBC.Proto NBC.Spec NBC.Spec.Wire

/-- The fields in the payload of an alert, in the order of the protocol description. -/
def alertFields : List (String × WType) :=
  [("version", wNumber .i false false), ("relay_until", wNumber .q false false),
   ("expiration", wNumber .q false false), ("id", wNumber .i false false), ("cancel", wNumber .i false false),
   ("set_cancel", wArray (wNumber .i false false) 0 none),
   ("min_ver", wNumber .i false false), ("max_ver", wNumber .i false false),
   ("set_sub_ver", wArray wVarString 0 none), ("priority", wNumber .i false false),
   ("comment", wVarString), ("status_bar", wVarString), ("reserved", wVarString)]

/-- A paragraph reads the given fields. -/
def Reads (s : AlertStep) (ws : List (String × WType)) : Prop :=
  ∀ vs b vs', wFields ws vs b vs' → ∀ rest, s (b ++ rest) = .ok (vs', b.length)

theorem size_eq (f : Fmt) (big : Bool) (i : Int) : (numBytes f big i).length = f.size := by
  rw [numBytes_length]

theorem unpackNames_reads (fs : List (String × Fmt)) (vs : List (String × Val)) (b : Bytes)
    (vs' : List (String × Val)) (h : wFields (fs.map (fun p => (p.1, wNumber p.2 false false))) vs b vs') :
    b.length = (fs.map (fun p => p.2.size)).sum ∧ unpackNames fs b = .ok vs' := by
  induction fs generalizing vs b vs' with
  | nil => obtain ⟨rfl, rfl, rfl⟩ := h; exact ⟨rfl, rfl⟩
  | cons p fs ih =>
    obtain ⟨k, f⟩ := p
    obtain ⟨v, b₁, v', ts, b₂, ts', h1, h2, rfl, rfl, rfl⟩ := h
    obtain ⟨i1, i2⟩ := ih ts b₂ ts' h2
    rcases h1 with ⟨i, rfl, hr, rfl, rfl⟩ | ⟨h0, -⟩
    · have hl := size_eq f false i
      have hu := unpack_numBytes_take hr (big := false) (rest := b₂)
      constructor
      · rw [List.length_append, hl, i1]
        simp
      · rw [unpackNames, hu, ok_bind, List.drop_left' hl, i2, ok_bind]
    · cases h0

theorem numbers_reads (fs : List (String × Fmt)) :
    Reads (numbersStep fs) (fs.map (fun p => (p.1, wNumber p.2 false false))) := by
  intro vs b vs' h rest
  obtain ⟨h1, h2⟩ := unpackNames_reads fs vs b vs' h
  simp only [numbersStep]
  rw [List.take_left' h1, h2, ok_bind, h1]

theorem set_reads (k : String) {T : FType} {W : WType} (hT : Refines T W) :
    Reads (setStep k T) [(k, wArray W 0 none)] := by
  rintro vs b vs' ⟨v, b₁, v', ts, b₂, ts', h1, ⟨rfl, rfl, rfl⟩, rfl, rfl, rfl⟩ rest
  obtain ⟨items, hi, -, -, hl, rfl, hb, rfl⟩ := h1
  have hp := (ftArray_refines hT none none (by simp)).parse _ _ _ ⟨items, hi, by simp, by simp, hl, rfl, hb, rfl⟩ rest
  simp only [ftArray] at hp
  obtain ⟨⟨n, l⟩, h3, h4⟩ := bind_ok_iff.1 hp
  simp only [Except.ok.injEq, Prod.mk.injEq, Val.tuple.injEq] at h4
  obtain ⟨rfl, rfl⟩ := h4
  simp only [setStep, List.append_nil]
  rw [h3, ok_bind]

theorem string_reads (k : String) : Reads (stringStep k) [(k, wVarString)] := by
  rintro vs b vs' ⟨v, b₁, v', ts, b₂, ts', ⟨s, h1, -, rfl, rfl⟩, ⟨rfl, rfl, rfl⟩, rfl, rfl, rfl⟩ rest
  simp only [stringStep, List.append_nil]
  rw [varStringParse_eq s rest h1, ok_bind, List.length_append]

theorem wFields_append {ws ws' : List (String × WType)} {vs : List (String × Val)} {b : Bytes}
    {vs' : List (String × Val)} (h : wFields (ws ++ ws') vs b vs') :
    ∃ v₁ b₁ v₁' v₂ b₂ v₂', wFields ws v₁ b₁ v₁' ∧ wFields ws' v₂ b₂ v₂' ∧ vs = v₁ ++ v₂ ∧ b = b₁ ++ b₂ ∧
      vs' = v₁' ++ v₂' := by
  induction ws generalizing vs b vs' with
  | nil => exact ⟨[], [], [], vs, b, vs', ⟨rfl, rfl, rfl⟩, h, rfl, rfl, rfl⟩
  | cons p ws ih =>
    obtain ⟨k, W⟩ := p
    obtain ⟨v, b₁, v', ts, b₂, ts', h1, h2, rfl, rfl, rfl⟩ := h
    obtain ⟨a1, c1, a1', a2, c2, a2', i1, i2, rfl, rfl, rfl⟩ := ih h2
    exact ⟨(k, v) :: a1, b₁ ++ c1, (k, v') :: a1', a2, c2, a2', ⟨v, b₁, v', a1, c1, a1', h1, i1, rfl, rfl, rfl⟩,
      i2, rfl, by rw [List.append_assoc], rfl⟩

theorem fill_nil (data : Bytes) : alertFill [] data = ([], none) := rfl

theorem fill_cons {s : AlertStep} {ss : List AlertStep} {ws ws' : List (String × WType)} (hs : Reads s ws)
    (hss : ∀ vs b vs', wFields ws' vs b vs' → ∀ rest, alertFill ss (b ++ rest) = (vs', none)) :
    ∀ vs b vs', wFields (ws ++ ws') vs b vs' → ∀ rest, alertFill (s :: ss) (b ++ rest) = (vs', none) := by
  intro vs b vs' h rest
  obtain ⟨v₁, b₁, v₁', v₂, b₂, v₂', h1, h2, rfl, rfl, rfl⟩ := wFields_append h
  rw [alertFill, List.append_assoc, hs _ _ _ h1 (b₂ ++ rest)]
  simp only
  rw [List.drop_left' rfl, hss _ _ _ h2 rest]

theorem alert_fill (vs : List (String × Val)) (b : Bytes) (vs' : List (String × Val))
    (h : wFields alertFields vs b vs') (rest : Bytes) : alertFill alertSteps (b ++ rest) = (vs', none) := by
  refine fill_cons (ws := [_, _, _, _, _]) (numbers_reads [("version", .i), ("relay_until", .q),
    ("expiration", .q), ("id", .i), ("cancel", .i)]) ?_ vs b vs' h rest
  refine fill_cons (ws := [_]) (set_reads _ (ftNumber_refines .i false false)) ?_
  refine fill_cons (ws := [_, _]) (numbers_reads [("min_ver", .i), ("max_ver", .i)]) ?_
  refine fill_cons (ws := [_]) (set_reads _ ftVarString_refines) ?_
  refine fill_cons (ws := [_]) (numbers_reads [("priority", .i)]) ?_
  refine fill_cons (ws := [_]) (string_reads _) ?_
  refine fill_cons (ws := [_]) (string_reads _) ?_
  refine fill_cons (ws := [_]) (ws' := []) (string_reads _) ?_
  rintro vs b vs' ⟨rfl, rfl, rfl⟩ rest
  rfl

/-- C111 for well-formed payloads, whatever follows the known fields: the attributes, read in any order and
any number of times, are the fields of the alert.  Missing: other payloads (`C111_again_false`). -/
theorem C111_alert_partial (vs : List (String × Val)) (b : Bytes) (vs' : List (String × Val))
    (h : wFields alertFields vs b vs') (rest : Bytes) (names : List String)
    (hn : ∀ k ∈ names, k ∈ alertFields.map (·.1)) :
    ∃ ws, alertReads (b ++ rest) [] names = ws.map (fun v => .ok v) ∧
      List.Forall₂ (fun k v => (k, v) ∈ vs') names ws := by
  have hf := alert_fill vs b vs' h rest
  have hk := (wFields_keys h).2
  have hne : vs' ≠ [] := by
    rintro rfl
    cases hk
  have hnd : (vs'.map (·.1)).Nodup := by
    rw [hk]
    decide
  have hget : ∀ k ∈ alertFields.map (·.1), ∃ v, (k, v) ∈ vs' ∧ getField vs' k = .ok v := by
    intro k hk'
    rw [← hk] at hk'
    obtain ⟨⟨k', v⟩, hm, rfl⟩ := List.mem_map.1 hk'
    exact ⟨v, hm, getField_mem hnd hm⟩
  have hwarm : ∀ names : List String, (∀ k ∈ names, k ∈ alertFields.map (·.1)) →
      ∃ ws, alertReads (b ++ rest) vs' names = ws.map (fun v => .ok v) ∧
        List.Forall₂ (fun k v => (k, v) ∈ vs') names ws := by
    intro names hn
    induction names with
    | nil => exact ⟨[], rfl, .nil⟩
    | cons k ks ih =>
      obtain ⟨ws, h1, h2⟩ := ih (fun x hx => hn x (by simp [hx]))
      obtain ⟨v, hv, hg⟩ := hget k (hn k (by simp))
      refine ⟨v :: ws, ?_, .cons hv h2⟩
      cases vs' with
      | nil => exact absurd rfl hne
      | cons p ps =>
        simp only [alertReads, alertGet]
        rw [h1, hg]
        rfl
  cases names with
  | nil => exact ⟨[], rfl, .nil⟩
  | cons k ks =>
    obtain ⟨ws, h1, h2⟩ := hwarm ks (fun x hx => hn x (by simp [hx]))
    obtain ⟨v, hv, hg⟩ := hget k (hn k (by simp))
    refine ⟨v :: ws, ?_, .cons hv h2⟩
    simp only [alertReads, alertGet, hf]
    rw [h1, hg]
    rfl

/-- C111 fails for a payload that breaks off after the first five fields: reading the version raises
`IndexError` the first time and gives the version the second time; reading the comment then raises `KeyError`. -/
theorem C111_again_false : alertReads (List.replicate 28 0) [] ["version", "version", "comment"] =
    [.error .indexError, .ok (.int 0), .error .keyError] := rfl

/-- An alert for versions 1 to 9 with the status text `hi`, cancelling alert 7. -/
example : ∃ vs b vs', wFields alertFields vs b vs' ∧
    alertReads b [] ["max_ver", "status_bar", "set_cancel"] =
      [.ok (.int 9), .ok (.bytes [104, 105]), .ok (.tuple [.int 7])] := by
  have hn : ∀ (f : Fmt) (i : Int), inRange f i →
      wNumber f false false (.int i) (numBytes f false i) (.int i) := fun f i h => .inl ⟨i, rfl, h, rfl, rfl⟩
  have hs : ∀ s : Bytes, s.length < varLimit → wVarString (.bytes s) (varSize s.length ++ s) (.bytes s) :=
    fun s h => ⟨s, h, .inl rfl, rfl, rfl⟩
  have hc : wArray (wNumber .i false false) 0 none (.tuple [.int 7]) [1, 7, 0, 0, 0] (.tuple [.int 7]) :=
    ⟨[(.int 7, numBytes .i false 7, .int 7)], by simpa using hn .i 7 ⟨by decide, by decide⟩, by simp, by simp,
      by decide, rfl, by decide, rfl⟩
  have he : wArray wVarString 0 none (.tuple []) [0] (.tuple []) :=
    ⟨[], by simp, by simp, by simp, by decide, rfl, by decide, rfl⟩
  exact ⟨_, _, _, ⟨_, _, _, _, _, _, hn .i 1 ⟨by decide, by decide⟩, ⟨_, _, _, _, _, _, hn .q 2 ⟨by decide, by decide⟩,
    ⟨_, _, _, _, _, _, hn .q 3 ⟨by decide, by decide⟩, ⟨_, _, _, _, _, _, hn .i 4 ⟨by decide, by decide⟩,
    ⟨_, _, _, _, _, _, hn .i 5 ⟨by decide, by decide⟩, ⟨_, _, _, _, _, _, hc, ⟨_, _, _, _, _, _, hn .i 1 ⟨by decide, by decide⟩,
    ⟨_, _, _, _, _, _, hn .i 9 ⟨by decide, by decide⟩, ⟨_, _, _, _, _, _, he, ⟨_, _, _, _, _, _, hn .i 6 ⟨by decide, by decide⟩,
    ⟨_, _, _, _, _, _, hs [] (by decide), ⟨_, _, _, _, _, _, hs [104, 105] (by decide),
    ⟨_, _, _, _, _, _, hs [] (by decide), ⟨rfl, rfl, rfl⟩, rfl, rfl, rfl⟩, rfl, rfl, rfl⟩, rfl, rfl, rfl⟩,
    rfl, rfl, rfl⟩, rfl, rfl, rfl⟩, rfl, rfl, rfl⟩, rfl, rfl, rfl⟩, rfl, rfl, rfl⟩, rfl, rfl, rfl⟩,
    rfl, rfl, rfl⟩, rfl, rfl, rfl⟩, rfl, rfl, rfl⟩, rfl, rfl, rfl⟩, rfl⟩

end NBC.Props
