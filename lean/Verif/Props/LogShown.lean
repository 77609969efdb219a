import Verif.Props.LogLine

/-!
# C157: what is shown of quotes, alerts and messages without a method
-/

namespace NBC.Props
open NBC NBC.Aes NBC.Spec NBC.Spec.Wire NBC.Proto NBC.P2P

variable {H : Hashes}

/-- C157: a text of plain characters without a quote is shown as it is, in single quotes; with single quotes only, in double
ones; with both, in single ones and with a stroke before each of these. -/
theorem C157_quotes (plain : Char → Bool) (s : List Char) (h : ∀ c ∈ s, 32 ≤ c.toNat ∧ c.toNat < 127 ∧ c ≠ '\\') :
    ('\'' ∉ s → reprWith plain s = '\'' :: (s ++ ['\''])) ∧
    ('\'' ∈ s → '"' ∉ s → reprWith plain s = '"' :: (s ++ ['"'])) ∧
    ('\'' ∈ s → '"' ∈ s →
      reprWith plain s = '\'' :: (s.flatMap (fun c => if c = '\'' then ['\\', '\''] else [c]) ++ ['\''])) := by
  have hc : ∀ q, ∀ c ∈ s, c ≠ q → reprChar plain q c = [c] := by
    intro q c hs hq
    obtain ⟨h1, h2, h3⟩ := h c hs
    have e : ∀ d : Char, d.toNat < 32 → c ≠ d := by
      rintro d hd rfl
      omega
    unfold reprChar
    rw [if_neg (by simp [hq, h3]), if_neg (e _ (by decide)), if_neg (e _ (by decide)), if_neg (e _ (by decide)),
      if_neg (by omega), if_pos h2]
  have hf : ∀ q, q ∉ s → s.flatMap (reprChar plain q) = s := by
    intro q hq
    have : s.flatMap (reprChar plain q) = s.flatMap (fun c => [c]) := by
      rw [List.flatMap_def, List.flatMap_def]
      congr 1
      exact List.map_congr_left (fun c hs => hc q c hs (by rintro rfl; exact hq hs))
    rw [this]
    simp
  refine ⟨fun hq => ?_, fun hq hd => ?_, fun hq hd => ?_⟩
  · have e : reprQuote s = '\'' := by simp [reprQuote, hq]
    rw [reprWith, e, hf _ hq]
  · have e : reprQuote s = '"' := by simp [reprQuote, hq, hd]
    rw [reprWith, e, hf _ hd]
  · have e : reprQuote s = '\'' := by simp [reprQuote, hd]
    rw [reprWith, e]
    congr 2
    rw [List.flatMap_def, List.flatMap_def]
    congr 1
    refine List.map_congr_left (fun c hs => ?_)
    by_cases hcq : c = '\''
    · rw [if_pos hcq, hcq]
      rfl
    · rw [if_neg hcq, hc _ c hs hcq]

/-- A name with an apostrophe, and one with both quotes. -/
example : reprWith (fun _ => false) "it's".toList = "\"it's\"".toList ∧
    reprWith (fun _ => false) "'a\"".toList = "'\\'a\"'".toList := by decide

/-- The text of an integer. -/
theorem decText_eq (i : Int) : decText i = (toString i).toList := by
  cases i with
  | ofNat n =>
    show decText (n : Int) = (Nat.repr n).toList
    have : ¬ ((n : Int) < 0) := by omega
    rw [decText, if_neg this, Int.natAbs_natCast, Nat.repr, String.toList_ofList]
  | negSucc n =>
    show decText (Int.negSucc n) = ("-" ++ Nat.repr (n + 1)).toList
    rw [decText, if_pos (Int.negSucc_lt_zero n), Int.natAbs_negSucc, String.toList_append, Nat.repr, String.toList_ofList]
    simp

theorem registry_handled : ∀ t ∈ registry, (msgName t.command ∈ handled ↔
    t.command ∈ ["version", "verack", "ping", "pong", "getaddr", "addr"]) := by decide +kernel

/-- C157: of a message that is read there is, besides the entry that shows it, one entry exactly if it is of another type than the
six that the node has methods for. -/
theorem C157_unhandled (ver : PyVer) (level : Int) (source : List Char) (magic data : Bytes) (m : Msg)
    (r : Option (List Char)) (h : parseMessage H data magic = .ok m) (hr : receivedText ver H level m = .ok r) :
    ∃ shown, shown.length = r.toList.length ∧ frameLog ver H level source magic data = shown ++
      if m.command ∈ ["version", "verack", "ping", "pong", "getaddr", "addr"] then []
      else [lit "(" ++ source ++ lit ") error: method not defined: command_" ++ lit (msgName m.command) ++ lit "\n"] := by
  obtain ⟨t, ht, _, _, _, hc⟩ := parsed_type h
  refine ⟨r.toList.map (logLine source), by simp, ?_⟩
  unfold frameLog
  rw [h]
  simp only [hr]
  congr 1
  rw [hc]
  by_cases hh : msgName t.command ∈ handled
  · rw [if_pos hh, if_pos ((registry_handled t ht).1 hh)]
  · rw [if_neg hh, if_neg (fun hn => hh ((registry_handled t ht).2 hn))]
    simp [logLine, lit]

/-- C157: the text for an alert that names no clients gives every field in its place. -/
theorem C157_alert (ver : PyVer) (payload rest signature : Bytes)
    (version relay expiration ident cancel minVer maxVer priority : Int)
    (cancels : List Int) (comment status reserved : Bytes) (vs : List (String × Val))
    (h : wFields alertFields vs payload [("version", .int version), ("relay_until", .int relay),
      ("expiration", .int expiration),
    ("id", .int ident), ("cancel", .int cancel),
      ("set_cancel", .tuple (cancels.map .int)), ("min_ver", .int minVer), ("max_ver", .int maxVer),
      ("set_sub_ver", .tuple []), ("priority", .int priority), ("comment", .bytes comment), ("status_bar", .bytes status),
      ("reserved", .bytes reserved)]) :
    alertText ver [("payload", .bytes (payload ++ rest)), ("signature", .bytes signature)] =
      .ok (lit "<message.Alert version=" ++ (toString version).toList ++ lit " relay_until=" ++ (toString relay).toList ++
        lit " expiration=" ++ (toString expiration).toList ++ lit " id=" ++ (toString ident).toList ++
        lit " cancel=" ++ (toString cancel).toList ++ lit " cancel_set=[" ++
        joinWith (lit ", ") (cancels.map (fun i => (toString i).toList)) ++ lit "] min_ver=" ++ (toString minVer).toList ++
        lit " maxver=" ++ (toString maxVer).toList ++ lit " set_sub_ver=[] priority=" ++ (toString priority).toList ++
        lit " comment=" ++ reprBytes ver comment ++ lit " status_bar=" ++ reprBytes ver status ++ lit " reserverd=" ++
        reprBytes ver reserved ++ lit ">") := by
  have hfill := alert_fill _ _ _ h rest
  have e0 : getField [("payload", Val.bytes (payload ++ rest)), ("signature", .bytes signature)] "payload" =
      .ok (.bytes (payload ++ rest)) := rfl
  have hcs : cancelTexts (cancels.map .int) = .ok (cancels.map (fun i => (toString i).toList)) := by
    clear h hfill
    unfold cancelTexts
    induction cancels with
    | nil => rfl
    | cons i l ih =>
      rw [List.map_cons, List.mapM_cons, ih, List.map_cons, ← decText_eq]
      rfl
  generalize hd : ([("version", Val.int version), ("relay_until", Val.int relay), ("expiration", Val.int expiration),
    ("id", Val.int ident), ("cancel", Val.int cancel), ("set_cancel", Val.tuple (cancels.map Val.int)),
    ("min_ver", Val.int minVer), ("max_ver", Val.int maxVer), ("set_sub_ver", Val.tuple []),
    ("priority", Val.int priority), ("comment", Val.bytes comment), ("status_bar", Val.bytes status), ("reserved", Val.bytes reserved)] :
      List (String × Val)) = d at hfill
  have g0 : getField d "version" = .ok (.int version) := by rw [← hd]; rfl
  have g1 : getField d "relay_until" = .ok (.int relay) := by rw [← hd]; rfl
  have g2 : getField d "expiration" = .ok (.int expiration) := by rw [← hd]; rfl
  have g3 : getField d "id" = .ok (.int ident) := by rw [← hd]; rfl
  have g4 : getField d "cancel" = .ok (.int cancel) := by rw [← hd]; rfl
  have g5 : getField d "set_cancel" = .ok (.tuple (cancels.map .int)) := by rw [← hd]; rfl
  have g6 : getField d "min_ver" = .ok (.int minVer) := by rw [← hd]; rfl
  have g7 : getField d "max_ver" = .ok (.int maxVer) := by rw [← hd]; rfl
  have g8 : getField d "set_sub_ver" = .ok (.tuple []) := by rw [← hd]; rfl
  have g9 : getField d "priority" = .ok (.int priority) := by rw [← hd]; rfl
  have g10 : getField d "comment" = .ok (.bytes comment) := by rw [← hd]; rfl
  have g11 : getField d "status_bar" = .ok (.bytes status) := by rw [← hd]; rfl
  have g12 : getField d "reserved" = .ok (.bytes reserved) := by rw [← hd]; rfl
  have e5 : lit " set_sub_ver=[] priority=" = lit " set_sub_ver=[" ++ [] ++ lit "] priority=" := by decide
  unfold alertText
  simp only [e0, ok_bind, payloadBytes, alertGet, hfill, g0, g1, g2, g3, g4, g5, g6, g7, g8, g9, g10, g11, g12,
    percentD, percentR, elementsOf, hcs, List.mapM_nil, onlyText,
    joinWith, pure_bind, decText_eq, e5, List.append_assoc]

/-- The alert of C111: for versions 1 to 9, with the status text `hi`, cancelling alert 7. -/
example : ∃ payload, alertText .py3 [("payload", .bytes payload), ("signature", .bytes [])] =
    .ok "<message.Alert version=1 relay_until=2 expiration=3 id=4 cancel=5 cancel_set=[7] min_ver=1 maxver=9 set_sub_ver=[] priority=6 comment=b'' status_bar=b'hi' reserverd=b''>".toList := by
  have hn : ∀ (f : Fmt) (i : Int), inRange f i →
      wNumber f false false (.int i) (numBytes f false i) (.int i) := fun f i h => .inl ⟨i, rfl, h, rfl, rfl⟩
  have hs : ∀ s : Bytes, s.length < varLimit → wVarString (.bytes s) (varSize s.length ++ s) (.bytes s) :=
    fun s h => ⟨s, h, .inl rfl, rfl, rfl⟩
  have hc : wArray (wNumber .i false false) 0 none (.tuple [.int 7]) [1, 7, 0, 0, 0] (.tuple [.int 7]) :=
    ⟨[(.int 7, numBytes .i false 7, .int 7)], by simpa using hn .i 7 ⟨by decide, by decide⟩, by simp, by simp,
      by decide, rfl, by decide, rfl⟩
  have he : wArray wVarString 0 none (.tuple []) [0] (.tuple []) :=
    ⟨[], by simp, by simp, by simp, by decide, rfl, by decide, rfl⟩
  have hw : wFields alertFields _ _ _ := ⟨_, _, _, _, _, _, hn .i 1 ⟨by decide, by decide⟩, ⟨_, _, _, _, _, _, hn .q 2 ⟨by decide, by decide⟩,
    ⟨_, _, _, _, _, _, hn .q 3 ⟨by decide, by decide⟩, ⟨_, _, _, _, _, _, hn .i 4 ⟨by decide, by decide⟩,
    ⟨_, _, _, _, _, _, hn .i 5 ⟨by decide, by decide⟩, ⟨_, _, _, _, _, _, hc, ⟨_, _, _, _, _, _, hn .i 1 ⟨by decide, by decide⟩,
    ⟨_, _, _, _, _, _, hn .i 9 ⟨by decide, by decide⟩, ⟨_, _, _, _, _, _, he, ⟨_, _, _, _, _, _, hn .i 6 ⟨by decide, by decide⟩,
    ⟨_, _, _, _, _, _, hs [] (by decide), ⟨_, _, _, _, _, _, hs [104, 105] (by decide),
    ⟨_, _, _, _, _, _, hs [] (by decide), ⟨rfl, rfl, rfl⟩, rfl, rfl, rfl⟩, rfl, rfl, rfl⟩, rfl, rfl, rfl⟩,
    rfl, rfl, rfl⟩, rfl, rfl, rfl⟩, rfl, rfl, rfl⟩, rfl, rfl, rfl⟩, rfl, rfl, rfl⟩, rfl, rfl, rfl⟩,
    rfl, rfl, rfl⟩, rfl, rfl, rfl⟩, rfl, rfl, rfl⟩, rfl, rfl, rfl⟩
  refine ⟨_, (C157_alert .py3 _ [] [] 1 2 3 4 5 1 9 6 [7] [] [104, 105] [] _ hw).trans ?_⟩
  decide +kernel

end NBC.Props
