import Verif.Proofs.Lenient
import Verif.Props.Reading

/-!
C139: exactly which payloads are accepted, for every message type.
-/

namespace NBC.Props

open NBC NBC.Proto NBC.Spec NBC.Spec.Wire NBC.Spec.Reading NBC.Spec.Lenient

theorem forall2_right {α β : Type} {R : α → β → Prop} {as : List α} {bs : List β} (h : List.Forall₂ R as bs)
    {b : β} (hb : b ∈ bs) : ∃ a ∈ as, R a b := by
  induction h with
  | nil => cases hb
  | @cons a b' as bs hab _ ih =>
    rcases List.mem_cons.1 hb with rfl | hb
    · exact ⟨a, by simp, hab⟩
    · obtain ⟨a', ha', hr⟩ := ih hb
      exact ⟨a', by simp [ha'], hr⟩

/-- C139: for every message type a payload is accepted exactly when it begins with a complete text of the fields,
or is a text of the fields that is cut off at a place where that is tolerated, and the message has the fields that
this text stands for. -/
theorem C139_exact (H : Hashes) (command : String) (ls : List (String × LType))
    (hc : (command, ls) ∈ languages readSize) (payload magic rest : Bytes) (hm : magic.length = 4)
    (hp : payload.length < 2 ^ 32) (m : Msg) :
    parseMessage H (wireFrame H magic command payload ++ rest) magic = .ok m ↔
      m.command = command ∧
        ((∃ text junk, payload = text ++ junk ∧ rFields (fulls ls) text m.fields) ∨
          cutFields ls payload m.fields) := by
  obtain ⟨t, ht, hct, hx⟩ := forall2_right registry_exact hc
  simp only at hct hx
  subst hct
  rw [parseMessage_frame H ht payload magic rest hm hp, bind_ok_iff]
  constructor
  · rintro ⟨⟨o, kw⟩, h, he⟩
    injection he with he
    subst he
    refine ⟨rfl, ?_⟩
    rcases fields_exact hx [] payload (o := o) (vs := kw) (by simpa using h) with ⟨b, r, hd, -, hf⟩ | ⟨hcut, -⟩
    · exact .inl ⟨b, r, hd, hf⟩
    · exact .inr hcut
  · obtain ⟨c, f⟩ := m
    rintro ⟨hcm, h⟩
    simp only at hcm h
    subst hcm
    rcases h with ⟨text, junk, rfl, hf⟩ | hcut
    · exact ⟨_, by simpa using fields_reads hx.reads hf [] junk, rfl⟩
    · obtain ⟨o, -, h2⟩ := fields_cut hx hcut []
      exact ⟨(o, f), by simpa using h2, rfl⟩

/-- C139, texts of Bitcoin: every payload of every message type in Bitcoin's encoding (fields in their order, the
shortest size texts, below `2^32`), with any bytes behind it, is read as what it stands for. -/
theorem C139_bitcoin (H : Hashes) (command : String) (ls : List (String × LType))
    (hc : (command, ls) ∈ languages compactSize) (text junk magic rest : Bytes) (hm : magic.length = 4)
    (hp : (text ++ junk).length < 2 ^ 32) (fields : List (String × Val)) (h : rFields (fulls ls) text fields) :
    parseMessage H (wireFrame H magic command (text ++ junk) ++ rest) magic = .ok ⟨command, fields⟩ := by
  obtain ⟨t, ht, hct, hx⟩ := forall2_right (registry_reads compactSize_ok) hc
  simp only at hct hx
  subst hct
  rw [parseMessage_frame H ht _ magic rest hm hp, bind_ok_iff]
  exact ⟨_, by simpa using fields_reads hx h [] junk, rfl⟩

/-- C139: no payload stands for two messages. -/
theorem C139_unique (command : String) (ls : List (String × LType))
    (hc : (command, ls) ∈ languages readSize) (payload : Bytes) (vs ws : List (String × Val))
    (h1 : (∃ text junk, payload = text ++ junk ∧ rFields (fulls ls) text vs) ∨ cutFields ls payload vs)
    (h2 : (∃ text junk, payload = text ++ junk ∧ rFields (fulls ls) text ws) ∨ cutFields ls payload ws) :
    vs = ws := by
  obtain ⟨t, -, -, hx⟩ := forall2_right registry_exact hc
  have key : ∀ us, ((∃ text junk, payload = text ++ junk ∧ rFields (fulls ls) text us) ∨ cutFields ls payload us) →
      ∃ o, parseFields payload t.props 0 = .ok (o, us) := by
    rintro us (⟨text, junk, rfl, hf⟩ | hcut)
    · exact ⟨_, by simpa using fields_reads hx.reads hf [] junk⟩
    · obtain ⟨o, -, h⟩ := fields_cut hx hcut []
      exact ⟨o, by simpa using h⟩
  obtain ⟨o1, e1⟩ := key vs h1
  obtain ⟨o2, e2⟩ := key ws h2
  rw [e1] at e2
  simp only [Except.ok.injEq, Prod.mk.injEq] at e2
  exact e2.2

/-- C139, the smallest case of a tolerated cut: any number of bytes below eight is taken for the nonce of a ping,
although no complete text is there. -/
theorem C139_short_ping (H : Hashes) (magic rest : Bytes) (hm : magic.length = 4) (b : Bytes) (hb : b.length < 8) :
    parseMessage H (wireFrame H magic "ping" b ++ rest) magic = .ok ⟨"ping", [("nonce", .bytes b)]⟩ ∧
    ¬ ∃ text junk fields, b = text ++ junk ∧ rFields (fulls [("nonce", lBytes 8)]) text fields := by
  constructor
  · refine (C139_exact H "ping" [("nonce", lBytes 8)] (by simp [languages]) b magic rest hm (by omega) _).2
      ⟨rfl, .inr (.inr ⟨.bytes b, [], ⟨hb, rfl⟩, rfl, rfl⟩)⟩
  · rintro ⟨text, junk, fields, rfl, b₁, v, b₂, ts, ⟨h8, -⟩, -, rfl, -⟩
    simp only [List.length_append] at hb
    omega

/-! ### Examples -/

/-- A version message up to the start height, without the last byte: relay is taken to be 1. -/
def shortVersion : Bytes :=
  [1, 0, 0, 0] ++ ([9, 0, 0, 0, 0, 0, 0, 0] ++ (List.replicate 8 0 ++ (List.replicate 26 0 ++ (List.replicate 26 0 ++
    (List.replicate 8 5 ++ ([2, 65, 66] ++ [7, 0, 0, 0]))))))

example (H : Hashes) : ∃ fields, parseMessage H (wireFrame H [1, 2, 3, 4] "version" shortVersion) [1, 2, 3, 4] =
    .ok ⟨"version", fields⟩ ∧ fields.getLast? = some ("relay", .int 1) ∧
    fields[6]? = some ("user_agent", .bytes [65, 66]) := by
  have h := parseMessage_frame H (t := msgVersion) (by simp [registry]) shortVersion [1, 2, 3, 4] [] rfl (by decide)
  rw [List.append_nil] at h
  exact ⟨_, h, rfl, rfl⟩

/-- The fields of a reject message. -/
def rejectTexts (S : Sizes) : List (String × LType) :=
  [("message", lString S), ("ccode", lNumber .B false), ("reason", lString S)]

/-- A complete reject message in Bitcoin's encoding. -/
example (H : Hashes) : parseMessage H (wireFrame H [1, 2, 3, 4] "reject" ([2, 116, 120] ++ ([16] ++ ([1, 33] ++ [])))
    ) [1, 2, 3, 4] = .ok ⟨"reject", [("message", .bytes [116, 120]), ("ccode", .int 16), ("reason", .bytes [33])]⟩ := by
  have := C139_bitcoin H "reject" (rejectTexts compactSize) (by simp [languages, rejectTexts])
    ([2, 116, 120] ++ ([16] ++ ([1, 33] ++ []))) []
    [1, 2, 3, 4] [] rfl (by decide) [("message", .bytes [116, 120]), ("ccode", .int 16), ("reason", .bytes [33])]
    ⟨_, _, _, _, ⟨[2], [116, 120], ⟨by decide, by decide⟩, rfl, rfl⟩,
      ⟨[16], _, _, _, ⟨16, by unfold inRange lo hi; decide, by decide, rfl⟩,
        ⟨_, _, _, _, ⟨[1], [33], ⟨by decide, by decide⟩, rfl, rfl⟩, ⟨rfl, rfl⟩, rfl, rfl⟩, rfl, rfl⟩, rfl, rfl⟩
  simpa using this

/-- A reject message whose reason is shorter than announced. -/
example (H : Hashes) : parseMessage H (wireFrame H [1, 2, 3, 4] "reject" [2, 116, 120, 16, 9, 33]) [1, 2, 3, 4] =
    .ok ⟨"reject", [("message", .bytes [116, 120]), ("ccode", .int 16), ("reason", .bytes [33])]⟩ := by
  have := (C139_exact H "reject" (rejectTexts readSize) (by simp [languages, rejectTexts])
    [2, 116, 120, 16, 9, 33] [1, 2, 3, 4] [] rfl (by decide)
    ⟨"reject", [("message", .bytes [116, 120]), ("ccode", .int 16), ("reason", .bytes [33])]⟩).2 ⟨rfl, .inr
    (.inl ⟨[2, 116, 120], _, [16, 9, 33], _, ⟨[2], [116, 120], .inl ⟨by decide, by decide, by decide, rfl⟩, rfl, rfl⟩,
      .inl ⟨[16], _, [9, 33], _, ⟨16, by unfold inRange lo hi; decide, by decide, rfl⟩,
        .inr ⟨_, [], ⟨9, [9], [33], .inl ⟨by decide, by decide, by decide, rfl⟩, by decide, rfl, rfl⟩, rfl, rfl⟩,
        rfl, rfl⟩, rfl, rfl⟩)⟩
  simpa using this

end NBC.Props
