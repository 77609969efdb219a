import Verif.Proofs.Frame
import Verif.Proofs.WireSettle

/-!
# C59–C66: the wire protocol
-/

namespace NBC.Props
open NBC Spec Spec.Wire Proto

/-! ### C59 -/

/-- C59, for `n < 2^32 - 1`.  Missing: the rest of `[0, 2^64)`, where the claim is false
(`C59_varint_false`). -/
theorem C59_varint_partial (n : Nat) (h : n < 2 ^ 32 - 1) (rest : Bytes) :
    ∃ b, varIntBinary n = .ok b ∧ varIntParse (b ++ rest) = .ok (b.length, (n : Int)) :=
  ⟨varSize n, varIntBinary_eq n (by omega), varIntParse_size n (by unfold varLimit; omega) rest⟩

example : (70000 : Nat) < 2 ^ 32 - 1 := by decide

/-- C59 fails for every `n` from `2^32 - 1` on: the encoding is written and read back as 255. -/
theorem C59_varint_false (n : Nat) (h : 2 ^ 32 - 1 ≤ n) (h' : n < 2 ^ 64) (rest : Bytes) :
    ∃ b, varIntBinary n = .ok b ∧ b.length = 9 ∧ varIntParse (b ++ rest) = .ok (1, 255) := by
  refine ⟨varSize n, varIntBinary_eq n h', ?_, ?_⟩
  · unfold varSize
    rw [if_neg (by omega), if_neg (by omega), if_neg (by omega)]
    simp [beBytes_length]
  · unfold varSize
    rw [if_neg (by omega), if_neg (by omega), if_neg (by omega)]
    rfl

example : varIntBinary (2 ^ 32 - 1) = .ok [0xff, 0xff, 0xff, 0xff, 0xff, 0, 0, 0, 0] := rfl

/-! ### C60 -/

/-- C60: a value accepted by `validate` is read back after `binary`, as its integer part. -/
theorem C60_number (f : Fmt) (big allowFloat : Bool) (v : Val)
    (h : (ftNumber f big allowFloat).validate v = .ok v) (hn : v.isNone = false) :
    ∃ i b, (v = .int i ∨ ∃ m k, v = .float m k ∧ i = trunc m k) ∧
      b.length = bits f / 8 ∧ (ftNumber f big allowFloat).binary v = .ok b ∧
      b = numBytes f big i ∧
      ∀ rest, (ftNumber f big allowFloat).parse (b ++ rest) = .ok (bits f / 8, .int i) := by
  have hr := ftNumber_refines f big allowFloat
  have hb : bits f / 8 = f.size := by rw [bits_size]; omega
  simp only [ftNumber] at h
  unfold numValidate at h
  rw [hb]
  split at h
  · rename_i i
    split_ifs at h with hi
    · rw [range_eq] at hi
      have hw : wNumber f big allowFloat (.int i) (numBytes f big i) (.int i) :=
        .inl ⟨i, rfl, hi, rfl, rfl⟩
      refine ⟨i, _, .inl rfl, wNumber_length hw, hr.binary _ _ _ hw, rfl, fun rest => ?_⟩
      rw [hr.parse _ _ _ hw, wNumber_length hw]
    · injection h with h
      rw [← h] at hn
      cases hn
  · rename_i m k
    split_ifs at h with ha hi
    · rw [range_eq] at hi
      have hw : wNumber f big allowFloat (.float m k) (numBytes f big (trunc m k)) (.int (trunc m k)) :=
        .inr ⟨ha, m, k, rfl, by have := hi.1; push_cast at this; exact this,
          by have := hi.2; push_cast at this; exact this, rfl, rfl⟩
      refine ⟨trunc m k, _, .inr ⟨m, k, rfl, rfl⟩, wNumber_length hw, hr.binary _ _ _ hw, rfl,
        fun rest => ?_⟩
      rw [hr.parse _ _ _ hw, wNumber_length hw]
    · injection h with h
      rw [← h] at hn
      cases hn
    · injection h with h
      rw [← h] at hn
      cases hn
  · injection h with h
    rw [← h] at hn
    cases hn

/-- C60: integers are accepted exactly in the representable range. -/
theorem C60_range (f : Fmt) (big allowFloat : Bool) (i : Int) :
    (ftNumber f big allowFloat).validate (.int i) =
      .ok (if (if twos f then -2 ^ (bits f - 1) ≤ i ∧ i < 2 ^ (bits f - 1)
        else 0 ≤ i ∧ i < 2 ^ bits f) then .int i else .none) := by
  simp only [ftNumber, numValidate, range_eq]
  cases hf : twos f <;> simp [lo, hi, hf]

/-- C60: floats `m / 2^k` are accepted exactly where they are allowed and in the representable range. -/
theorem C60_float (f : Fmt) (big allowFloat : Bool) (m : Int) (k : Nat) :
    (ftNumber f big allowFloat).validate (.float m k) =
      .ok (if allowFloat = true ∧ lo f * 2 ^ k ≤ m ∧ m < hi f * 2 ^ k then .float m k else .none) := by
  simp only [ftNumber, numValidate, range_eq]
  cases allowFloat <;> simp

/-- C60: nothing but numbers is accepted. -/
theorem C60_other (f : Fmt) (big allowFloat : Bool) (v : Val) (hi : ∀ i, v ≠ .int i)
    (hf : ∀ m k, v ≠ .float m k) : (ftNumber f big allowFloat).validate v = .ok .none := by
  cases v with
  | int i => exact absurd rfl (hi i)
  | float m k => exact absurd rfl (hf m k)
  | _ => rfl

/-- 1.5 seconds after the epoch is sent as 1. -/
example : (ftNumber .I false true).validate (.float 3 1) = .ok (.float 3 1) ∧
    (ftNumber .I false true).binary (.float 3 1) = .ok [1, 0, 0, 0] := ⟨rfl, rfl⟩

/-! ### C61 -/

/-- C61: every 16-byte address is read as its canonical text, which is written as the same bytes. -/
theorem C61_address (a rest : Bytes) (h : a.length = 16) :
    ftIPAddress.parse (a ++ rest) = .ok (16, .str (ipText a)) ∧
    ftIPAddress.validate (.str (ipText a)) = .ok (.str (ipText a)) ∧
    ftIPAddress.binary (.str (ipText a)) = .ok a := by
  have hw : wIPAddress (.str (ipText a)) a (.str (ipText a)) := ⟨h, rfl, rfl⟩
  have := ftIPAddress_refines.parse _ _ _ hw rest
  rw [h] at this
  exact ⟨this, (ftIPAddress_refines.valid _ _ _ hw).1, ftIPAddress_refines.binary _ _ _ hw⟩

/-- C61: the dotted quad of four bytes is written behind the IPv4 prefix and read back unchanged. -/
theorem C61_dotted_quad (a b c d : UInt8) (rest : Bytes) :
    let text := joined '.' ([a, b, c, d].map (fun x => numeral 10 x.toNat))
    ftIPAddress.binary (.str text) = .ok (v4Prefix ++ [a, b, c, d]) ∧
    ftIPAddress.parse ((v4Prefix ++ [a, b, c, d]) ++ rest) = .ok (16, .str text) := by
  have h := C61_address (v4Prefix ++ [a, b, c, d]) rest rfl
  have e : ipText (v4Prefix ++ [a, b, c, d]) = joined '.' ([a, b, c, d].map (fun x => numeral 10 x.toNat)) := by
    unfold ipText
    rw [if_pos (by rfl)]
    rfl
  rw [e] at h
  exact ⟨h.2.2, h.1⟩

/-- C61: whatever text is accepted for writing, the bytes are sixteen and are read back as canonical
text. -/
theorem C61_any_text (s : List Char) (b rest : Bytes) (h : ftIPAddress.binary (.str s) = .ok b) :
    b.length = 16 ∧ ftIPAddress.parse (b ++ rest) = .ok (16, .str (ipText b)) := by
  have hpk : ∀ (f : Fmt) (n : Nat) (g : List Int) (b : Bytes), packAll f n g = .ok b →
      b.length = n * f.size := by
    intro f n g b hb
    unfold packAll at hb
    split_ifs at hb with hn
    obtain ⟨bs, h1, h2⟩ := bind_ok_iff.1 hb
    injection h2 with h2
    subst h2
    have hlen : ∀ (g : List Int) (bs : List Bytes), g.mapM (pack f true) = .ok bs →
        bs.flatten.length = g.length * f.size := by
      intro g
      induction g with
      | nil =>
        intro bs hb
        simp only [List.mapM_nil, pure_ok_iff] at hb
        subst hb
        simp
      | cons x xs ih =>
        intro bs hb
        rw [List.mapM_cons] at hb
        obtain ⟨y, hy, hb⟩ := bind_ok_iff.1 hb
        obtain ⟨ys, hys, hb⟩ := bind_ok_iff.1 hb
        rw [pure_ok_iff] at hb
        subst hb
        have hyl : y.length = f.size := by
          rw [(pack_ok_iff.1 hy).2]
          exact numBytes_length ..
        rw [List.flatten_cons, List.length_append, ih ys hys, hyl, List.length_cons]
        ring
    rw [hlen g bs h1, not_not.1 hn]
  have hl : b.length = 16 := by
    simp only [ftIPAddress, ipBinary] at h
    split at h
    · obtain ⟨b', h1, h2⟩ := bind_ok_iff.1 h
      injection h2 with h2
      subst h2
      rw [List.length_append, hpk _ _ _ _ h1]
      rfl
    · obtain ⟨g, h1, h2⟩ := bind_ok_iff.1 h
      cases g with
      | none => cases h2
      | some g => exact hpk _ _ _ _ h2
  exact ⟨hl, (C61_address b rest hl).1⟩

example : ftIPAddress.binary (.str "::1".toList) = .ok [0, 0, 0, 0, 0, 0, 0, 0, 0, 0, 0, 0, 0, 0, 0, 1] ∧
    ipText [0, 0, 0, 0, 0, 0, 0, 0, 0, 0, 0, 0, 0, 0, 0, 1] = "0:0:0:0:0:0:0:1".toList := by decide

/-! ### C62 -/

/-- A value that `validate` returns can be serialised. -/
def Sends (T : FType) : Prop :=
  ∀ v w, T.validate v = .ok w → w.isNone = false → ∃ b, T.binary w = .ok b

theorem number_sends (f : Fmt) (big allowFloat : Bool) : Sends (ftNumber f big allowFloat) := by
  intro v w h hn
  have hv : w = v := by
    simp only [ftNumber, numValidate] at h
    split at h <;> (try split_ifs at h) <;> simp only [Except.ok.injEq] at h <;> subst h <;>
      first | rfl | (cases hn)
  subst hv
  obtain ⟨i, b, -, -, h3, -⟩ := C60_number f big allowFloat w h hn
  exact ⟨b, h3⟩

/-- C62, for the types where it holds: numbers, byte strings, the optional flag, arrays (shorter than
`2^64`) and field lists of such types; variable integers in `[0, 2^64)`, strings given as bytes, and
addresses in dotted form.  Missing: all other variable integers, text and addresses, where the claim is
false (`C62_validated_false`), and objects, which are only checked for their class. -/
theorem C62_validated_partial :
    (∀ f big af, Sends (ftNumber f big af)) ∧ (∀ n, Sends (ftBytes n)) ∧
    Sends (ftOptional (ftNumber .B) (.int 1)) ∧
    (∀ T lo hi, Sends T → ∀ v w, (ftArray T lo hi).validate v = .ok w → w.isNone = false →
      (∀ l, w = .tuple l → l.length < 2 ^ 64) → ∃ b, (ftArray T lo hi).binary w = .ok b) ∧
    (∀ n : Nat, n < 2 ^ 64 → ∃ b, ftVarInteger.binary (.int n) = .ok b) ∧
    (∀ s : Bytes, s.length < 2 ^ 64 → ∃ b, ftVarString.binary (.bytes s) = .ok b) ∧
    (∀ s, (ipv4Groups s).isSome → ∃ b, ftIPAddress.binary (.str s) = .ok b) := by
  refine ⟨number_sends, ?_, ?_, ?_, ?_, ?_, ?_⟩
  · intro n v w h hn
    cases v <;> simp only [ftBytes, Except.ok.injEq] at h <;> (try split_ifs at h) <;> subst h <;>
      first | exact ⟨_, rfl⟩ | (cases hn)
  · intro v w h hn
    simp only [ftOptional] at h
    split at h
    · rename_i x hx
      injection h with h
      split_ifs at h with hx'
      · subst h
        exact ⟨[1], rfl⟩
      · subst h
        exact number_sends .B false false v x hx (by simpa using hx')
    · injection h with h
      subst h
      exact ⟨[1], rfl⟩
  · intro T lo hi hT v w h hn hlen
    cases v with
    | tuple l =>
      simp only [ftArray] at h
      split_ifs at h
      · injection h with h; subst h; cases hn
      · injection h with h; subst h; cases hn
      · obtain ⟨l', h1, h⟩ := bind_ok_iff.1 h
        injection h with h
        split_ifs at h with ha
        · subst h; cases hn
        · subst h
          have hall : ∀ x ∈ l', x.isNone = false := by
            intro x hx
            by_contra hc
            exact ha (List.any_eq_true.2 ⟨x, hx, by simpa using hc⟩)
          have hb : ∀ (l l' : List Val), l.mapM T.validate = .ok l' → (∀ x ∈ l', x.isNone = false) →
              ∃ bs, l'.mapM T.binary = .ok bs := by
            intro l
            induction l with
            | nil =>
              intro l' h _
              simp only [List.mapM_nil, pure_ok_iff] at h
              subst h
              exact ⟨[], rfl⟩
            | cons x xs ih =>
              intro l' h hx'
              rw [List.mapM_cons] at h
              obtain ⟨y, hy, h⟩ := bind_ok_iff.1 h
              obtain ⟨ys, hys, h⟩ := bind_ok_iff.1 h
              rw [pure_ok_iff] at h
              subst h
              obtain ⟨b, hb⟩ := hT x y hy (hx' y (by simp))
              obtain ⟨bs, hbs⟩ := ih ys hys (fun z hz => hx' z (by simp [hz]))
              exact ⟨b :: bs, by rw [List.mapM_cons, hb, ok_bind, hbs, ok_bind]; rfl⟩
          obtain ⟨bs, hbs⟩ := hb l l' h1 hall
          refine ⟨varSize l'.length ++ bs.flatten, ?_⟩
          simp only [ftArray]
          rw [varIntBinary_eq _ (hlen l' rfl), ok_bind, hbs, ok_bind]
    | _ => simp only [ftArray, Except.ok.injEq] at h; subst h; cases hn
  · intro n hn
    exact ⟨varSize n, by simp only [ftVarInteger, varIntBinary_eq n hn]⟩
  · intro s hs
    exact ⟨varSize s.length ++ s, by simp only [ftVarString, varStringBinary_eq s hs]⟩
  · intro s hs
    obtain ⟨g, hg⟩ := Option.isSome_iff_exists.1 hs
    have hg' : g.length = 4 ∧ ∀ x ∈ g, inRange .B x := by
      unfold ipv4Groups at hg
      split at hg
      · cases hg
      · split_ifs at hg with h1 h2
        injection hg with hg
        subst hg
        refine ⟨not_not.1 h1, fun x hx => ?_⟩
        have := List.all_eq_true.1 h2 x hx
        simp only [decide_eq_true_eq] at this
        unfold inRange lo hi
        simp only [twos, bits, Bool.false_eq_true, if_false]
        omega
    have hm : ∀ l : List Int, (∀ x ∈ l, inRange .B x) → ∃ bs, l.mapM (pack .B true) = .ok bs := by
      intro l
      induction l with
      | nil => exact fun _ => ⟨[], rfl⟩
      | cons x xs ih =>
        intro h
        obtain ⟨bs, hbs⟩ := ih (fun z hz => h z (by simp [hz]))
        exact ⟨_ :: bs, by rw [List.mapM_cons, pack_ok (h x (by simp)), ok_bind, hbs, ok_bind]; rfl⟩
    obtain ⟨bs, hbs⟩ := hm g hg'.2
    refine ⟨ipHead ++ bs.flatten, ?_⟩
    simp only [ftIPAddress, ipBinary, hg, packAll]
    rw [if_neg (by simp [hg'.1]), hbs]
    rfl

/-- C62 fails: -1 and `2^64` pass as variable integers, `"1:2"` passes as an address and text outside
Latin-1 passes as a string, and none of them can be written. -/
theorem C62_validated_false :
    (ftVarInteger.validate (.int (-1)) = .ok (.int (-1)) ∧
      ftVarInteger.binary (.int (-1)) = .error .structError) ∧
    (ftVarInteger.validate (.int (2 ^ 64)) = .ok (.int (2 ^ 64)) ∧
      ftVarInteger.binary (.int (2 ^ 64)) = .error .structError) ∧
    (ftIPAddress.validate (.str "1:2".toList) = .ok (.str "1:2".toList) ∧
      ftIPAddress.binary (.str "1:2".toList) = .error .structError) ∧
    (ftVarString.validate (.str ['€']) = .ok (.str ['€']) ∧
      ftVarString.binary (.str ['€']) = .error .valueError) :=
  ⟨⟨rfl, rfl⟩, ⟨rfl, rfl⟩, ⟨rfl, rfl⟩, ⟨rfl, rfl⟩⟩

/-! ### C63 -/

/-- C63: for every message type and every list of field values that the specification allows, the
constructor accepts the values (by position, or by name in any order), `binary` writes the specified
frame, and `parse` returns a message of the same type with the values as they are read back (`vs'`: the
same values, except that floats are truncated, text becomes bytes, and the addresses of a version message
lose their time stamps). -/
theorem C63_message (H : Hashes) (command : String) (ws : List (String × WType))
    (hm : (command, ws) ∈ messages) (vs vs' : List (String × Val)) (payload magic rest : Bytes)
    (hw : wFields ws vs payload vs') (hp : payload.length < 2 ^ 32) (hg : magic.length = 4) :
    ∃ t ∈ registry, t.command = command ∧
      compInit t.props (vs.map (·.2)) [] = .ok vs ∧
      (∀ kw, kw.Perm vs → compInit t.props [] kw = .ok vs) ∧
      t.binary H vs magic = .ok (wireFrame H magic command payload) ∧
      parseMessage H (wireFrame H magic command payload ++ rest) magic = .ok ⟨command, vs'⟩ := by
  obtain ⟨t, ht, rfl, hr⟩ := registry_refines.find hm
  have hn := registry_nodup t ht
  refine ⟨t, ht, rfl, compInit_positional hr hn hw, fun kw hk => compInit_keyword hr hn hw kw hk, ?_, ?_⟩
  · unfold MsgType.binary
    rw [compBinary_fields hr hn hw, ok_bind, frame_eq H (command_mem ht) payload magic hp]
  · rw [parseMessage_frame H ht payload magic rest hg hp]
    have := parseFields_zero hr hw []
    rw [List.append_nil] at this
    rw [this, ok_bind]

/-- C63: a message that was received is sent as the same bytes and received again with the same
values: from the first reading on nothing changes. -/
theorem C63_settled (command : String) (ws : List (String × WType)) (hm : (command, ws) ∈ messages)
    (vs vs' : List (String × Val)) (payload : Bytes) (hw : wFields ws vs payload vs') :
    wFields ws vs' payload vs' := by
  refine settles_fields ?_ hw
  simp only [messages, List.mem_cons, List.not_mem_nil, or_false, Prod.mk.injEq] at hm
  rcases hm with ⟨-, rfl⟩ | ⟨-, rfl⟩ | ⟨-, rfl⟩ | ⟨-, rfl⟩ | ⟨-, rfl⟩ | ⟨-, rfl⟩ | ⟨-, rfl⟩ | ⟨-, rfl⟩ |
    ⟨-, rfl⟩ | ⟨-, rfl⟩ | ⟨-, rfl⟩ | ⟨-, rfl⟩ | ⟨-, rfl⟩ | ⟨-, rfl⟩ | ⟨-, rfl⟩ | ⟨-, rfl⟩ | ⟨-, rfl⟩ |
    ⟨-, rfl⟩ | ⟨-, rfl⟩ | ⟨-, rfl⟩ | ⟨-, rfl⟩ <;>
  try simp only [invFields, locatorFields, List.forall_mem_append, List.forall_mem_cons, List.not_mem_nil,
    false_imp_iff, implies_true, and_true]
  · exact ⟨settles_number _ _ _, settles_number _ _ _, settles_number _ _ _, settles_netAddrNoTs,
      settles_netAddrNoTs, settles_bytes 8, settles_string, settles_number _ _ _, settles_number _ _ _⟩
  · exact settles_array settles_netAddr _ _
  · exact settles_array settles_inv _ _
  · exact settles_array settles_inv _ _
  · exact settles_array settles_inv _ _
  · exact ⟨settles_number _ _ _, settles_array (settles_bytes 32) _ _, settles_bytes 32⟩
  · exact ⟨settles_number _ _ _, settles_array (settles_bytes 32) _ _, settles_bytes 32⟩
  · exact settles_tx
  · exact ⟨settles_header, settles_array (settles_object settles_tx) _ _⟩
  · exact settles_array settles_blockHeader _ _
  · exact settles_bytes 8
  · exact settles_bytes 8
  · exact ⟨settles_string, settles_number _ _ _, settles_string⟩
  · exact ⟨settles_array (settles_number _ _ _) _ _, settles_number _ _ _, settles_number _ _ _, settles_number _ _ _⟩
  · exact settles_string
  · exact ⟨settles_header, settles_number _ _ _, settles_array (settles_bytes 32) _ _,
      settles_array (settles_number _ _ _) _ _⟩
  · exact ⟨settles_string, settles_string⟩

/-- C63: the length announced by the first 20 bytes of a frame is the length of the frame. -/
theorem C63_first_msg_len (H : Hashes) (command : String) (ws : List (String × WType))
    (hm : (command, ws) ∈ messages) (payload magic rest : Bytes) (hp : payload.length < 2 ^ 32)
    (hg : magic.length = 4) :
    firstMsgLen (wireFrame H magic command payload ++ rest) =
      .ok (some (wireFrame H magic command payload).length) := by
  refine firstMsgLen_frame H ?_ payload magic rest hg hp
  rw [← messages_commands]
  exact List.mem_map_of_mem (f := (·.1)) hm

/-- The fields of an address message with one peer, at time 1.5. -/
def addrExample : List (String × Val) := [("addr_list", .tuple [.obj "NetworkAddress"
  [("timestamp", .float 3 1), ("services", .int 1), ("address", .str "10.0.0.1".toList),
    ("port", .int 8333)]])]

example : ∃ payload vs', wFields [("addr_list", wArray wNetworkAddress 0 (some 1000))] addrExample
    payload vs' ∧ payload.length = 31 :=
  ⟨_, _, ⟨_, _, _, _, _, _, ⟨[(_, _, _)], by
      intro t ht
      rw [List.mem_singleton] at ht
      subst ht
      exact ⟨_, _, ⟨.float 3 1, _, _, _, _, _, .inr ⟨rfl, 3, 1, rfl, by decide, by decide, rfl, rfl⟩,
        ⟨.int 1, _, _, _, _, _, .inl ⟨1, rfl, by unfold inRange; decide, rfl, rfl⟩,
        ⟨.str "10.0.0.1".toList, v4Prefix ++ [10, 0, 0, 1], _, _, _, _, ⟨rfl, congrArg Val.str (by decide), rfl⟩,
        ⟨.int 8333, _, _, _, _, _, .inl ⟨8333, rfl, by unfold inRange; decide, rfl, rfl⟩, ⟨rfl, rfl, rfl⟩,
          rfl, rfl, rfl⟩, rfl, rfl, rfl⟩, rfl, rfl, rfl⟩, rfl, rfl, rfl⟩, rfl, rfl⟩,
      by decide, by rintro h ⟨⟩; decide, by decide, rfl, rfl, rfl⟩, ⟨rfl, rfl, rfl⟩, rfl, rfl, rfl⟩,
    by decide⟩

/-! ### C64 -/

/-- C64: another magic number is refused. -/
theorem C64_magic (H : Hashes) (data magic : Bytes) (h : data.take 4 ≠ magic) :
    parseMessage H data magic = .error .msgFormatError := by
  unfold parseMessage
  rw [if_pos h]

/-- The payload of a frame: as many bytes behind the header as announced. -/
def announced (data : Bytes) : Bytes :=
  (data.drop 24).take (bytesVal ((data.drop 16).take 4).reverse)

theorem parse_header (H : Hashes) (data magic : Bytes) (hl : 20 ≤ data.length)
    (hm : data.take 4 = magic) : parseMessage H data magic =
      if (data.drop 20).take 4 ≠ (H.sha256 (H.sha256 (announced data))).take 4 then .error .msgFormatError
      else match lookup (latin1Decode (stripZeros ((data.drop 4).take 12))) with
        | none => .error .unknownMsgError
        | some t => (do
          let (_, kw) ← parseFields (announced data) t.props 0
          .ok ⟨t.command, kw⟩) := by
  unfold parseMessage
  rw [if_neg (by simp [hm]), unpack_I (by rw [List.length_take, List.length_drop]; omega), ok_bind]
  simp only [Int.toNat_natCast]
  rfl

/-- C64: a checksum that is not that of the announced payload is refused. -/
theorem C64_checksum (H : Hashes) (data magic : Bytes) (hl : 20 ≤ data.length)
    (h : (data.drop 20).take 4 ≠ (H.sha256 (H.sha256 (announced data))).take 4) :
    parseMessage H data magic = .error .msgFormatError := by
  by_cases hm : data.take 4 = magic
  · rw [parse_header H data magic hl hm, if_pos h]
  · exact C64_magic H data magic hm

/-- C64: an unknown command is refused. -/
theorem C64_unknown (H : Hashes) (data magic : Bytes) (hl : 20 ≤ data.length)
    (hm : data.take 4 = magic)
    (hc : (data.drop 20).take 4 = (H.sha256 (H.sha256 (announced data))).take 4)
    (h : ∀ name ∈ messages.map (·.1), ∀ i j, (data.drop 4).take 12 ≠
      List.replicate i 0 ++ name.toList.map (fun c => UInt8.ofNat c.toNat) ++ List.replicate j 0) :
    parseMessage H data magic = .error .unknownMsgError := by
  rw [parse_header H data magic hl hm, if_neg (by simpa using hc)]
  cases hk : lookup (latin1Decode (stripZeros ((data.drop 4).take 12))) with
  | none => rfl
  | some t =>
    exfalso
    obtain ⟨h1, h2⟩ := lookup_some hk
    have hmem := command_mem h1
    rw [← latin1Decode_name hmem] at h2
    obtain ⟨i, j, e⟩ := stripZeros_spec ((data.drop 4).take 12)
    rw [← latin1Decode_inj h2] at e
    exact h t.command (by rw [messages_commands]; exact hmem) i j e

/-- C64: whatever is returned came in a frame with this magic number, the right checksum and the name of
its type. -/
theorem C64_accepted (H : Hashes) (data magic : Bytes) (m : Msg) (h : parseMessage H data magic = .ok m) :
    data.take 4 = magic ∧
    (data.drop 20).take 4 = (H.sha256 (H.sha256 (announced data))).take 4 ∧
    m.command ∈ messages.map (·.1) ∧
    ∃ i j, (data.drop 4).take 12 = List.replicate i 0 ++
      m.command.toList.map (fun c => UInt8.ofNat c.toNat) ++ List.replicate j 0 := by
  have hm : data.take 4 = magic := by
    by_contra hc
    rw [C64_magic H data magic hc] at h
    cases h
  have hl : 20 ≤ data.length := by
    by_contra hc
    unfold parseMessage at h
    rw [if_neg (by simp [hm])] at h
    obtain ⟨l, h1, -⟩ := bind_ok_iff.1 h
    have := unpack_ok_length h1
    rw [List.length_take, List.length_drop] at this
    simp only [Fmt.size] at this
    omega
  rw [parse_header H data magic hl hm] at h
  split_ifs at h with hc
  split at h
  · cases h
  · rename_i t hk
    obtain ⟨⟨o, kw⟩, -, h⟩ := bind_ok_iff.1 h
    injection h with h
    subst h
    obtain ⟨h1, h2⟩ := lookup_some hk
    have hmem := command_mem h1
    rw [← latin1Decode_name hmem] at h2
    obtain ⟨i, j, e⟩ := stripZeros_spec ((data.drop 4).take 12)
    rw [← latin1Decode_inj h2] at e
    exact ⟨hm, not_not.1 hc, by rw [messages_commands]; exact hmem, i, j, e⟩

/-- A frame of a `verack` message with one byte of the checksum changed. -/
example : let d := wireFrame Hashes.toy [1, 2, 3, 4] "verack" []
    parseMessage Hashes.toy d [1, 2, 3, 4] = .ok ⟨"verack", []⟩ ∧
    ∃ x, x ≠ d.getD 20 0 ∧ parseMessage Hashes.toy (d.set 20 x) [1, 2, 3, 4] = .error .msgFormatError :=
  ⟨rfl, 77, by decide, rfl⟩

/-! ### C65 -/

/-- The messages whose truncated payloads are refused. -/
def strictCommands : List String :=
  ["verack", "addr", "tx", "block", "headers", "getaddr", "mempool", "filterload", "filterclear",
    "merkleblock"]

/-- The messages that can be cut short unnoticed. -/
def looseCommands : List String :=
  ["version", "inv", "getdata", "notfound", "getblocks", "getheaders", "ping", "pong", "reject",
    "filteradd", "alert"]

theorem nil_strict (ps : Props) : StrictFields ps [] := by
  rintro vs b vs' ⟨-, rfl, -⟩ pre q s hq hs
  exact absurd (List.append_eq_nil_iff.1 hq).2 hs

/-- C65, for ten of the 21 message types: every strict prefix of a well-formed payload, properly framed,
is refused with `ParameterError`.  Missing: the other eleven types, where it is false
(`C65_truncated_false`). -/
theorem C65_truncated_partial (H : Hashes) (command : String) (ws : List (String × WType))
    (hm : (command, ws) ∈ messages) (hs : command ∈ strictCommands) (vs vs' : List (String × Val))
    (payload q s magic rest : Bytes) (hw : wFields ws vs payload vs') (hq : q ++ s = payload) (hne : s ≠ [])
    (hp : q.length < 2 ^ 32) (hg : magic.length = 4) :
    parseMessage H (wireFrame H magic command q ++ rest) magic = .error .parameterError := by
  have key : ∃ t ∈ registry, t.command = command ∧ StrictFields t.props ws := by
    simp only [messages, List.mem_cons, List.not_mem_nil, or_false, Prod.mk.injEq] at hm
    rcases hm with ⟨rfl, rfl⟩ | ⟨rfl, rfl⟩ | ⟨rfl, rfl⟩ | ⟨rfl, rfl⟩ | ⟨rfl, rfl⟩ | ⟨rfl, rfl⟩ |
      ⟨rfl, rfl⟩ | ⟨rfl, rfl⟩ | ⟨rfl, rfl⟩ | ⟨rfl, rfl⟩ | ⟨rfl, rfl⟩ | ⟨rfl, rfl⟩ | ⟨rfl, rfl⟩ |
      ⟨rfl, rfl⟩ | ⟨rfl, rfl⟩ | ⟨rfl, rfl⟩ | ⟨rfl, rfl⟩ | ⟨rfl, rfl⟩ | ⟨rfl, rfl⟩ | ⟨rfl, rfl⟩ |
      ⟨rfl, rfl⟩
    · exact absurd hs (by decide)
    · exact ⟨msgVerack, by simp [registry], rfl, nil_strict _⟩
    · exact ⟨msgAddr, by simp [registry], rfl, addr_strict⟩
    · exact absurd hs (by decide)
    · exact absurd hs (by decide)
    · exact absurd hs (by decide)
    · exact absurd hs (by decide)
    · exact absurd hs (by decide)
    · exact ⟨msgTx, by simp [registry], rfl, tx_strict⟩
    · exact ⟨msgBlock, by simp [registry], rfl, block_strict⟩
    · exact ⟨msgHeaders, by simp [registry], rfl, headers_strict⟩
    · exact ⟨msgGetaddr, by simp [registry], rfl, nil_strict _⟩
    · exact ⟨msgMempool, by simp [registry], rfl, nil_strict _⟩
    · exact absurd hs (by decide)
    · exact absurd hs (by decide)
    · exact absurd hs (by decide)
    · exact ⟨msgFilterload, by simp [registry], rfl, filterload_strict⟩
    · exact absurd hs (by decide)
    · exact ⟨msgFilterclear, by simp [registry], rfl, nil_strict _⟩
    · exact ⟨msgMerkleblock, by simp [registry], rfl, merkleblock_strict⟩
    · exact absurd hs (by decide)
  obtain ⟨t, ht, rfl, hst⟩ := key
  rw [parseMessage_frame H ht q magic rest hg hp]
  obtain ⟨e, he⟩ := strictFields_zero hst hw hq hne
  have hpe : ∀ (data : Bytes) (ps : Props) (off : Nat) (e : PyErr),
      parseFields data ps off = .error e → e = .parameterError := by
    intro data ps
    induction ps with
    | nil => intro off e h; cases h
    | cons p ps ih =>
      obtain ⟨k, T⟩ := p
      intro off e h
      simp only [parseFields] at h
      split at h
      · injection h with h; exact h.symm
      · rcases bind_error_iff.1 h with h | ⟨r, -, h⟩
        · exact ih _ _ h
        · cases h
  rw [he, error_bind, hpe _ _ _ _ he]

/-- A transaction of 61 bytes: one input, one output. -/
example : ∃ vs payload vs', wFields txFields vs payload vs' ∧ payload.length = 61 ∧ "tx" ∈ strictCommands :=
  ⟨_, _, _, ⟨.int 1, _, _, _, _, _, .inl ⟨1, rfl, by unfold inRange; decide, rfl, rfl⟩,
    ⟨_, _, _, _, _, _, ⟨[(_, _, _)], by
      intro t ht
      rw [List.mem_singleton] at ht
      subst ht
      exact ⟨_, _, ⟨_, _, _, _, _, _, ⟨_, _, ⟨_, List.replicate 32 7, _, _, _, _, ⟨rfl, rfl, rfl⟩,
          ⟨.int 0, _, _, _, _, _, .inl ⟨0, rfl, by unfold inRange; decide, rfl, rfl⟩, ⟨rfl, rfl, rfl⟩,
            rfl, rfl, rfl⟩, rfl, rfl, rfl⟩, rfl, rfl⟩,
        ⟨_, _, _, _, _, _, ⟨[5], by decide, .inl rfl, rfl, rfl⟩,
        ⟨.int 9, _, _, _, _, _, .inl ⟨9, rfl, by unfold inRange; decide, rfl, rfl⟩, ⟨rfl, rfl, rfl⟩,
          rfl, rfl, rfl⟩, rfl, rfl, rfl⟩, rfl, rfl, rfl⟩, rfl, rfl⟩,
      by decide, (by rintro h ⟨⟩), by decide, rfl, rfl, rfl⟩,
    ⟨_, _, _, _, _, _, ⟨[(_, _, _)], by
      intro t ht
      rw [List.mem_singleton] at ht
      subst ht
      exact ⟨_, _, ⟨.int 50, _, _, _, _, _, .inl ⟨50, rfl, by unfold inRange; decide, rfl, rfl⟩,
        ⟨_, _, _, _, _, _, ⟨[], by decide, .inl rfl, rfl, rfl⟩, ⟨rfl, rfl, rfl⟩, rfl, rfl, rfl⟩,
        rfl, rfl, rfl⟩, rfl, rfl⟩,
      by decide, (by rintro h ⟨⟩), by decide, rfl, rfl, rfl⟩,
    ⟨.int 0, _, _, _, _, _, .inl ⟨0, rfl, by unfold inRange; decide, rfl, rfl⟩, ⟨rfl, rfl, rfl⟩,
      rfl, rfl, rfl⟩, rfl, rfl, rfl⟩, rfl, rfl, rfl⟩, rfl, rfl, rfl⟩, by decide, by decide⟩

/-- C65 fails for each of the other eleven message types: some well-formed payload has a strict prefix
that is accepted. -/
theorem C65_truncated_false (H : Hashes) (magic : Bytes) (hg : magic.length = 4) (command : String)
    (hc : command ∈ looseCommands) :
    ∃ ws vs payload vs' q s m, (command, ws) ∈ messages ∧ wFields ws vs payload vs' ∧ q ++ s = payload ∧
      s ≠ [] ∧ parseMessage H (wireFrame H magic command q) magic = .ok m := by
  have main : ∀ (t : MsgType) (ht : t ∈ registry) (ws) (hw : (t.command, ws) ∈ messages),
      (∃ vs payload vs' q s r, wFields ws vs payload vs' ∧ q ++ s = payload ∧ s ≠ [] ∧
        q.length < 2 ^ 32 ∧ parseFields q t.props 0 = .ok r) →
      ∃ ws vs payload vs' q s m, (t.command, ws) ∈ messages ∧ wFields ws vs payload vs' ∧
        q ++ s = payload ∧ s ≠ [] ∧ parseMessage H (wireFrame H magic t.command q) magic = .ok m := by
    rintro t ht ws hw ⟨vs, payload, vs', q, s, ⟨o, kw⟩, h1, h2, h3, h4, h5⟩
    refine ⟨ws, vs, payload, vs', q, s, ⟨t.command, kw⟩, hw, h1, h2, h3, ?_⟩
    have := parseMessage_frame H ht q magic [] hg h4
    rw [List.append_nil] at this
    rw [this, h5, ok_bind]
  have hinv : ∃ vs payload vs' q s r, wFields invFields vs payload vs' ∧ q ++ s = payload ∧ s ≠ [] ∧
      q.length < 2 ^ 32 ∧ parseFields q invProps 0 = .ok r :=
    ⟨_, _, _, [1, 1, 0, 0, 0], List.replicate 32 7, _, ⟨_, _, _, _, _, _, ⟨[(_, _, _)], by
      intro t ht
      rw [List.mem_singleton] at ht
      subst ht
      exact ⟨_, _, ⟨.int 1, _, _, _, _, _, .inl ⟨1, rfl, by unfold inRange; decide, rfl, rfl⟩,
        ⟨_, List.replicate 32 7, _, _, _, _, ⟨rfl, rfl, rfl⟩, ⟨rfl, rfl, rfl⟩, rfl, rfl, rfl⟩,
        rfl, rfl, rfl⟩, rfl, rfl⟩,
      by decide, (by rintro h ⟨⟩; decide), by decide, rfl, rfl, rfl⟩, ⟨rfl, rfl, rfl⟩, rfl, rfl, rfl⟩,
      by decide, by decide, by decide, rfl⟩
  have hloc : ∃ vs payload vs' q s r, wFields locatorFields vs payload vs' ∧ q ++ s = payload ∧ s ≠ [] ∧
      q.length < 2 ^ 32 ∧ parseFields q getBlocksProps 0 = .ok r :=
    ⟨_, _, _, [2, 0, 0, 0, 1], List.replicate 32 7 ++ List.replicate 32 0, _,
      ⟨.int 2, _, _, _, _, _, .inl ⟨2, rfl, by unfold inRange; decide, rfl, rfl⟩,
      ⟨_, _, _, _, _, _, ⟨[(.bytes (List.replicate 32 7), List.replicate 32 7,
        .bytes (List.replicate 32 7))], by
        intro t ht
        rw [List.mem_singleton] at ht
        subst ht
        exact ⟨rfl, rfl, rfl⟩, by decide, (by rintro h ⟨⟩), by decide, rfl, rfl, rfl⟩,
      ⟨_, List.replicate 32 0, _, _, _, _, ⟨rfl, rfl, rfl⟩, ⟨rfl, rfl, rfl⟩, rfl, rfl, rfl⟩,
      rfl, rfl, rfl⟩, rfl, rfl, rfl⟩, (by simp; rfl), by decide, by decide, rfl⟩
  have hnonce : ∃ vs payload vs' q s r, wFields [("nonce", wBytes 8)] vs payload vs' ∧ q ++ s = payload ∧
      s ≠ [] ∧ q.length < 2 ^ 32 ∧ parseFields q msgPing.props 0 = .ok r :=
    ⟨_, _, _, [], [1, 2, 3, 4, 5, 6, 7, 8], _, ⟨_, [1, 2, 3, 4, 5, 6, 7, 8], _, _, _, _, ⟨rfl, rfl, rfl⟩,
      ⟨rfl, rfl, rfl⟩, rfl, rfl, rfl⟩, by decide, by decide, by decide, rfl⟩
  simp only [looseCommands, List.mem_cons, List.not_mem_nil, or_false] at hc
  rcases hc with rfl | rfl | rfl | rfl | rfl | rfl | rfl | rfl | rfl | rfl | rfl
  · have hnet : wNetworkAddressNoTimestamp (.obj "NetworkAddress" [("timestamp", .int 0),
        ("services", .int 0), ("address", .str (ipText (List.replicate 16 0))), ("port", .int 0)])
        (List.replicate 26 0) (.obj "NetworkAddress" [("timestamp", .int 0),
        ("services", .int 0), ("address", .str (ipText (List.replicate 16 0))), ("port", .int 0)]) :=
      ⟨.int 0, _, .int 0, _, _, .inl ⟨0, rfl, by unfold inRange; decide, rfl, rfl⟩,
        ⟨.int 0, List.replicate 8 0, .int 0, _, _, _, .inl ⟨0, rfl, by unfold inRange; decide, by decide, rfl⟩,
        ⟨_, List.replicate 16 0, _, _, _, _, ⟨rfl, rfl, rfl⟩,
        ⟨.int 0, [0, 0], .int 0, _, _, _, .inl ⟨0, rfl, by unfold inRange; decide, by decide, rfl⟩,
          ⟨rfl, rfl, rfl⟩, rfl, rfl, rfl⟩, rfl, rfl, rfl⟩, rfl, rfl, rfl⟩, rfl, rfl⟩
    refine main msgVersion (by simp [registry]) _ (by simp [messages, msgVersion]; rfl) ?_
    refine ⟨_, _, _, List.replicate 85 0, [1], _,
      ⟨.int 0, [0, 0, 0, 0], .int 0, _, _, _, .inl ⟨0, rfl, by unfold inRange; decide, by decide, rfl⟩,
      ⟨.int 0, List.replicate 8 0, .int 0, _, _, _, .inl ⟨0, rfl, by unfold inRange; decide, by decide, rfl⟩,
      ⟨.int 0, List.replicate 8 0, .int 0, _, _, _, .inl ⟨0, rfl, by unfold inRange; decide, by decide, rfl⟩,
      ⟨_, _, _, _, _, _, hnet, ⟨_, _, _, _, _, _, hnet,
      ⟨_, List.replicate 8 0, _, _, _, _, ⟨rfl, rfl, rfl⟩,
      ⟨_, _, _, _, _, _, ⟨[], by decide, .inl rfl, rfl, rfl⟩,
      ⟨.int 0, [0, 0, 0, 0], .int 0, _, _, _, .inl ⟨0, rfl, by unfold inRange; decide, by decide, rfl⟩,
      ⟨.int 1, [1], .int 1, _, _, _, .inl ⟨1, rfl, by unfold inRange; decide, by decide, rfl⟩,
      ⟨rfl, rfl, rfl⟩, rfl, rfl, rfl⟩, rfl, rfl, rfl⟩, rfl, rfl, rfl⟩, rfl, rfl, rfl⟩, rfl, rfl, rfl⟩,
      rfl, rfl, rfl⟩, rfl, rfl, rfl⟩, rfl, rfl, rfl⟩, rfl, rfl, rfl⟩, by decide, by decide, by decide, rfl⟩
  · exact main msgInv (by simp [registry]) invFields (by simp [messages, msgInv]) hinv
  · exact main msgGetdata (by simp [registry]) invFields (by simp [messages, msgGetdata]) hinv
  · exact main msgNotfound (by simp [registry]) invFields (by simp [messages, msgNotfound]) hinv
  · exact main msgGetblocks (by simp [registry]) locatorFields (by simp [messages, msgGetblocks]) hloc
  · exact main msgGetheaders (by simp [registry]) locatorFields (by simp [messages, msgGetheaders]) hloc
  · exact main msgPing (by simp [registry]) _ (by simp [messages, msgPing]) hnonce
  · exact main msgPong (by simp [registry]) _ (by simp [messages, msgPong]) hnonce
  · refine main msgReject (by simp [registry]) _ (by simp [messages, msgReject]; rfl) ?_
    exact ⟨_, _, _, [0, 1, 2, 5], [6], _, ⟨_, _, _, _, _, _, ⟨[], by decide, .inl rfl, rfl, rfl⟩,
      ⟨.int 1, _, _, _, _, _, .inl ⟨1, rfl, by unfold inRange; decide, rfl, rfl⟩,
      ⟨_, _, _, _, _, _, ⟨[5, 6], by decide, .inl rfl, rfl, rfl⟩, ⟨rfl, rfl, rfl⟩, rfl, rfl, rfl⟩,
      rfl, rfl, rfl⟩, rfl, rfl, rfl⟩, by decide, by decide, by decide, rfl⟩
  · refine main msgFilteradd (by simp [registry]) _ (by simp [messages, msgFilteradd]; rfl) ?_
    exact ⟨_, _, _, [2, 5], [6], _, ⟨_, _, _, _, _, _, ⟨[5, 6], by decide, .inl rfl, rfl, rfl⟩,
      ⟨rfl, rfl, rfl⟩, rfl, rfl, rfl⟩, by decide, by decide, by decide, rfl⟩
  · refine main msgAlert (by simp [registry]) _ (by simp [messages, msgAlert]; rfl) ?_
    exact ⟨_, _, _, [0, 2, 5], [6], _, ⟨_, _, _, _, _, _, ⟨[], by decide, .inl rfl, rfl, rfl⟩,
      ⟨_, _, _, _, _, _, ⟨[5, 6], by decide, .inl rfl, rfl, rfl⟩, ⟨rfl, rfl, rfl⟩, rfl, rfl, rfl⟩,
      rfl, rfl, rfl⟩, by decide, by decide, by decide, rfl⟩

/-- Every message type is in one of the two lists. -/
theorem C65_all_commands : ∀ p ∈ messages, p.1 ∈ strictCommands ∨ p.1 ∈ looseCommands := by
  have : ∀ c ∈ commandNames, c ∈ strictCommands ∨ c ∈ looseCommands := by decide
  intro p hp
  exact this p.1 (by rw [← messages_commands]; exact List.mem_map_of_mem (f := (·.1)) hp)

/-! ### C66 -/

/-- C66, for 19 of the 21 message types: the array elements in a returned message, at all depths, are at
most the bytes received and 96.  Missing: `getblocks` and `getheaders`, where there is no bound
(`C66_elements_false`), and the elements made before a refusal (`C66_work_false`). -/
theorem C66_elements_partial (H : Hashes) (data magic : Bytes) (m : Msg)
    (h : parseMessage H data magic = .ok m)
    (hc : m.command ∉ ["getblocks", "getheaders"]) :
    elementsFields m.fields ≤ data.length + 96 := by
  unfold parseMessage at h
  split_ifs at h
  obtain ⟨l, -, h⟩ := bind_ok_iff.1 h
  dsimp only at h
  split_ifs at h
  split at h
  · cases h
  · rename_i t ht
    obtain ⟨⟨o, kw⟩, h1, h⟩ := bind_ok_iff.1 h
    injection h with h
    subst h
    by_cases hmb : t.command = "merkleblock"
    · have htm : t = msgMerkleblock := by
        have h2 := lookup_self (lookup_some ht).1
        rw [hmb] at h2
        have h3 := lookup_self (t := msgMerkleblock) (by simp [registry])
        exact Option.some_injective _ (h2.symm.trans h3)
      rw [htm] at h1
      have := merkleblock_bound h1
      simp only [List.length_take, List.length_drop] at this
      simp only
      omega
    obtain ⟨S, hS, hF⟩ := registry_lin (lookup_some ht).1 (by
      simp only [List.mem_cons, List.not_mem_nil, or_false, not_or] at hc ⊢
      exact ⟨hc.1, hc.2, hmb⟩)
    have := parseFields_lin hF h1
    simp only [List.length_take, List.length_drop] at this
    simp only
    omega

/-- An inventory of two entries. -/
example : ∃ m, parseMessage Hashes.toy (wireFrame Hashes.toy [1, 2, 3, 4] "inv"
    ([2] ++ List.replicate 72 1)) [1, 2, 3, 4] = .ok m ∧ elementsFields m.fields = 2 := ⟨_, rfl, rfl⟩

/-- C66 fails for the work of a refused `merkleblock`: its array of hashes is built with any number
`n < 2^32 - 1` of elements from at most five bytes. -/
theorem C66_work_false (n : Nat) (hn : n < 2 ^ 32 - 1) :
    ("hashes", ftArray (ftBytes 32) none none) ∈ msgMerkleblock.props ∧
    ∃ data, data.length ≤ 5 ∧ ∃ k v, (ftArray (ftBytes 32) none none).parse data = .ok (k, v) ∧
      elements v = n := by
  refine ⟨by simp [msgMerkleblock], varSize n, ?_, ?_⟩
  · unfold varSize
    split_ifs
    · simp
    · simp [beBytes_length]
    · simp [beBytes_length]
    · omega
  · have hs := varIntParse_size n (by unfold varLimit; omega) []
    rw [List.append_nil] at hs
    have hl := varSetLoop_bytes_empty 32 n (varSize n).length (le_refl _)
    refine ⟨(varSize n).length + n * 32, .tuple (List.replicate n (.bytes [])), ?_, ?_⟩
    · simp only [ftArray, parseVarSet, hs, ok_bind, Int.toNat_natCast, hl]
    · simp only [elements, elementsList_replicate]

/-- C66 fails for `getblocks` and `getheaders`: a frame of 33 bytes or less makes any number `n < 2^32 - 1`
of elements. -/
theorem C66_elements_false (H : Hashes) (magic : Bytes) (hg : magic.length = 4) (n : Nat)
    (hn : n < 2 ^ 32 - 1) (command : String) (hc : command ∈ ["getblocks", "getheaders"]) :
    ∃ data m, data.length ≤ 33 ∧ parseMessage H data magic = .ok m ∧ elementsFields m.fields = n := by
  have main : ∀ t ∈ registry, t.props = getBlocksProps →
      ∃ data m, data.length ≤ 33 ∧ parseMessage H data magic = .ok m ∧ elementsFields m.fields = n := by
    intro t ht hp
    have hv : (varSize n).length ≤ 5 := by
      unfold varSize
      split_ifs
      · simp
      · simp [beBytes_length]
      · simp [beBytes_length]
      · omega
    have hq : ([0, 0, 0, 0] ++ varSize n : Bytes).length ≤ 9 := by
      rw [List.length_append]
      have : ([0, 0, 0, 0] : Bytes).length = 4 := rfl
      omega
    refine ⟨wireFrame H magic t.command ([0, 0, 0, 0] ++ varSize n),
      ⟨t.command, [("version", .int 0), ("block_locator_hashes", .tuple (List.replicate n (.bytes []))),
        ("hash_stop", .bytes [])]⟩, ?_, ?_, ?_⟩
    · rw [wireFrame_length H (command_mem ht) _ _ hg]
      omega
    · have := parseMessage_frame H ht ([0, 0, 0, 0] ++ varSize n) magic [] hg (by omega)
      rw [List.append_nil] at this
      rw [this, hp]
      have h1 : (ftNumber .I).parse (([0, 0, 0, 0] ++ varSize n : Bytes).drop 0) = .ok (4, .int 0) := by
        rw [List.drop_zero]
        have e : numBytes .I false 0 = [0, 0, 0, 0] := by decide
        have := (ftNumber_refines .I false false).parse (.int 0) (numBytes .I false 0) (.int 0)
          (.inl ⟨0, rfl, by unfold inRange; decide, rfl, rfl⟩) (varSize n)
        rw [e] at this
        exact this
      have h2 : (ftArray (ftBytes 32) (some 1) none).parse (varSize n) =
          .ok ((varSize n).length + n * 32, .tuple (List.replicate n (.bytes []))) := by
        have hs := varIntParse_size n (by unfold varLimit; omega) []
        rw [List.append_nil] at hs
        simp only [ftArray, parseVarSet, hs, ok_bind, Int.toNat_natCast]
        rw [varSetLoop_bytes_empty 32 n _ (le_refl _), ok_bind]
      have h3 : (([0, 0, 0, 0] ++ varSize n : Bytes).drop (0 + 4)) = varSize n := List.drop_left' rfl
      have h4 : (([0, 0, 0, 0] ++ varSize n : Bytes).drop (0 + 4 + ((varSize n).length + n * 32))) = [] := by
        apply List.drop_of_length_le
        rw [List.length_append]
        have : ([0, 0, 0, 0] : Bytes).length = 4 := rfl
        omega
      simp only [getBlocksProps, parseFields, h1, h3, h2, h4]
      rfl
    · simp only [elementsFields, elements, elementsList_replicate]
      omega
  simp only [List.mem_cons, List.not_mem_nil, or_false] at hc
  rcases hc with rfl | rfl
  · exact main msgGetblocks (by simp [registry]) rfl
  · exact main msgGetheaders (by simp [registry]) rfl

end NBC.Props
