import Verif.Proofs.WireCount

/-!
# Message frames
-/

namespace NBC.Proto
open NBC.Spec NBC.Spec.Wire

/-- The bytes of an ASCII name. -/
def nameBytes (s : String) : Bytes := s.toList.map (fun c => UInt8.ofNat c.toNat)

/-- The registered commands. -/
def commandNames : List String :=
  ["version", "verack", "addr", "inv", "getdata", "notfound", "getblocks", "getheaders", "tx", "block",
    "headers", "getaddr", "mempool", "ping", "pong", "reject", "filterload", "filteradd", "filterclear",
    "merkleblock", "alert"]

theorem registry_commands : registry.map (·.command) = commandNames := rfl
theorem messages_commands : messages.map (·.1) = commandNames := rfl

theorem command_mem {t : MsgType} (h : t ∈ registry) : t.command ∈ commandNames := by
  rw [← registry_commands]
  exact List.mem_map_of_mem h

theorem names_ok : ∀ s ∈ commandNames, s.toList.all (fun c => decide (0 < c.toNat ∧ c.toNat < 256)) = true ∧
    s.toList.length ≤ 12 ∧ s.toList ≠ [] := by decide +kernel

theorem name_chars {s : String} (h : s ∈ commandNames) : ∀ c ∈ s.toList, 0 < c.toNat ∧ c.toNat < 256 := by
  intro c hc
  have := List.all_eq_true.1 (names_ok s h).1 c hc
  simpa using this

theorem ofNat_toNat_char {c : Char} (h : c.toNat < 256) : (UInt8.ofNat c.toNat).toNat = c.toNat := by
  rw [UInt8.toNat_ofNat']
  omega

theorem latin1Decode_name {s : String} (h : s ∈ commandNames) : latin1Decode (nameBytes s) = s.toList := by
  unfold latin1Decode nameBytes
  rw [List.map_map]
  have : ∀ c ∈ s.toList, ((fun x : UInt8 => Char.ofNat x.toNat) ∘ fun c : Char => UInt8.ofNat c.toNat) c = id c := by
    intro c hc
    simp only [Function.comp, ofNat_toNat_char (name_chars h c hc).2, id]
    exact Char.ofNat_toNat c
  rw [List.map_congr_left this, List.map_id]

theorem latin1Encode_name {s : String} (h : s ∈ commandNames) : latin1Encode s.toList = .ok (nameBytes s) := by
  unfold latin1Encode
  rw [if_pos]
  · rfl
  · rw [List.all_eq_true]
    intro c hc
    simpa using (name_chars h c hc).2

theorem nameBytes_length (s : String) : (nameBytes s).length = s.toList.length := by
  simp [nameBytes]

theorem nameBytes_ne_zero {s : String} (h : s ∈ commandNames) : ∀ x ∈ nameBytes s, x ≠ 0 := by
  intro x hx h0
  obtain ⟨c, hc, rfl⟩ := List.mem_map.1 hx
  have h1 := name_chars h c hc
  have := congrArg UInt8.toNat h0
  rw [ofNat_toNat_char h1.2] at this
  have h2 : (0 : UInt8).toNat = 0 := rfl
  omega

theorem dropWhile_zeros (k : Nat) (l : Bytes) (h : ∀ x ∈ l, x ≠ 0) :
    (List.replicate k (0 : UInt8) ++ l).dropWhile (· = 0) = l := by
  induction k with
  | zero =>
    cases l with
    | nil => rfl
    | cons x t =>
      rw [List.replicate_zero, List.nil_append, List.dropWhile_cons_of_neg]
      simpa using h x (by simp)
  | succ k ih =>
    rw [List.replicate_succ, List.cons_append, List.dropWhile_cons_of_pos (by simp), ih]

theorem stripZeros_pad (i j : Nat) (l : Bytes) (h : ∀ x ∈ l, x ≠ 0) :
    stripZeros (List.replicate i 0 ++ l ++ List.replicate j 0) = l := by
  unfold stripZeros
  cases l with
  | nil =>
    have e : (List.replicate i (0 : UInt8) ++ [] ++ List.replicate j 0).dropWhile (· = 0) = [] := by
      rw [List.append_nil, ← List.replicate_add, ← List.append_nil (List.replicate (i + j) (0 : UInt8))]
      exact dropWhile_zeros _ [] (by simp)
    rw [e]
    rfl
  | cons x t =>
    have e : (List.replicate i (0 : UInt8) ++ (x :: t) ++ List.replicate j 0).dropWhile (· = 0) =
        x :: t ++ List.replicate j 0 := by
      rw [List.append_assoc]
      induction i with
      | zero =>
        rw [List.replicate_zero, List.nil_append, List.cons_append, List.dropWhile_cons_of_neg]
        simpa using h x (by simp)
      | succ i ih =>
        rw [List.replicate_succ, List.cons_append, List.dropWhile_cons_of_pos (by simp), ih]
    rw [e, List.reverse_append, List.reverse_replicate, dropWhile_zeros _ _ (by
      intro y hy; exact h y (List.mem_reverse.1 hy)), List.reverse_reverse]

theorem takeWhile_zeros (l : Bytes) : ∃ k, l.takeWhile (· = 0) = List.replicate k 0 := by
  induction l with
  | nil => exact ⟨0, rfl⟩
  | cons x t ih =>
    by_cases hx : x = 0
    · obtain ⟨k, hk⟩ := ih
      subst hx
      exact ⟨k + 1, by rw [List.takeWhile_cons_of_pos (by simp), hk]; rfl⟩
    · exact ⟨0, by rw [List.takeWhile_cons_of_neg (by simpa using hx)]; rfl⟩

theorem stripZeros_spec (b : Bytes) : ∃ i j, b = List.replicate i 0 ++ stripZeros b ++ List.replicate j 0 := by
  obtain ⟨i, hi⟩ := takeWhile_zeros b
  obtain ⟨j, hj⟩ := takeWhile_zeros (b.dropWhile (· = 0)).reverse
  refine ⟨i, j, ?_⟩
  have h1 := List.takeWhile_append_dropWhile (p := fun x : UInt8 => decide (x = 0)) (l := b)
  have h2 := List.takeWhile_append_dropWhile (p := fun x : UInt8 => decide (x = 0))
    (l := (b.dropWhile (· = 0)).reverse)
  have h3 : b.dropWhile (· = 0) = stripZeros b ++ List.replicate j 0 := by
    have := congrArg List.reverse h2
    rw [List.reverse_append, List.reverse_reverse, hj, List.reverse_replicate] at this
    exact this.symm
  rw [List.append_assoc, ← h3, ← hi, h1]

theorem lookup_self {t : MsgType} (h : t ∈ registry) : lookup t.command.toList = some t := by
  simp only [registry, List.mem_cons, List.not_mem_nil, or_false] at h
  rcases h with rfl | rfl | rfl | rfl | rfl | rfl | rfl | rfl | rfl | rfl | rfl | rfl | rfl | rfl |
    rfl | rfl | rfl | rfl | rfl | rfl | rfl <;> rfl

theorem lookup_some {c : List Char} {t : MsgType} (h : lookup c = some t) :
    t ∈ registry ∧ t.command.toList = c := by
  unfold lookup at h
  exact ⟨List.mem_of_find?_eq_some h, by simpa using List.find?_some h⟩

/-- The parts of a frame. -/
theorem parts {A B C D P : Bytes} (hA : A.length = 4) (hB : B.length = 12) (hC : C.length = 4)
    (hD : D.length = 4) :
    (A ++ B ++ C ++ D ++ P).take 4 = A ∧ ((A ++ B ++ C ++ D ++ P).drop 4).take 12 = B ∧
    ((A ++ B ++ C ++ D ++ P).drop 16).take 4 = C ∧ ((A ++ B ++ C ++ D ++ P).drop 20).take 4 = D ∧
    (A ++ B ++ C ++ D ++ P).drop 24 = P := by
  refine ⟨?_, ?_, ?_, ?_, ?_⟩
  · rw [List.append_assoc, List.append_assoc, List.append_assoc, List.take_left' hA]
  · rw [List.append_assoc, List.append_assoc, List.append_assoc, List.drop_left' hA, List.take_left' hB]
  · rw [List.append_assoc, List.append_assoc, List.drop_left' (by rw [List.length_append]; omega),
      List.take_left' hC]
  · rw [List.append_assoc, List.drop_left' (by simp only [List.length_append]; omega),
      List.take_left' hD]
  · rw [List.drop_left' (by simp only [List.length_append]; omega)]

theorem unpack_I {d : Bytes} (h : d.length = 4) : unpack .I false d = .ok (bytesVal d.reverse : Int) := by
  have hlt : bytesVal d.reverse < 2 ^ 32 := by
    have := bytesVal_lt d.reverse
    rw [List.length_reverse, h] at this
    exact lt_of_lt_of_le this (by decide)
  have e : numBytes .I false (bytesVal d.reverse : Int) = d := by
    rw [numBytes_nat .I _ (by simpa [bits] using hlt)]
    have : bits .I / 8 = d.reverse.length := by rw [List.length_reverse, h]; rfl
    rw [this, beBytes_bytesVal, List.reverse_reverse]
  have hr : inRange .I (bytesVal d.reverse : Int) := by
    unfold inRange lo hi
    simp only [twos, bits, Bool.false_eq_true, if_false]
    omega
  have := unpack_numBytes (f := .I) (big := false) hr
  rwa [e] at this

theorem sha_take (H : Hashes) (p : Bytes) : ((H.sha256 (H.sha256 p)).take 4).length = 4 := by
  rw [List.length_take, H.sha256_length]
  rfl

theorem pad_length {s : String} (h : s ∈ commandNames) :
    (nameBytes s ++ List.replicate (12 - (nameBytes s).length) 0).length = 12 := by
  rw [List.length_append, List.length_replicate, nameBytes_length]
  have := (names_ok s h).2.1
  omega

theorem frame_eq (H : Hashes) {s : String} (hs : s ∈ commandNames) (payload magic : Bytes)
    (hp : payload.length < 2 ^ 32) : frame H s payload magic = .ok (wireFrame H magic s payload) := by
  unfold frame
  rw [latin1Encode_name hs, ok_bind, pack_ok (v := (payload.length : Int)) (by
    unfold inRange lo hi
    simp only [twos, bits, Bool.false_eq_true, if_false]
    omega), ok_bind, numBytes_nat .I _ (by simpa [bits] using hp)]
  rfl

theorem wireFrame_parts (H : Hashes) {s : String} (hs : s ∈ commandNames) (payload magic : Bytes)
    (hm : magic.length = 4) (rest : Bytes) :
    let data := wireFrame H magic s payload ++ rest
    data.take 4 = magic ∧
    (data.drop 4).take 12 = nameBytes s ++ List.replicate (12 - (nameBytes s).length) 0 ∧
    (data.drop 16).take 4 = (beBytes 4 payload.length).reverse ∧
    (data.drop 20).take 4 = (H.sha256 (H.sha256 payload)).take 4 ∧
    data.drop 24 = payload ++ rest := by
  have := parts (A := magic) (B := nameBytes s ++ List.replicate (12 - (nameBytes s).length) 0)
    (C := (beBytes 4 payload.length).reverse) (D := (H.sha256 (H.sha256 payload)).take 4)
    (P := payload ++ rest) hm (pad_length hs) (by rw [List.length_reverse, beBytes_length])
    (sha_take H payload)
  rw [← List.append_assoc] at this
  exact this

theorem wireFrame_length (H : Hashes) {s : String} (hs : s ∈ commandNames) (payload magic : Bytes)
    (hm : magic.length = 4) : (wireFrame H magic s payload).length = 24 + payload.length := by
  have h1 := pad_length hs
  have h2 := sha_take H payload
  unfold wireFrame
  rw [List.length_append, List.length_append, List.length_append, List.length_append, h2,
    List.length_reverse, beBytes_length, hm]
  have : (s.toList.map (fun c => UInt8.ofNat c.toNat)) = nameBytes s := rfl
  simp only [this, h1]

theorem bytesVal_le4 (n : Nat) (h : n < 2 ^ 32) :
    bytesVal ((beBytes 4 n).reverse.reverse) = n := by
  rw [List.reverse_reverse]
  exact bytesVal_beBytes_of_lt (lt_of_lt_of_le h (by decide))

/-- What `Message.parse` does with a well-formed frame (and whatever follows it). -/
theorem parseMessage_frame (H : Hashes) {t : MsgType} (ht : t ∈ registry) (payload magic rest : Bytes)
    (hm : magic.length = 4) (hp : payload.length < 2 ^ 32) :
    parseMessage H (wireFrame H magic t.command payload ++ rest) magic =
      (do
        let (_, kw) ← parseFields payload t.props 0
        .ok { command := t.command, fields := kw }) := by
  obtain ⟨h1, h2, h3, h4, h5⟩ := wireFrame_parts H (command_mem ht) payload magic hm rest
  unfold parseMessage
  rw [if_neg (by rw [h1]; simp), h3, unpack_I (by rw [List.length_reverse, beBytes_length]), ok_bind,
    bytesVal_le4 _ hp]
  simp only [Int.toNat_natCast]
  rw [h5, List.take_left' rfl, h4, if_neg (by simp [checksum]), h2]
  have := stripZeros_pad 0 (12 - (nameBytes t.command).length) (nameBytes t.command)
    (nameBytes_ne_zero (command_mem ht))
  rw [List.replicate_zero, List.nil_append] at this
  rw [this, latin1Decode_name (command_mem ht), lookup_self ht]

theorem firstMsgLen_frame (H : Hashes) {s : String} (hs : s ∈ commandNames) (payload magic rest : Bytes)
    (hm : magic.length = 4) (hp : payload.length < 2 ^ 32) :
    firstMsgLen (wireFrame H magic s payload ++ rest) =
      .ok (some (wireFrame H magic s payload).length) := by
  obtain ⟨-, -, h3, -, -⟩ := wireFrame_parts H hs payload magic hm rest
  unfold firstMsgLen
  have hl := wireFrame_length H hs payload magic hm
  rw [if_neg (by rw [List.length_append, hl]; omega), h3,
    unpack_I (by rw [List.length_reverse, beBytes_length]), ok_bind, bytesVal_le4 _ hp, hl]
  simp [Nat.add_comm]

theorem latin1Decode_inj {a b : Bytes} (h : latin1Decode a = latin1Decode b) : a = b := by
  have := congrArg latin1Encode h
  rw [latin1Decode, latin1Decode, latin1Encode_decode, latin1Encode_decode] at this
  injection this

end NBC.Proto
