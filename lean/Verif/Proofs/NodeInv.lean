import Verif.Proofs.NodeSteps
import Verif.Proofs.Frame
import Verif.Spec.Frames

/-!
# What the primitive changes preserve; the read loop
-/

namespace NBC.P2P
open NBC NBC.Proto Relation Spec

variable {H : Hashes} {Q : Clock → Nat → Int → Prop}

/-- A message as `send_message` writes it. -/
def Written (H : Hashes) (magic f : Bytes) : Prop := ∃ (t : MsgType) (fields : _), t.binary H fields magic = .ok f

/-- How a connection may change, apart from receiving. -/
structure ConnStep (H : Hashes) (magic : Bytes) (k k' : Conn) : Prop where
  address : k'.address = k.address
  incoming : k'.incoming = k.incoming
  recvBuf : k'.recvBuf = k.recvBuf
  rxBytes : k'.rxBytes = k.rxBytes
  lastRx : k'.lastRx = k.lastRx
  isOpen : k'.isOpen = true → k.isOpen = true
  out : k.out <+: k'.out
  queue : ∃ fs : List Bytes, (∀ f ∈ fs, Written H magic f) ∧ k'.out ++ k'.sendBuf = k.out ++ k.sendBuf ++ fs.flatten
  tx : k.txBytes = k.out.length → k'.txBytes = k'.out.length
  score : 0 ≤ k.banscore → 0 ≤ k'.banscore
  limit : (k.isOpen = true → k.banscore ≤ 5) → k'.isOpen = true → k'.banscore ≤ 5

theorem ConnStep.refl (magic : Bytes) (k : Conn) : ConnStep H magic k k :=
  ⟨rfl, rfl, rfl, rfl, rfl, id, List.prefix_refl _, ⟨[], by simp, by simp⟩, id, id, id⟩

theorem ConnStep.trans {magic : Bytes} {a b c : Conn} (h : ConnStep H magic a b) (h' : ConnStep H magic b c) :
    ConnStep H magic a c := by
  obtain ⟨fs, h1, h2⟩ := h.queue
  obtain ⟨gs, h1', h2'⟩ := h'.queue
  refine ⟨h'.address.trans h.address, h'.incoming.trans h.incoming, h'.recvBuf.trans h.recvBuf,
    h'.rxBytes.trans h.rxBytes, h'.lastRx.trans h.lastRx, fun x => h.isOpen (h'.isOpen x), h.out.trans h'.out,
    ⟨fs ++ gs, ?_, ?_⟩, fun x => h'.tx (h.tx x), fun x => h'.score (h.score x),
    fun x => h'.limit (h.limit x)⟩
  · intro f hf
    rcases List.mem_append.1 hf with hf | hf
    · exact h1 f hf
    · exact h1' f hf
  · rw [h2', h2, List.flatten_append, List.append_assoc _ fs.flatten]

/-- A new connection. -/
def fresh (a : Addr) (inc : Bool) : Conn := { address := a, incoming := inc }

/-- How the connections of a node may change, apart from receiving. -/
structure NodeStep (H : Hashes) (n m : Node) : Prop where
  magic : m.magic = n.magic
  rx : m.rx = n.rx
  old : ∀ (i : Nat) k, n.conns[i]? = some k → ∃ k', m.conns[i]? = some k' ∧ ConnStep H n.magic k k'
  new : ∀ (i : Nat) k', n.conns[i]? = none → m.conns[i]? = some k' → ∃ a inc, ConnStep H n.magic (fresh a inc) k'

theorem NodeStep.refl (n : Node) : NodeStep H n n :=
  ⟨rfl, rfl, fun _ k hk => ⟨k, hk, .refl _ _⟩, fun i k' h h' => by rw [h] at h'; cases h'⟩

theorem NodeStep.trans {a b c : Node} (h : NodeStep H a b) (h' : NodeStep H b c) : NodeStep H a c := by
  refine ⟨h'.magic.trans h.magic, h'.rx.trans h.rx, fun i k hk => ?_, fun i k' hi hk => ?_⟩
  · obtain ⟨k1, e1, s1⟩ := h.old i k hk
    obtain ⟨k2, e2, s2⟩ := h'.old i k1 e1
    rw [h.magic] at s2
    exact ⟨k2, e2, s1.trans s2⟩
  · cases hb : b.conns[i]? with
    | none =>
      obtain ⟨a', inc, s⟩ := h'.new i k' hb hk
      rw [h.magic] at s
      exact ⟨a', inc, s⟩
    | some k1 =>
      obtain ⟨a', inc, s⟩ := h.new i k1 hi hb
      obtain ⟨k2, e2, s2⟩ := h'.old i k1 hb
      rw [hk] at e2
      cases e2
      rw [h.magic] at s2
      exact ⟨a', inc, s.trans s2⟩

theorem NodeStep.upd (n : Node) (c : Nat) (f : Conn → Conn)
    (h : ∀ k, n.conns[c]? = some k → ConnStep H n.magic k (f k)) : NodeStep H n (n.upd c f) := by
  refine ⟨rfl, rfl, fun i k hk => ?_, fun i k' hi hk => ?_⟩
  · refine ⟨_, by rw [conns_upd, hk]; rfl, ?_⟩
    split
    · rename_i e; subst e; exact h k hk
    · exact .refl _ _
  · rw [conns_upd, hi] at hk
    cases hk

theorem NodeStep.same {n m : Node} (h1 : m.magic = n.magic) (h2 : m.rx = n.rx) (h3 : m.conns = n.conns) :
    NodeStep H n m :=
  ⟨h1, h2, fun i k hk => ⟨k, by rw [h3, hk], .refl _ _⟩, fun i k' hi hk => by rw [h3, hi] at hk; cases hk⟩

theorem take_flatten (k : Conn) (j : Nat) : (k.out ++ k.sendBuf.take j) ++ k.sendBuf.drop j = k.out ++ k.sendBuf := by
  rw [List.append_assoc, List.take_append_drop]

theorem prim_node {n m : Node} (h : Prim H Q n m) : NodeStep H n m := by
  cases h with
  | queue c t fields b h =>
    refine .upd n c _ (fun k _ => ⟨rfl, rfl, rfl, rfl, rfl, id, List.prefix_refl _, ⟨[b], ?_, ?_⟩, id, id, id⟩)
    · intro f hf
      rw [List.mem_singleton.1 hf]
      exact ⟨t, fields, h⟩
    · simp
  | close c =>
    exact .upd n c _ (fun k _ => ⟨rfl, rfl, rfl, rfl, rfl, fun h => (Bool.noConfusion h), List.prefix_refl _,
      ⟨[], by simp, by simp⟩, id, id, fun _ h => (Bool.noConfusion h)⟩)
  | sent c k j now hk hj h =>
    have h1 : NodeStep H n (n.upd c (fun k => { k with
      out := k.out ++ k.sendBuf.take j
      txBytes := k.txBytes + j
      lastTx := now
      sendBuf := k.sendBuf.drop j })) := by
      refine .upd n c _ (fun k' hk' => ?_)
      rw [hk] at hk'
      cases hk'
      refine ⟨rfl, rfl, rfl, rfl, rfl, id, List.prefix_append _ _, ⟨[], by simp, ?_⟩, fun hx => ?_, id, id⟩
      · simp only [List.flatten_nil, List.append_nil]
        exact take_flatten k j
      · simp only [List.length_append, List.length_take]
        omega
    exact h1.trans (.same rfl rfl rfl)
  | info c f hf =>
    refine .upd n c _ (fun k _ => ?_)
    have h := hf k
    refine ⟨h.address, h.incoming, h.recvBuf, h.rxBytes, h.lastRx, fun hx => by rw [← h.isOpen]; exact hx,
      h.out ▸ List.prefix_refl _, ⟨[], by simp, by rw [h.out, h.sendBuf]; simp⟩, fun hx => ?_,
      fun hx => by rw [h.banscore]; exact hx,
      fun hx ho => by rw [h.banscore]; exact hx (h.isOpen ▸ ho)⟩
    rw [h.txBytes, h.out]
    exact hx
  | ping c t h =>
    exact .upd n c _ (fun k _ => ⟨rfl, rfl, rfl, rfl, rfl, id, List.prefix_refl _,
      ⟨[], by simp, by simp⟩, id, id, id⟩)
  | tx c t h =>
    exact .upd n c _ (fun k _ => ⟨rfl, rfl, rfl, rfl, rfl, id, List.prefix_refl _,
      ⟨[], by simp, by simp⟩, id, id, id⟩)
  | new a inc h =>
    refine ⟨rfl, rfl, fun i k hk => ⟨k, ?_, .refl _ _⟩, fun i k' hi hk => ⟨a, inc, ?_⟩⟩
    · rw [List.getElem?_append_left (List.getElem?_eq_some_iff.1 hk).1, hk]
    · rw [List.getElem?_append_right (List.getElem?_eq_none_iff.1 hi)] at hk
      rw [List.getElem?_singleton] at hk
      split at hk
      · cases hk; exact .refl _ _
      · cases hk
  | add c h =>
    exact .upd n c _ (fun k hk => ⟨rfl, rfl, rfl, rfl, rfl, id, List.prefix_refl _, ⟨[], by simp, by
      simp [Conn.addBanscore]⟩, id, fun hx => by simp only [Conn.addBanscore]; omega,
      fun _ ho => by have := h k hk ho; simp only [Conn.addBanscore]; omega⟩)
  | reduce c =>
    exact .upd n c _ (fun k _ => ⟨rfl, rfl, rfl, rfl, rfl, id, List.prefix_refl _, ⟨[], by simp, by
      simp [Conn.reduceBanscore]⟩, id, fun hx => by simp only [Conn.reduceBanscore]; split <;> omega,
      fun hx ho => by have := hx ho; simp only [Conn.reduceBanscore]; split <;> omega⟩)
  | addrSet a v h hv => exact .same rfl rfl rfl
  | addrDel a => exact .same rfl rfl rfl
  | guess ip => exact .same rfl rfl rfl
  | ban c ip now _ => exact .same rfl rfl rfl
  | unban key => exact .same rfl rfl rfl
  | ext ip => exact .same rfl rfl rfl
  | beat t => exact .same rfl rfl rfl
  | deaf => exact .same rfl rfl rfl

theorem steps_node {n m : Node} (h : Steps H Q n m) : NodeStep H n m := by
  induction h with
  | refl => exact .refl _
  | tail _ h ih => exact ih.trans (prim_node h)

/-- The handlers leave the receive buffer alone, which `readLoop` relies on. -/
theorem handleFrame_recvBuf (c : Nat) (now : Int) (n : Node) (frame : Bytes) (k : Conn) (hk : n.conns[c]? = some k) :
    ∃ k', (n.handleFrame H c now frame).conns[c]? = some k' ∧ k'.recvBuf = k.recvBuf := by
  obtain ⟨k', h1, h2⟩ := (steps_node (steps_handleFrame (H := H) (Q := fun _ _ _ => True) c now n frame trivial)).old c k hk
  exact ⟨k', h1, h2.recvBuf⟩

/-! ### The read loop -/

theorem firstMsgLen_eq (b : Bytes) :
    firstMsgLen b = .ok (if b.length < 20 then none else some (frameLength b)) := by
  unfold firstMsgLen
  split
  · rfl
  · rename_i h
    rw [unpack_I (by rw [List.length_take, List.length_drop]; omega), ok_bind]
    unfold frameLength
    rw [Int.toNat_natCast, Nat.add_comm]

/-- The frames, each handled with the buffer set to what follows it. -/
def handleAll {σ : Type} (setBuf onFrame : σ → Bytes → σ) : σ → List Bytes → Bytes → σ
  | s, [], _ => s
  | s, f :: fs, rest => handleAll setBuf onFrame (onFrame (setBuf s (fs.flatten ++ rest)) f) fs rest

theorem readLoop_spec {σ : Type} (setBuf onFrame : σ → Bytes → σ) (s : σ) (buf : Bytes) :
    ∃ fs rest, Splits buf fs rest ∧ readLoop setBuf onFrame s buf = (handleAll setBuf onFrame s fs rest, none) := by
  induction hl : buf.length using Nat.strong_induction_on generalizing s buf with
  | _ len ih =>
    subst hl
    rw [readLoop, firstMsgLen_eq]
    by_cases h20 : buf.length < 20
    · rw [if_pos h20]
      exact ⟨[], buf, ⟨by simp, by simp, Or.inl h20⟩, rfl⟩
    · rw [if_neg h20]
      simp only
      by_cases hlen : frameLength buf > buf.length
      · rw [if_pos hlen]
        exact ⟨[], buf, ⟨by simp, by simp, Or.inr hlen⟩, rfl⟩
      · have h24 : 24 ≤ frameLength buf := by unfold frameLength; omega
        rw [if_neg hlen, if_neg (by omega)]
        obtain ⟨fs, rest, h1, h2⟩ := ih (buf.drop (frameLength buf)).length (by rw [List.length_drop]; omega)
          (onFrame (setBuf s (buf.drop (frameLength buf))) (buf.take (frameLength buf))) _ rfl
        have hb : buf.take (frameLength buf) ++ buf.drop (frameLength buf) = buf := List.take_append_drop ..
        have hl : (buf.take (frameLength buf)).length = frameLength buf := by rw [List.length_take]; omega
        refine ⟨buf.take (frameLength buf) :: fs, rest, ⟨?_, ?_, h1.2.2⟩, ?_⟩
        · rw [List.flatten_cons, List.append_assoc, ← h1.1, hb]
        · intro f hf
          rcases List.mem_cons.1 hf with rfl | hf
          · refine ⟨by rw [hl]; omega, ?_⟩
            rw [hl]
            conv_lhs => rw [← hb]
            rw [frameLength_append (by rw [hl]; omega)]
          · exact h1.2.1 f hf
        · rw [h2, handleAll, ← h1.1]

end NBC.P2P
