import Verif.Proofs.NodeInv
import Verif.Model.NodeTrace

/-!
# Reception, and invariants of all histories
-/

namespace NBC.P2P
open NBC NBC.Proto Relation Spec

variable {H : Hashes}

/-! ### All primitive changes -/

/-- The primitive changes with those of `recvBuf`. -/
inductive Prim2 (H : Hashes) (Q : Clock → Nat → Int → Prop) : Node → Node → Prop
  | prim (n m : Node) (h : Prim H Q n m) : Prim2 H Q n m
  | recv (n : Node) (c : Nat) (k : Conn) (chunk : Bytes) (now : Int) (hk : n.conns[c]? = some k) (h : Q .rx c now) :
      Prim2 H Q n (n.received c chunk now)
  | setBuf (n : Node) (c : Nat) (b : Bytes) : Prim2 H Q n (Node.setRecvBuf c n b)

abbrev Steps2 (H : Hashes) (Q : Clock → Nat → Int → Prop) : Node → Node → Prop := ReflTransGen (Prim2 H Q)

variable {Q : Clock → Nat → Int → Prop}

theorem Steps.two {n m : Node} (h : Steps H Q n m) : Steps2 H Q n m := by
  induction h with
  | refl => exact .refl
  | tail _ h ih => exact ih.tail (.prim _ _ h)

theorem steps2_handleAll (c : Nat) (now : Int) (fs : List Bytes) (rest : Bytes) (n : Node) (hi : Q .info c 0) :
    Steps2 H Q n (handleAll (Node.setRecvBuf c) (Node.handleFrame H c now) n fs rest) := by
  induction fs generalizing n with
  | nil => exact .refl
  | cons f fs ih =>
    rw [handleAll]
    exact ((ReflTransGen.single (Prim2.setBuf n c _)).trans (steps_handleFrame c now _ f hi).two).trans (ih _)

theorem steps2_handleRead (n : Node) (c : Nat) (r : RecvRes) (now : Int) (hq : Q .rx c now) (hi : Q .info c 0) :
    Steps2 H Q n (n.handleRead H c r now).1 := by
  unfold Node.handleRead
  cases r with
  | raised => exact (steps_handleClose ..).two
  | data chunk =>
    simp only
    split
    · exact Steps.two ((steps_handleClose ..).trans (steps_handleClose ..))
    · split
      · exact .refl
      · rename_i k hk
        obtain ⟨fs, rest, -, h2⟩ := readLoop_spec (Node.setRecvBuf c) (Node.handleFrame H c now) (n.received c chunk now)
          (k.recvBuf ++ chunk)
        rw [h2]
        exact (ReflTransGen.single (Prim2.recv n c k chunk now hk hq)).trans (steps2_handleAll _ _ _ _ _ hi)

theorem steps2_step (n : Node) (e : Event) (hq : ∀ w c t, e.stores w c t → Q w c t) : Steps2 H Q n (n.step H e) := by
  by_cases h : ∀ c b now, e = .read c (.data b) now → b = []
  · exact Steps.two (steps_step n e h hq)
  · simp only [not_forall] at h
    obtain ⟨c, b, now, rfl, -⟩ := h
    unfold Node.step
    simp only
    split
    · exact steps2_handleRead _ _ _ _ (hq .rx c now ⟨rfl, rfl⟩) (hq .info c 0 rfl)
    · exact .refl

theorem run_cons (n : Node) (e : Event) (es : List Event) : n.run H (e :: es) = (n.step H e).run H es := rfl

theorem run_append (n : Node) (es es' : List Event) : n.run H (es ++ es') = (n.run H es).run H es' := by
  unfold Node.run
  rw [List.foldl_append]

theorem steps2_run (n : Node) (es : List Event) (hq : ∀ e ∈ es, ∀ w c t, e.stores w c t → Q w c t) :
    Steps2 H Q n (n.run H es) := by
  induction es generalizing n with
  | nil => exact .refl
  | cons e es ih =>
    exact (steps2_step n e (hq e (List.mem_cons_self ..))).trans (ih _ (fun e he => hq e (List.mem_cons_of_mem _ he)))

/-- What every primitive change preserves, every history does (with a restriction on the clock). -/
theorem run_invariant_clock (P : Node → Prop) (hP : ∀ n m, Prim2 H Q n m → P n → P m) (n : Node) (es : List Event)
    (hq : ∀ e ∈ es, ∀ w c t, e.stores w c t → Q w c t) (h : P n) : P (n.run H es) := by
  have := steps2_run (H := H) (Q := Q) n es hq
  generalize n.run H es = m at *
  induction this with
  | refl => exact h
  | tail _ hp ih => exact hP _ _ hp ih

/-- What every primitive change preserves, every history does. -/
theorem run_invariant (P : Node → Prop) (hP : ∀ n m, Prim2 H (fun _ _ _ => True) n m → P n → P m) (n : Node)
    (es : List Event) (h : P n) : P (n.run H es) :=
  run_invariant_clock P hP n es (fun _ _ _ _ _ _ => trivial) h

/-! ### The effect of a reception on the connections -/

theorem setRecvBuf_conns (c i : Nat) (n : Node) (b : Bytes) :
    (Node.setRecvBuf c n b).conns[i]? = (n.conns[i]?).map (fun k => if c = i then { k with recvBuf := b } else k) :=
  conns_upd n c i _

theorem ConnStep.setBuf {magic : Bytes} {k k' : Conn} (h : ConnStep H magic k k') (b : Bytes) :
    ConnStep H magic { k with recvBuf := b } { k' with recvBuf := b } :=
  ⟨h.address, h.incoming, rfl, h.rxBytes, h.lastRx, h.isOpen, h.out, h.queue, h.tx, h.score, h.limit⟩

theorem NodeStep.setBuf {n m : Node} (h : NodeStep H n m) (c : Nat) (b : Bytes)
    (hc : n.conns[c]? ≠ none) : NodeStep H (Node.setRecvBuf c n b) (Node.setRecvBuf c m b) := by
  refine ⟨h.magic, h.rx, fun i k hk => ?_, fun i k' hi hk => ?_⟩
  · rw [setRecvBuf_conns] at hk
    obtain ⟨k0, e0, e1⟩ := Option.map_eq_some_iff.1 hk
    obtain ⟨k1, e2, s⟩ := h.old i k0 e0
    refine ⟨_, by rw [setRecvBuf_conns, e2]; rfl, ?_⟩
    by_cases e : c = i
    · simp only [if_pos e] at e1 ⊢
      rw [← e1]
      exact s.setBuf b
    · simp only [if_neg e] at e1 ⊢
      rw [← e1]
      exact s
  · rw [setRecvBuf_conns] at hi hk
    have hi' := Option.map_eq_none_iff.1 hi
    obtain ⟨k0, e0, e1⟩ := Option.map_eq_some_iff.1 hk
    have : c ≠ i := fun e => hc (e ▸ hi')
    rw [if_neg this] at e1
    rw [← e1]
    exact h.new i k0 hi' e0

theorem setRecvBuf_twice (c : Nat) (n : Node) (a b : Bytes) :
    Node.setRecvBuf c (Node.setRecvBuf c n a) b = Node.setRecvBuf c n b := by
  unfold Node.setRecvBuf Node.upd
  simp only [Node.mk.injEq, true_and, and_true]
  apply List.ext_getElem?
  intro i
  rw [List.getElem?_modify, List.getElem?_modify, List.getElem?_modify]
  cases n.conns[i]? with
  | none => rfl
  | some k =>
    simp only [Option.map_eq_map, Option.map_some]
    split <;> rfl

theorem setRecvBuf_same (c : Nat) (n : Node) (k : Conn) (hk : n.conns[c]? = some k) :
    Node.setRecvBuf c n k.recvBuf = n := by
  unfold Node.setRecvBuf Node.upd
  have : n.conns.modify c (fun k' => { k' with recvBuf := k.recvBuf }) = n.conns := by
    apply List.ext_getElem?
    intro i
    rw [List.getElem?_modify]
    by_cases e : c = i
    · subst e
      rw [hk]
      simp
    · cases n.conns[i]? with
      | none => rfl
      | some k => simp [e]
  rw [this]

theorem handleAll_node (c : Nat) (now : Int) (fs : List Bytes) (rest : Bytes) (n : Node) (k : Conn)
    (hk : n.conns[c]? = some k) (hb : k.recvBuf = fs.flatten ++ rest) :
    NodeStep H (Node.setRecvBuf c n rest)
      (handleAll (Node.setRecvBuf c) (Node.handleFrame H c now) n fs rest) := by
  induction fs generalizing n k with
  | nil =>
    rw [handleAll]
    rw [List.flatten_nil, List.nil_append] at hb
    rw [← hb, setRecvBuf_same c n k hk]
    exact .refl n
  | cons f fs ih =>
    rw [handleAll]
    set n1 := Node.setRecvBuf c n (fs.flatten ++ rest) with hn1
    have h1 : n1.conns[c]? = some { k with recvBuf := fs.flatten ++ rest } := by
      rw [hn1, setRecvBuf_conns, hk]; simp
    obtain ⟨k2, e2, hk2⟩ := handleFrame_recvBuf (H := H) c now n1 f _ h1
    have h3 := ih (n1.handleFrame H c now f) k2 e2 hk2
    have h4 := (steps_node (steps_handleFrame (H := H) (Q := fun _ _ _ => True) c now n1 f trivial)).setBuf c rest (by rw [h1]; simp)
    rw [hn1, setRecvBuf_twice, ← hn1] at h4
    exact h4.trans h3

theorem read_spec (n : Node) (c : Nat) (chunk : Bytes) (now : Int) (k : Conn) (hk : n.conns[c]? = some k) (hc : chunk ≠ []) :
    ∃ fs rest, Splits (k.recvBuf ++ chunk) fs rest ∧
      n.handleRead H c (.data chunk) now =
        (handleAll (Node.setRecvBuf c) (Node.handleFrame H c now) (n.received c chunk now) fs rest, none) ∧
      (Node.tracedLoop H c now (n.received c chunk now) (k.recvBuf ++ chunk)).1.2 = fs ∧
      (Node.tracedLoop H c now (n.received c chunk now) (k.recvBuf ++ chunk)).1.1 = (n.handleRead H c (.data chunk) now).1 ∧
      NodeStep H (Node.setRecvBuf c (n.received c chunk now) rest) (n.handleRead H c (.data chunk) now).1 := by
  obtain ⟨fs, rest, h1, h2⟩ := readLoop_spec (Node.setRecvBuf c) (Node.handleFrame H c now) (n.received c chunk now)
    (k.recvBuf ++ chunk)
  obtain ⟨fs', rest', h1', h2'⟩ := readLoop_spec
    (fun (s : Node × List Bytes) b => (Node.setRecvBuf c s.1 b, s.2))
    (fun s f => (s.1.handleFrame H c now f, s.2 ++ [f])) (n.received c chunk now, []) (k.recvBuf ++ chunk)
  obtain ⟨rfl, rfl⟩ := h1.unique h1'
  have hr : n.handleRead H c (.data chunk) now =
        (handleAll (Node.setRecvBuf c) (Node.handleFrame H c now) (n.received c chunk now) fs rest, none) := by
    unfold Node.handleRead
    simp only [if_neg hc, hk, h2]
  have ht : ∀ (fs : List Bytes) (m : Node) (l : List Bytes),
      handleAll (fun (s : Node × List Bytes) b => (Node.setRecvBuf c s.1 b, s.2))
        (fun s f => (s.1.handleFrame H c now f, s.2 ++ [f])) (m, l) fs rest =
      (handleAll (Node.setRecvBuf c) (Node.handleFrame H c now) m fs rest, l ++ fs) := by
    intro fs
    induction fs with
    | nil => intro m l; rw [handleAll, handleAll, List.append_nil]
    | cons f fs ih =>
      intro m l
      rw [handleAll, handleAll, ih, List.append_assoc]
      rfl
  refine ⟨fs, rest, h1, hr, ?_, ?_, ?_⟩
  · unfold Node.tracedLoop
    rw [h2', ht, List.nil_append]
  · unfold Node.tracedLoop
    rw [h2', ht, hr]
  · rw [hr]
    refine handleAll_node c now fs rest _ { k with
      recvBuf := k.recvBuf ++ chunk
      rxBytes := k.rxBytes + chunk.length
      lastRx := now } ?_ h1.1
    exact conns_upd_self n c _ hk

theorem mem_peers {n : Node} {c : Nat} : c ∈ n.peers ↔ ∃ k, n.conns[c]? = some k ∧ k.isOpen = true := by
  unfold Node.peers
  rw [List.mem_filter, List.mem_range]
  constructor
  · rintro ⟨h1, h2⟩
    rw [List.getElem?_eq_getElem h1] at h2 ⊢
    exact ⟨_, rfl, by simpa using h2⟩
  · rintro ⟨k, h1, h2⟩
    refine ⟨(List.getElem?_eq_some_iff.1 h1).1, ?_⟩
    rw [h1]
    simpa using h2

/-! ### What changes in one event, seen from one connection -/

theorem NodeStep.bufOf {n m : Node} (h : NodeStep H n m) (c : Nat) : m.bufOf c = n.bufOf c := by
  unfold Node.bufOf
  cases hc : n.conns[c]? with
  | some k =>
    obtain ⟨k', e, s⟩ := h.old c k hc
    rw [e]
    exact s.recvBuf
  | none =>
    cases hm : m.conns[c]? with
    | none => rfl
    | some k' =>
      obtain ⟨a, inc, s⟩ := h.new c k' hc hm
      exact s.recvBuf

theorem NodeStep.rxOf {n m : Node} (h : NodeStep H n m) (c : Nat) : m.rxOf c = n.rxOf c := by
  unfold Node.rxOf
  cases hc : n.conns[c]? with
  | some k =>
    obtain ⟨k', e, s⟩ := h.old c k hc
    rw [e]
    exact s.rxBytes
  | none =>
    cases hm : m.conns[c]? with
    | none => rfl
    | some k' =>
      obtain ⟨a, inc, s⟩ := h.new c k' hc hm
      exact s.rxBytes

theorem bufOf_setRecvBuf (n : Node) (c i : Nat) (chunk b : Bytes) (now : Int) (k : Conn) (hk : n.conns[c]? = some k) :
    (Node.setRecvBuf c (n.received c chunk now) b).bufOf i = if c = i then b else n.bufOf i := by
  unfold Node.bufOf
  rw [setRecvBuf_conns]
  have : (n.received c chunk now).conns[i]? = _ := conns_upd n c i _
  rw [this]
  by_cases e : c = i
  · subst e
    rw [hk, if_pos rfl]
    simp
  · rw [if_neg e]
    cases n.conns[i]? with
    | none => rfl
    | some k => simp [e]

theorem rxOf_setRecvBuf (n : Node) (c i : Nat) (chunk b : Bytes) (now : Int) (k : Conn) (hk : n.conns[c]? = some k) :
    (Node.setRecvBuf c (n.received c chunk now) b).rxOf i = n.rxOf i + if c = i then chunk.length else 0 := by
  unfold Node.rxOf
  rw [setRecvBuf_conns]
  have : (n.received c chunk now).conns[i]? = _ := conns_upd n c i _
  rw [this]
  by_cases e : c = i
  · subst e
    rw [hk, if_pos rfl]
    simp
  · rw [if_neg e]
    cases n.conns[i]? with
    | none => rfl
    | some k => simp [e]

/-- An event that brings no bytes to any connection. -/
theorem quiet_or_read (n : Node) (e : Event) :
    (Steps H (fun _ _ _ => True) n (n.step H e) ∧ ∀ c, n.stepBytes e c = [] ∧ n.stepFrames H e c = []) ∨
    ∃ c chunk now k, e = .read c (.data chunk) now ∧ chunk ≠ [] ∧ n.conns[c]? = some k ∧ k.isOpen = true := by
  by_cases h : ∃ c chunk now k, e = .read c (.data chunk) now ∧ chunk ≠ [] ∧ n.conns[c]? = some k ∧ k.isOpen = true
  · exact Or.inr h
  left
  by_cases h' : ∀ c b now, e = .read c (.data b) now → b = []
  · refine ⟨steps_step n e h' (fun _ _ _ _ => trivial), fun c => ?_⟩
    unfold Node.stepBytes Node.stepFrames
    split
    · rename_i c' b now
      rw [h' c' b now rfl]
      simp
    · exact ⟨rfl, rfl⟩
  · simp only [not_forall] at h'
    obtain ⟨c, b, now, rfl, hb⟩ := h'
    have hc : c ∉ n.peers := fun hc => by
      obtain ⟨k, h1, h2⟩ := mem_peers.1 hc
      exact h ⟨c, b, now, k, rfl, hb, h1, h2⟩
    refine ⟨?_, fun c' => ?_⟩
    · unfold Node.step
      simp only [if_neg hc]
      exact .refl
    · unfold Node.stepBytes Node.stepFrames
      simp only
      rw [if_neg (by rintro ⟨rfl, h⟩; exact hc h), if_neg (by rintro ⟨rfl, h, -⟩; exact hc h)]
      exact ⟨rfl, rfl⟩

/-- One event on one connection's stream. -/
theorem step_stream (n : Node) (e : Event) (c : Nat) :
    Splits (n.bufOf c ++ n.stepBytes e c) (n.stepFrames H e c) ((n.step H e).bufOf c) ∨
    (n.stepBytes e c = [] ∧ n.stepFrames H e c = [] ∧ (n.step H e).bufOf c = n.bufOf c) := by
  rcases quiet_or_read (H := H) n e with ⟨h1, h2⟩ | ⟨c', chunk, now, k, rfl, hne, hk, ho⟩
  · exact Or.inr ⟨(h2 c).1, (h2 c).2, (steps_node h1).bufOf c⟩
  · have hp : c' ∈ n.peers := mem_peers.2 ⟨k, hk, ho⟩
    obtain ⟨fs, rest, h1, h2, h3, -, h5⟩ := read_spec (H := H) n c' chunk now k hk hne
    have hs : n.step H (.read c' (.data chunk) now) = (n.handleRead H c' (.data chunk) now).1 := by
      unfold Node.step
      simp only [if_pos hp]
    rw [hs, h5.bufOf c, bufOf_setRecvBuf n c' c chunk rest now k hk]
    unfold Node.stepBytes Node.stepFrames
    simp only
    by_cases e : c' = c
    · subst e
      left
      rw [if_pos ⟨rfl, hp⟩, if_pos ⟨rfl, hp, hne⟩, if_pos rfl, hk]
      simp only [h3]
      have : n.bufOf c' = k.recvBuf := by unfold Node.bufOf; rw [hk]; rfl
      rw [this]
      exact h1
    · right
      rw [if_neg (fun h => e h.1), if_neg (fun h => e h.1), if_neg e]
      exact ⟨rfl, rfl, rfl⟩

theorem step_rx (n : Node) (e : Event) (c : Nat) : (n.step H e).rxOf c = n.rxOf c + (n.stepBytes e c).length := by
  rcases quiet_or_read (H := H) n e with ⟨h1, h2⟩ | ⟨c', chunk, now, k, rfl, hne, hk, ho⟩
  · rw [(h2 c).1, (steps_node h1).rxOf c]
    rfl
  · have hp : c' ∈ n.peers := mem_peers.2 ⟨k, hk, ho⟩
    obtain ⟨fs, rest, h1, h2, h3, -, h5⟩ := read_spec (H := H) n c' chunk now k hk hne
    have hs : n.step H (.read c' (.data chunk) now) = (n.handleRead H c' (.data chunk) now).1 := by
      unfold Node.step
      simp only [if_pos hp]
    rw [hs, h5.rxOf c, rxOf_setRecvBuf n c' c chunk rest now k hk]
    unfold Node.stepBytes
    simp only
    by_cases e : c' = c
    · subst e
      rw [if_pos rfl, if_pos ⟨rfl, hp⟩]
    · rw [if_neg e, if_neg (fun h => e h.1)]
      rfl

/-! ### What one event does to a connection -/

/-- How a connection may change in any event. -/
structure ConnEvent (H : Hashes) (magic : Bytes) (k k' : Conn) : Prop where
  address : k'.address = k.address
  incoming : k'.incoming = k.incoming
  isOpen : k'.isOpen = true → k.isOpen = true
  out : k.out <+: k'.out
  queue : ∃ fs : List Bytes, (∀ f ∈ fs, Written H magic f) ∧ k'.out ++ k'.sendBuf = k.out ++ k.sendBuf ++ fs.flatten
  tx : k.txBytes = k.out.length → k'.txBytes = k'.out.length
  score : 0 ≤ k.banscore → 0 ≤ k'.banscore
  limit : (k.isOpen = true → k.banscore ≤ 5) → k'.isOpen = true → k'.banscore ≤ 5

theorem ConnStep.event {magic : Bytes} {k k' : Conn} (h : ConnStep H magic k k') : ConnEvent H magic k k' :=
  ⟨h.address, h.incoming, h.isOpen, h.out, h.queue, h.tx, h.score, h.limit⟩

theorem ConnEvent.refl (magic : Bytes) (k : Conn) : ConnEvent H magic k k := (ConnStep.refl magic k).event

theorem ConnEvent.trans {magic : Bytes} {a b c : Conn} (h : ConnEvent H magic a b) (h' : ConnEvent H magic b c) :
    ConnEvent H magic a c := by
  obtain ⟨fs, h1, h2⟩ := h.queue
  obtain ⟨gs, h1', h2'⟩ := h'.queue
  refine ⟨h'.address.trans h.address, h'.incoming.trans h.incoming, fun x => h.isOpen (h'.isOpen x), h.out.trans h'.out,
    ⟨fs ++ gs, ?_, ?_⟩, fun x => h'.tx (h.tx x), fun x => h'.score (h.score x),
    fun x => h'.limit (h.limit x)⟩
  · intro f hf
    rcases List.mem_append.1 hf with hf | hf
    · exact h1 f hf
    · exact h1' f hf
  · rw [h2', h2, List.flatten_append, List.append_assoc _ fs.flatten]

structure NodeEvent (H : Hashes) (n m : Node) : Prop where
  magic : m.magic = n.magic
  old : ∀ (i : Nat) k, n.conns[i]? = some k → ∃ k', m.conns[i]? = some k' ∧ ConnEvent H n.magic k k'
  new : ∀ (i : Nat) k', n.conns[i]? = none → m.conns[i]? = some k' → ∃ a inc, ConnEvent H n.magic (fresh a inc) k'

theorem NodeStep.event {n m : Node} (h : NodeStep H n m) : NodeEvent H n m :=
  ⟨h.magic, fun i k hk => let ⟨k', h1, h2⟩ := h.old i k hk; ⟨k', h1, h2.event⟩,
    fun i k' hi hk => let ⟨a, inc, s⟩ := h.new i k' hi hk; ⟨a, inc, s.event⟩⟩

theorem NodeEvent.trans {a b c : Node} (h : NodeEvent H a b) (h' : NodeEvent H b c) : NodeEvent H a c := by
  refine ⟨h'.magic.trans h.magic, fun i k hk => ?_, fun i k' hi hk => ?_⟩
  · obtain ⟨k1, e1, s1⟩ := h.old i k hk
    obtain ⟨k2, e2, s2⟩ := h'.old i k1 e1
    rw [h.magic] at s2
    exact ⟨k2, e2, s1.trans s2⟩
  · cases hb : b.conns[i]? with
    | none =>
      obtain ⟨a', inc, s⟩ := h'.new i k' hb hk
      rw [h.magic] at s
      exact ⟨a', inc, s⟩
    | some k1 =>
      obtain ⟨a', inc, s⟩ := h.new i k1 hi hb
      obtain ⟨k2, e2, s2⟩ := h'.old i k1 hb
      rw [hk] at e2
      cases e2
      rw [h.magic] at s2
      exact ⟨a', inc, s.trans s2⟩

theorem NodeEvent.upd (n : Node) (c : Nat) (f : Conn → Conn) (rx : Nat)
    (h : ∀ k, ConnEvent H n.magic k (f k)) : NodeEvent H n { n.upd c f with rx := rx } := by
  refine ⟨rfl, fun i k hk => ?_, fun i k' hi hk => ?_⟩
  · refine ⟨if c = i then f k else k, ?_, ?_⟩
    · show (n.upd c f).conns[i]? = _
      rw [conns_upd, hk]
      rfl
    · split
      · exact h k
      · exact .refl _ _
  · have : (n.upd c f).conns[i]? = some k' := hk
    rw [conns_upd, hi] at this
    cases this

theorem prim2_event {n m : Node} (h : Prim2 H Q n m) : NodeEvent H n m := by
  cases h with
  | prim _ h => exact (prim_node h).event
  | recv c k chunk now hk _ =>
    exact NodeEvent.upd n c (fun k => { k with
      recvBuf := k.recvBuf ++ chunk
      rxBytes := k.rxBytes + chunk.length
      lastRx := now }) _ (fun k => ⟨rfl, rfl, id, List.prefix_refl _, ⟨[], by simp, by simp⟩, id, id, id⟩)
  | setBuf c b =>
    exact NodeEvent.upd n c (fun k => { k with recvBuf := b }) n.rx
      (fun k => ⟨rfl, rfl, id, List.prefix_refl _, ⟨[], by simp, by simp⟩, id, id, id⟩)

theorem steps2_event {n m : Node} (h : Steps2 H Q n m) : NodeEvent H n m := by
  induction h with
  | refl => exact (NodeStep.refl n).event
  | tail _ h ih => exact ih.trans (prim2_event h)

theorem run_event (n : Node) (es : List Event) : NodeEvent H n (n.run H es) := 
  steps2_event (Q := fun _ _ _ => True) (steps2_run n es (fun _ _ _ _ _ _ => trivial))

end NBC.P2P
