import Verif.Props.NodeInfo
import Verif.Props.NodeAddresses
import Verif.Props.NodeLoop

/-!
# Properties C123 and C124: two nodes of this code, connected to each other
-/

namespace NBC.Props
open NBC NBC.Spec NBC.Spec.Wire NBC.Proto NBC.P2P Relation
open NBC.Spec.Built (Constructed)

variable {H : Hashes} {Q : Clock → Nat → Int → Prop} {magic : Bytes} {P : MsgType → Prop}

/-! ### What is queued on a connection -/

/-- How one primitive change affects the output of the connection `c`. -/
theorem queue_prim {n m : Node} (h : Prim2 H Q n m) (c : Nat) :
    (∀ k, n.conns[c]? = some k → ∃ k', m.conns[c]? = some k' ∧
      (k'.out ++ k'.sendBuf = k.out ++ k.sendBuf ∨ ∃ (t : MsgType) (fields : _) (b : Bytes),
        t.binary H fields n.magic = .ok b ∧
        (Q (.own t fields) c 0 ∨ t ∈ registry ∧ (Constructed t fields ∧ t.command ≠ "headers") ∧
          (t.command = "version" → k.out = [] ∧ k.sendBuf = [])) ∧
        k'.out ++ k'.sendBuf = k.out ++ k.sendBuf ++ b)) ∧
    (∀ k', n.conns[c]? = none → m.conns[c]? = some k' → k'.out ++ k'.sendBuf = []) := by
  have key : ∀ (i : Nat) (f : Conn → Conn) (m : Node), m.conns = (n.upd i f).conns →
      (∀ k, n.conns[i]? = some k → (f k).out ++ (f k).sendBuf = k.out ++ k.sendBuf) →
      (∀ k, n.conns[c]? = some k → ∃ k', m.conns[c]? = some k' ∧
      (k'.out ++ k'.sendBuf = k.out ++ k.sendBuf ∨ ∃ (t : MsgType) (fields : _) (b : Bytes),
        t.binary H fields n.magic = .ok b ∧
        (Q (.own t fields) c 0 ∨ t ∈ registry ∧ (Constructed t fields ∧ t.command ≠ "headers") ∧
          (t.command = "version" → k.out = [] ∧ k.sendBuf = [])) ∧
        k'.out ++ k'.sendBuf = k.out ++ k.sendBuf ++ b)) ∧
      (∀ k', n.conns[c]? = none → m.conns[c]? = some k' → k'.out ++ k'.sendBuf = []) := by
    intro i f m hm hf
    rw [hm, conns_upd]
    refine ⟨fun k hk => ?_, fun k' hk hk' => ?_⟩
    · refine ⟨_, by rw [hk]; rfl, .inl ?_⟩
      split
      · rename_i e
        subst e
        exact hf k hk
      · rfl
    · rw [hk] at hk'
      cases hk'
  have same : ∀ m : Node, m.conns = n.conns →
      (∀ k, n.conns[c]? = some k → ∃ k', m.conns[c]? = some k' ∧
      (k'.out ++ k'.sendBuf = k.out ++ k.sendBuf ∨ ∃ (t : MsgType) (fields : _) (b : Bytes),
        t.binary H fields n.magic = .ok b ∧
        (Q (.own t fields) c 0 ∨ t ∈ registry ∧ (Constructed t fields ∧ t.command ≠ "headers") ∧
          (t.command = "version" → k.out = [] ∧ k.sendBuf = [])) ∧
        k'.out ++ k'.sendBuf = k.out ++ k.sendBuf ++ b)) ∧
      (∀ k', n.conns[c]? = none → m.conns[c]? = some k' → k'.out ++ k'.sendBuf = []) := by
    intro m hm
    rw [hm]
    exact ⟨fun k hk => ⟨k, hk, .inl rfl⟩, fun k' h h' => by rw [h] at h'; cases h'⟩
  cases h with
  | prim _ h =>
    cases h with
    | queue i t fields b hb ho =>
      refine ⟨fun k hk => ?_, fun k' hk hk' => ?_⟩
      · refine ⟨_, by rw [conns_upd, hk]; rfl, ?_⟩
        split
        · rename_i e
          subst e
          exact .inr ⟨t, fields, b, hb, ho.imp_right (fun h => ⟨h.1, h.2.1, fun hv => h.2.2 hv k hk⟩), (List.append_assoc _ _ _).symm⟩
        · exact .inl rfl
      · rw [conns_upd, hk] at hk'
        cases hk'
    | close i => exact key i _ _ rfl (fun _ _ => rfl)
    | sent i k j now hk hj _ =>
      exact key i (fun k => { k with
        out := k.out ++ k.sendBuf.take j, txBytes := k.txBytes + j, lastTx := now, sendBuf := k.sendBuf.drop j }) _ rfl
        (fun k _ => take_flatten k j)
    | info i f hf hx _ => exact key i f _ rfl (fun k _ => by rw [(hf k).out, (hf k).sendBuf])
    | ping i t _ => exact key i _ _ rfl (fun _ _ => rfl)
    | tx i t _ => exact key i _ _ rfl (fun _ _ => rfl)
    | new a inc _ _ =>
      refine ⟨fun k hk => ⟨k, ?_, .inl rfl⟩, fun k' hk hk' => ?_⟩
      · exact (List.getElem?_append_left (List.getElem?_eq_some_iff.1 hk).1).trans hk
      · have hk' : (n.conns ++ [_])[c]? = some k' := hk'
        rw [List.getElem?_append_right (List.getElem?_eq_none_iff.1 hk), List.getElem?_singleton] at hk'
        split at hk'
        · cases hk'
          rfl
        · cases hk'
    | add i _ _ => exact key i _ _ rfl (fun _ _ => rfl)
    | reduce i => exact key i _ _ rfl (fun k _ => by unfold Conn.reduceBanscore; rfl)
    | _ => exact same _ rfl
  | recv i k chunk now hk _ =>
    exact key i (fun k => { k with
        recvBuf := k.recvBuf ++ chunk, rxBytes := k.rxBytes + chunk.length, lastRx := now }) _ rfl (fun _ _ => rfl)
  | setBuf i b => exact key i _ _ rfl (fun _ _ => rfl)

/-- A message of one of the classes of the protocol, as `binary` writes it. -/
def MessageOf (H : Hashes) (magic : Bytes) (P : MsgType → Prop) (f : Bytes) : Prop :=
  ∃ t ∈ registry, P t ∧ ∃ fields, t.binary H fields magic = .ok f

theorem wire_of_binary {t : MsgType} (ht : t ∈ registry) {fields : List (String × Val)} {f : Bytes}
    (h : t.binary H fields magic = .ok f) :
    ∃ payload, payload.length < 2 ^ 32 ∧ f = wireFrame H magic t.command payload := by
  unfold MsgType.binary at h
  obtain ⟨payload, -, h⟩ := bind_ok_iff.1 h
  have hp : payload.length < 2 ^ 32 := by
    unfold frame at h
    obtain ⟨_, -, h⟩ := bind_ok_iff.1 h
    obtain ⟨_, hl, -⟩ := bind_ok_iff.1 h
    have := (pack_ok_iff.1 hl).1
    unfold inRange hi at this
    simp only [twos, bits, Bool.false_eq_true, if_false] at this
    omega
  refine ⟨payload, hp, ?_⟩
  rw [frame_eq H (command_mem ht) payload magic hp] at h
  exact (Except.ok.inj h).symm

theorem MessageOf.frame (hm : magic.length = 4) {f : Bytes} (h : MessageOf H magic P f) : IsFrame f := by
  obtain ⟨t, ht, -, fields, hf⟩ := h
  obtain ⟨payload, hp, rfl⟩ := wire_of_binary ht hf
  exact isFrame_wire (command_mem ht) payload magic hm hp

/-- The output of a connection, sent and to be sent, is the messages `fs`; messages of type `version` after the first
one satisfy `P`. -/
structure Outputs (H : Hashes) (magic : Bytes) (P : MsgType → Prop) (k : Conn) (fs : List Bytes) : Prop where
  flat : k.out ++ k.sendBuf = fs.flatten
  all : ∀ f ∈ fs, MessageOf H magic (fun _ => True) f
  later : ∀ f ∈ fs.tail, MessageOf H magic (fun t => t.command = "version" → P t) f

/-- From `n` to `m` the output of the connection `c` only grows, by messages. -/
structure Extends (H : Hashes) (magic : Bytes) (P : MsgType → Prop) (c : Nat) (n m : Node) : Prop where
  old : ∀ k fs, n.conns[c]? = some k → Outputs H magic P k fs → ∃ k' gs, m.conns[c]? = some k' ∧ Outputs H magic P k' (fs ++ gs)
  new : ∀ k', n.conns[c]? = none → m.conns[c]? = some k' → ∃ gs, Outputs H magic P k' gs

theorem Extends.refl (c : Nat) (n : Node) : Extends H magic P c n n :=
  ⟨fun k fs hk h => ⟨k, [], hk, by rwa [List.append_nil]⟩, fun k' h h' => by rw [h] at h'; cases h'⟩

theorem Extends.trans {c : Nat} {a b d : Node} (h : Extends H magic P c a b) (h' : Extends H magic P c b d) :
    Extends H magic P c a d := by
  refine ⟨fun k fs hk hs => ?_, fun k' hn hk' => ?_⟩
  · obtain ⟨k1, gs, e1, s1⟩ := h.old k fs hk hs
    obtain ⟨k2, gs', e2, s2⟩ := h'.old k1 _ e1 s1
    exact ⟨k2, gs ++ gs', e2, by rw [← List.append_assoc]; exact s2⟩
  · cases hb : b.conns[c]? with
    | none => exact h'.new k' hb hk'
    | some k1 =>
      obtain ⟨gs, s⟩ := h.new k1 hn hb
      obtain ⟨k2, gs', e2, s2⟩ := h'.old k1 gs hb s
      rw [hk'] at e2
      cases e2
      exact ⟨_, s2⟩

theorem message_ne_nil {f : Bytes} {t : MsgType} (ht : t ∈ registry) {fields : List (String × Val)}
    (h : t.binary H fields magic = .ok f) (hm : magic.length = 4) : f ≠ [] := by
  obtain ⟨payload, hp, rfl⟩ := wire_of_binary ht h
  intro e
  have := wireFrame_length H (command_mem ht) payload magic hm
  rw [e, List.length_nil] at this
  omega

theorem extends_prim {n m : Node} (h : Prim2 H Q n m) (c : Nat) (hq : ∀ t fields, Q (.own t fields) c 0 → t ∈ registry ∧ P t)
    (hm : n.magic = magic) (hl : magic.length = 4) : Extends H magic P c n m := by
  obtain ⟨h1, h2⟩ := queue_prim h c
  refine ⟨fun k fs hk hs => ?_, fun k' hn hk' => ⟨[], h2 k' hn hk', by simp, by simp⟩⟩
  obtain ⟨k', hk', e | ⟨t, fields, b, hb, ho, e⟩⟩ := h1 k hk
  · exact ⟨k', [], hk', by rw [List.append_nil]; exact ⟨e.trans hs.flat, hs.all, hs.later⟩⟩
  · rw [hm] at hb
    have ht : t ∈ registry := ho.elim (fun h => (hq t fields h).1) (·.1)
    refine ⟨k', [b], hk', ?_, ?_, ?_⟩
    · rw [e, hs.flat]
      simp
    · intro f hf
      rcases List.mem_append.1 hf with hf | hf
      · exact hs.all f hf
      · rw [List.mem_singleton.1 hf]
        exact ⟨t, ht, trivial, fields, hb⟩
    · intro f hf
      cases fs with
      | nil => cases hf
      | cons g gs =>
        rw [List.cons_append, List.tail_cons] at hf
        rcases List.mem_append.1 hf with hf | hf
        · exact hs.later f hf
        · rw [List.mem_singleton.1 hf]
          refine ⟨t, ht, fun hv => ?_, fields, hb⟩
          rcases ho with ho | ho
          · exact (hq t fields ho).2
          · exfalso
            obtain ⟨e1, e2⟩ := ho.2.2 hv
            have := hs.flat
            rw [e1, e2, List.flatten_cons] at this
            obtain ⟨t', ht', -, fields', hb'⟩ := hs.all g (List.mem_cons_self ..)
            exact message_ne_nil ht' hb' hl (List.append_eq_nil_iff.1 this.symm).1

theorem extends_steps {n m : Node} (h : Steps2 H Q n m) (c : Nat) (hq : ∀ t fields, Q (.own t fields) c 0 → t ∈ registry ∧ P t)
    (hm : n.magic = magic) (hl : magic.length = 4) : Extends H magic P c n m := by
  induction h with
  | refl => exact .refl c n
  | tail hs hp ih => exact ih.trans (extends_prim hp c hq ((steps2_event hs).magic.trans hm) hl)

/-- The owner of the node sends only messages of the classes of the protocol on this connection, all of which satisfy `P`. -/
def Owner (P : MsgType → Prop) (c : Nat) (es : List Event) : Prop :=
  ∀ t fields, .send c t fields ∈ es → t ∈ registry ∧ P t

theorem owner_stores {c : Nat} {es : List Event} (h : Owner P c es) {e : Event} (he : e ∈ es) (t : MsgType)
    (fields : List (String × Val)) (hs : e.stores (.own t fields) c 0) : t ∈ registry ∧ P t := by
  cases e <;> try exact hs.elim
  obtain ⟨rfl, rfl, rfl⟩ := hs
  exact h _ _ he

theorem extends_run (n : Node) (es : List Event) (c : Nat) (ho : Owner P c es) (hm : n.magic = magic)
    (hl : magic.length = 4) : Extends H magic P c n (n.run H es) := by
  induction es generalizing n with
  | nil => exact .refl c n
  | cons e es ih =>
    have hs := steps2_step (H := H) (Q := e.stores) n e (fun _ _ _ h => h)
    exact (extends_steps hs c (owner_stores ho (List.mem_cons_self ..)) hm hl).trans
      (ih _ (fun t fields h => ho t fields (List.mem_cons_of_mem _ h)) ((steps2_event hs).magic.trans hm))

theorem sends_run (n : Node) (hn : n.conns = []) (es : List Event) (c : Nat) (ho : Owner P c es) (hl : n.magic.length = 4)
    (k : Conn) (hk : (n.run H es).conns[c]? = some k) : ∃ fs, Outputs H n.magic P k fs :=
  (extends_run n es c ho rfl hl).new k (by rw [hn]; rfl) hk

/-! ### C123 -/

theorem splits_prefix {s rest : Bytes} {gs fs : List Bytes} (h : Splits s gs rest) (hp : s <+: fs.flatten)
    (hf : ∀ f ∈ fs, IsFrame f) : gs <+: fs := by
  obtain ⟨q, hq⟩ := hp
  have : ∃ gs' r', Splits (rest ++ q) gs' r' := by
    obtain ⟨fs, rest, h, -⟩ := readLoop_spec (fun (s : Unit) (_ : Bytes) => s) (fun s _ => s) () (rest ++ q)
    exact ⟨fs, rest, h⟩
  obtain ⟨gs', r', h'⟩ := this
  have h1 := h.append h'
  rw [hq] at h1
  have h2 : Splits fs.flatten fs [] := ⟨by simp, hf, .inl (by decide)⟩
  obtain ⟨e, -⟩ := h1.unique h2
  exact ⟨gs', e⟩

/-- C123: when the network delivers to a connection of `B` the beginning of what a connection of `A` has sent, in whatever
pieces, then `B` has handled the first of the messages that `A` queued, each once and in the same order; and when all has
been delivered, all of them. -/
theorem C123_delivered (A B : Node) (hA : A.conns = []) (hB : B.conns = []) (hm : A.magic.length = 4) (es es' : List Event)
    (a b : Nat) (ho : Owner (fun _ => True) a es) (k : Conn) (hk : (A.run H es).conns[a]? = some k) :
    ∃ fs : List Bytes, (∀ f ∈ fs, ∃ t ∈ registry, ∃ fields, t.binary H fields A.magic = .ok f) ∧
      k.out ++ k.sendBuf = fs.flatten ∧
      (B.stream H es' b <+: k.out → B.handled H es' b <+: fs) ∧
      (B.stream H es' b = k.out → k.sendBuf = [] → B.handled H es' b = fs ∧ (B.run H es').bufOf b = []) := by
  obtain ⟨fs, hs⟩ := sends_run A hA es a ho hm k hk
  have hB' := C67_stream (H := H) B hB es' b
  refine ⟨fs, fun f hf => ?_, hs.flat, fun h => ?_, fun h hb => ?_⟩
  · obtain ⟨t, ht, -, h⟩ := hs.all f hf
    exact ⟨t, ht, h⟩
  · refine splits_prefix hB' ?_ (fun f hf => (hs.all f hf).frame hm)
    rw [← hs.flat]
    exact h.trans (List.prefix_append _ _)
  · rw [h] at hB'
    have := hs.flat
    rw [hb, List.append_nil] at this
    rw [this] at hB'
    exact hB'.unique ⟨by simp, fun f hf => (hs.all f hf).frame hm, .inl (by decide)⟩

/-- C123: in particular a message that the owner of `A` sends arrives at `B` with the values that the format gives it. -/
theorem C123_message (A B : Node) (hA : A.conns = []) (hB : B.conns = []) (hm : A.magic.length = 4)
    (hAB : B.magic = A.magic) (es es1 es' : List Event) (a b : Nat) (command : String) (ws : List (String × WType))
    (hc : (command, ws) ∈ messages) (vs vs' : List (String × Val)) (payload : Bytes) (hw : wFields ws vs payload vs')
    (hp : payload.length < 2 ^ 32) (t : MsgType) (ht : t ∈ registry) (htc : t.command = command)
    (ho : Owner (fun _ => True) a (es ++ .send a t vs :: es1)) (hex : (A.run H es).conns[a]? ≠ none) (k : Conn)
    (hk : (A.run H (es ++ .send a t vs :: es1)).conns[a]? = some k) (hs : B.stream H es' b = k.out) (hb : k.sendBuf = []) :
    ⟨command, vs'⟩ ∈ accepted H B.magic (B.handled H es' b) := by
  obtain ⟨t', ht', htc', -, -, hbin, hparse⟩ := C63_message H command ws hc vs vs' payload A.magic [] hw hp hm
  have := registered_command ht ht' (htc.trans htc'.symm)
  subst this
  obtain ⟨k0, hk0⟩ := Option.ne_none_iff_exists'.1 hex
  have ho1 : Owner (fun _ => True) a es := fun t f h => ho t f (List.mem_append_left _ h)
  have ho2 : Owner (fun _ => True) a es1 := fun t f h => ho t f (List.mem_append_right _ (List.mem_cons_of_mem _ h))
  obtain ⟨fs0, hs0⟩ := sends_run A hA es a ho1 hm k0 hk0
  have hmag : (A.run H es).magic = A.magic := (run_event (H := H) A es).magic
  obtain ⟨-, hk1, -⟩ := (C69_send (H := H) (A.run H es) a k0 hk0 t vs).1 _ (by rw [hmag]; exact hbin)
  rw [run_append, run_cons] at hk
  have hs1 : Outputs H A.magic (fun _ => True) { k0 with sendBuf := k0.sendBuf ++ wireFrame H A.magic command payload }
      (fs0 ++ [wireFrame H A.magic command payload]) := by
    refine ⟨?_, fun f hf => ?_, fun f hf => ?_⟩
    · show k0.out ++ (k0.sendBuf ++ _) = _
      rw [← List.append_assoc, hs0.flat]
      simp
    · rcases List.mem_append.1 hf with hf | hf
      · exact hs0.all f hf
      · rw [List.mem_singleton.1 hf]
        exact ⟨t, ht, trivial, vs, hbin⟩
    · cases fs0 with
      | nil => cases hf
      | cons g gs =>
        rcases List.mem_append.1 hf with hf | hf
        · exact hs0.later f hf
        · rw [List.mem_singleton.1 hf]
          exact ⟨t, ht, fun _ => trivial, vs, hbin⟩
  have hmag1 : ((A.run H es).step H (.send a t vs)).magic = A.magic :=
    (steps2_event (steps2_step (H := H) (Q := fun _ _ _ => True) _ _ (fun _ _ _ _ => trivial))).magic.trans hmag
  obtain ⟨k', gs, hk', hs2⟩ := (extends_run (P := fun _ => True) ((A.run H es).step H (.send a t vs)) es1 a ho2 hmag1 hm).old
    _ _ hk1 hs1
  rw [hk] at hk'
  cases hk'
  have hB' := C67_stream (H := H) B hB es' b
  have hfl := hs2.flat
  rw [hb, List.append_nil] at hfl
  rw [hs, hfl] at hB'
  obtain ⟨e, -⟩ := hB'.unique ⟨(List.append_nil _).symm, fun f hf => (hs2.all f hf).frame hm, .inl (by decide)⟩
  rw [e, hAB]
  refine List.mem_filterMap.2 ⟨_, List.mem_append_left _ (List.mem_append_right _ (List.mem_singleton_self _)), ?_⟩
  rw [List.append_nil] at hparse
  rw [hparse]
  rfl

/-! ### C124 -/

/-- The acknowledgement of a version message. -/
def ackFrame (H : Hashes) (magic : Bytes) : Bytes := wireFrame H magic "verack" []

theorem verack_sent (n : Node) (c : Nat) (hm : n.magic.length = 4) :
    n.sendNew H c msgVerack [] =
      (n.upd c (fun k => { k with sendBuf := k.sendBuf ++ ackFrame H n.magic }), none) := by
  obtain ⟨t, ht, htc, h1, -, h2, -⟩ := C63_message H "verack" [] (by simp [messages]) [] [] [] n.magic []
    ⟨rfl, rfl, rfl⟩ (by decide) hm
  have := registered_command (u := msgVerack) ht (by simp [registry]) htc
  subst this
  exact sendNew_ok n c msgVerack _ _ _ h1 h2

theorem verack_message (hm : magic.length = 4) :
    MessageOf H magic (fun t => t.command = "version" → P t) (ackFrame H magic) := by
  obtain ⟨t, ht, htc, h1, -, h2, -⟩ := C63_message H "verack" [] (by simp [messages]) [] [] [] magic []
    ⟨rfl, rfl, rfl⟩ (by decide) hm
  exact ⟨t, ht, fun h => by rw [htc] at h; exact absurd h (by decide), [], h2⟩

/-- One of the messages is a version message. -/
def Introduced (ms : List Msg) : Prop := ∃ m ∈ ms, m.command = "version"

/-- If the peer has introduced itself then that is acknowledged. -/
structure Acks (H : Hashes) (magic : Bytes) (P : MsgType → Prop) (n : Node) (c : Nat) (ms : List Msg) : Prop where
  none : n.conns[c]? = none → ¬ Introduced ms
  some : ∀ k, n.conns[c]? = some k → ∃ fs, Outputs H magic P k fs ∧ (Introduced ms → ackFrame H magic ∈ fs)

theorem Acks.extends {n m : Node} {c : Nat} {ms : List Msg} (h : Acks H magic P n c ms) (he : Extends H magic P c n m)
    (hc : ∀ k, n.conns[c]? = .some k → m.conns[c]? ≠ .none) : Acks H magic P m c ms := by
  refine ⟨fun hn => ?_, fun k' hk' => ?_⟩
  · refine h.none ?_
    by_contra hne
    obtain ⟨k, hk⟩ := Option.ne_none_iff_exists'.1 hne
    exact hc k hk hn
  · cases hk : n.conns[c]? with
    | none =>
      obtain ⟨gs, hg⟩ := he.new k' hk hk'
      exact ⟨gs, hg, fun hi => absurd hi (h.none hk)⟩
    | some k =>
      obtain ⟨fs, h1, h2⟩ := h.some k hk
      obtain ⟨k2, gs, e, hs⟩ := he.old k fs hk h1
      rw [hk'] at e
      cases e
      exact ⟨_, hs, fun hi => List.mem_append_left _ (h2 hi)⟩

theorem stays {n m : Node} (h : Steps2 H Q n m) (c : Nat) (k : Conn) (hk : n.conns[c]? = some k) : m.conns[c]? ≠ none := by
  obtain ⟨k', h1, -⟩ := (steps2_event h).old c k hk
  rw [h1]
  exact Option.some_ne_none _

theorem Acks.steps {n m : Node} {c : Nat} {ms : List Msg} (h : Acks H magic P n c ms) (hs : Steps2 H Q n m)
    (hq : ∀ t fields, Q (.own t fields) c 0 → t ∈ registry ∧ P t) (hm : n.magic = magic) (hl : magic.length = 4) : Acks H magic P m c ms :=
  h.extends (extends_steps hs c hq hm hl) (stays hs c)

theorem Acks.same {n : Node} {c : Nat} {ms ms' : List Msg} (h : Acks H magic P n c ms) (hi : Introduced ms' → Introduced ms) :
    Acks H magic P n c ms' :=
  ⟨fun hn h' => h.none hn (hi h'), fun k hk => let ⟨fs, h1, h2⟩ := h.some k hk; ⟨fs, h1, fun h' => h2 (hi h')⟩⟩

theorem introduced_append {ms ms' : List Msg} (h : ¬ Introduced ms') : Introduced (ms ++ ms') → Introduced ms := by
  rintro ⟨m, hm, hv⟩
  rcases List.mem_append.1 hm with hm | hm
  · exact ⟨m, hm, hv⟩
  · exact absurd ⟨m, hm, hv⟩ h

/-! ### A node that listens has listened -/

theorem deaf_steps {Q : Clock → Nat → Int → Prop} {n m : Node} (h : Steps2 H Q n m) (hn : n.listening = false) :
    m.listening = false := by
  refine steps2_inv (P := fun m => m.listening = false) (fun a b hp ha => ?_) h hn
  cases hp with
  | prim _ hp => cases hp <;> first | exact ha | rfl
  | _ => exact ha

theorem deaf_run (es : List Event) (n : Node) (hn : n.listening = false) : (n.run H es).listening = false := by
  induction es generalizing n with
  | nil => exact hn
  | cons e es ih =>
    rw [run_cons]
    exact ih _ (deaf_steps (steps2_step (H := H) (Q := fun _ _ _ => True) n e (fun _ _ _ _ => trivial)) hn)

theorem listened (es : List Event) (n : Node) (h : (n.run H es).listening = true) : n.listening = true := by
  by_contra hn
  rw [deaf_run es n (by simpa using hn)] at h
  cases h

theorem listens_frame (c : Nat) (now : Int) (n : Node) (f : Bytes) : (n.handleFrame H c now f).listening = n.listening :=
  steps2_inv (P := fun m => m.listening = n.listening) (fun _ _ hp ha => by
    rw [← ha]
    exact listening_prim hp (by simp))
    (steps_handleFrame (H := H) (Q := fun w _ _ => w = .info) c now n f rfl).two rfl

theorem frame_acks (n : Node) (c : Nat) (now : Int) (f : Bytes) (k : Conn) (hk : n.conns[c]? = some k) (ms : List Msg)
    (hm : n.magic = magic) (hl : magic.length = 4) (hlis : n.listening = true) (h : Acks H magic P n c ms) :
    Acks H magic P (n.handleFrame H c now f) c (ms ++ accepted H n.magic [f]) := by
  have hst := steps_handleFrame (H := H) (Q := fun w _ _ => w = .info) c now n f rfl
  have hA := h.steps hst.two (fun t _ ht => by cases ht) hm hl
  by_cases hv : ∃ m, parseMessage H f n.magic = .ok m ∧ m.command = "version"
  · obtain ⟨m, hp, hv⟩ := hv
    obtain ⟨ip, s, h', u, v, r, -, e2⟩ := parsed_says hp hv
    have hd : ∀ x : Node, x.dispatch H c m now = x.sendNew H c msgVerack [] := by
      intro x
      unfold Node.dispatch
      rw [if_neg (by rw [hv]; decide), if_pos hv]
    have hs : Steps2 H (fun w _ _ => w = .info) n (n.upd c (fun k => { k with
        services := s, startHeight := h', userAgent := u, version := v, relay := r, externalIp := some ip })).checkExternalIp :=
      Steps.two ((Prim.info n c _ (versionInfo_core e2) (fun k' ip' hi => by
        obtain ⟨i2, h1, h2⟩ := (parse_good hp).2 hv _ e2 k'
        rw [h1] at hi
        cases hi
        exact .inr h2) rfl).one.trans (steps_checkExternalIp _))
    have hx := h.steps hs (fun t _ ht => by cases ht) hm hl
    have hxm := (steps2_event hs).magic.trans hm
    unfold Node.handleFrame
    rw [hp]
    simp only
    unfold Node.handleMessage
    rw [if_pos hv, e2]
    simp only [hlis, if_true]
    have hkx := stays hs c k hk
    generalize (n.upd c (fun k => { k with
        services := s, startHeight := h', userAgent := u, version := v, relay := r, externalIp := some ip })).checkExternalIp =
      x at *
    rw [hd, verack_sent x c (by rw [hxm]; exact hl), hxm]
    obtain ⟨kx, hkx⟩ := Option.ne_none_iff_exists'.1 hkx
    obtain ⟨fs, h1, -⟩ := hx.some kx hkx
    simp only
    refine ⟨fun hn => ?_, fun k' hk' => ?_⟩
    · rw [conns_upd_self x c _ hkx] at hn
      cases hn
    · rw [conns_upd_self x c _ hkx] at hk'
      cases hk'
      have ha := verack_message (H := H) (P := P) hl
      refine ⟨fs ++ [ackFrame H magic], ⟨?_, fun f hf => ?_, fun f hf => ?_⟩, fun _ => by simp⟩
      · show kx.out ++ (kx.sendBuf ++ _) = _
        rw [← List.append_assoc, h1.flat]
        simp
      · rcases List.mem_append.1 hf with hf | hf
        · exact h1.all f hf
        · rw [List.mem_singleton.1 hf]
          obtain ⟨t, ht, -, hb⟩ := ha
          exact ⟨t, ht, trivial, hb⟩
      · cases fs with
        | nil => cases hf
        | cons g gs =>
          rcases List.mem_append.1 hf with hf | hf
          · exact h1.later f hf
          · rw [List.mem_singleton.1 hf]
            exact ha
  · refine hA.same (introduced_append ?_)
    rintro ⟨m, hm', hv'⟩
    obtain ⟨f', hf, hp⟩ := List.mem_filterMap.1 hm'
    rw [List.mem_singleton.1 hf] at hp
    refine hv ⟨m, ?_, hv'⟩
    cases hx : parseMessage H f n.magic with
    | error e => rw [hx] at hp; cases hp
    | ok m' => rw [hx] at hp; cases hp; rfl

theorem accepted_cons (magic f : Bytes) (fs : List Bytes) :
    accepted H magic (f :: fs) = accepted H magic [f] ++ accepted H magic fs := by
  unfold accepted
  rw [← List.filterMap_append]
  rfl

theorem all_acks (c : Nat) (now : Int) (fs : List Bytes) (rest : Bytes) (n : Node) (k : Conn) (hk : n.conns[c]? = some k)
    (hm : n.magic = magic) (hl : magic.length = 4) (hlis : n.listening = true) (ms : List Msg) (h : Acks H magic P n c ms) :
    Acks H magic P (handleAll (Node.setRecvBuf c) (Node.handleFrame H c now) n fs rest) c (ms ++ accepted H n.magic fs) := by
  induction fs generalizing n k ms with
  | nil => simpa [handleAll, accepted] using h
  | cons f fs ih =>
    rw [handleAll]
    have h1 : (Node.setRecvBuf c n (fs.flatten ++ rest)).conns[c]? = some { k with recvBuf := fs.flatten ++ rest } :=
      conns_upd_self n c _ hk
    have h2 := h.steps (Q := fun _ _ _ => False) (ReflTransGen.single (Prim2.setBuf n c (fs.flatten ++ rest)))
      (fun t _ ht => ht.elim) hm hl
    have h3 := frame_acks (H := H) _ c now f _ h1 ms hm hl hlis h2
    have hst := steps_handleFrame (H := H) (Q := fun _ _ _ => True) c now (Node.setRecvBuf c n (fs.flatten ++ rest)) f trivial
    obtain ⟨k2, h4, -⟩ := (steps_node hst).old c _ h1
    have h5 := ih _ k2 h4 ((steps_node hst).magic.trans hm) ((listens_frame ..).trans hlis) _ h3
    rw [(steps_node hst).magic] at h5
    rw [accepted_cons, ← List.append_assoc]
    exact h5

theorem step_acks (n : Node) (e : Event) (c : Nat) (ms : List Msg) (hm : n.magic = magic) (hl : magic.length = 4)
    (hlis : n.listening = true) (hq : ∀ t fields, e.stores (.own t fields) c 0 → t ∈ registry ∧ P t) (h : Acks H magic P n c ms) :
    Acks H magic P (n.step H e) c (ms ++ accepted H n.magic (n.stepFrames H e c)) := by
  by_cases hr : ∃ chunk now k, e = .read c (.data chunk) now ∧ chunk ≠ [] ∧ n.conns[c]? = some k ∧ k.isOpen = true
  · obtain ⟨chunk, now, k, rfl, hne, hk, ho⟩ := hr
    have hp : c ∈ n.peers := mem_peers.2 ⟨k, hk, ho⟩
    obtain ⟨fs, rest, -, h2, h3, -, -⟩ := read_spec (H := H) n c chunk now k hk hne
    have hs : n.step H (.read c (.data chunk) now) = (n.handleRead H c (.data chunk) now).1 := by
      unfold Node.step
      simp only [if_pos hp]
    have hf : n.stepFrames H (.read c (.data chunk) now) c = fs := by
      unfold Node.stepFrames
      simp only
      rw [if_pos ⟨trivial, hp, hne⟩, hk]
      exact h3
    rw [hs, h2, hf]
    have hk2 : (n.received c chunk now).conns[c]? = _ := conns_upd_self n c _ hk
    exact all_acks (H := H) c now fs rest _ _ hk2 hm hl hlis ms (h.steps (Q := fun w _ _ => w = .rx)
      (ReflTransGen.single (Prim2.recv n c k chunk now hk rfl)) (fun t _ ht => by cases ht) hm hl)
  · have hf : n.stepFrames H e c = [] := by
      unfold Node.stepFrames
      split
      · rename_i c' chunk now
        split
        · rename_i hc
          obtain ⟨rfl, hp, hne⟩ := hc
          obtain ⟨k, hk, ho⟩ := mem_peers.1 hp
          exact absurd ⟨chunk, now, k, rfl, hne, hk, ho⟩ hr
        · rfl
      · rfl
    rw [hf]
    have := h.steps (steps2_step (H := H) (Q := e.stores) n e (fun _ _ _ h => h)) hq hm hl
    simpa [accepted] using this

theorem run_acks (n : Node) (hn : n.conns = []) (hl : n.magic.length = 4) (es : List Event) (c : Nat) (ho : Owner P c es)
    (hlis : (n.run H es).listening = true) :
    Acks H n.magic P (n.run H es) c (accepted H n.magic (n.handled H es c)) := by
  have key : ∀ (es : List Event) (m : Node) (ms : List Msg), m.magic = n.magic → Owner P c es → (m.run H es).listening = true → Acks H n.magic P m c ms →
      Acks H n.magic P (m.run H es) c (ms ++ accepted H n.magic (m.handled H es c)) := by
    intro es
    induction es with
    | nil =>
      intro m ms _ _ _ h
      simpa [Node.handled, accepted, Node.run] using h
    | cons e es ih =>
      intro m ms hm ho hlis h
      have h1 := step_acks (H := H) m e c ms hm hl (listened _ _ hlis) (owner_stores ho (List.mem_cons_self ..)) h
      have h2 := ih _ _ ((steps2_event (steps2_step (H := H) (Q := fun _ _ _ => True) m e (fun _ _ _ _ => trivial))).magic.trans hm)
        (fun t f h => ho t f (List.mem_cons_of_mem _ h)) hlis h1
      rw [run_cons, Node.handled]
      rw [hm] at h2
      unfold accepted at h2 ⊢
      rw [List.filterMap_append, ← List.append_assoc]
      exact h2
  have := key es n [] rfl ho hlis ⟨fun _ ⟨_, h, _⟩ => (nomatch h), fun k hk => by rw [hn] at hk; cases hk⟩
  simpa using this

/-- What the greeting says. -/
theorem greeting_parsed {n : Node} {agent : Bytes} (hn : Presentable n agent) {peer own : Bytes} (hp : peer.length = 16)
    (ho : own.length = 16) {port now : Int} (hport : inRange .H port) (hnow : Current now) {nonce : Bytes}
    (hl : nonce.length = 8) :
    IsFrame (greeting H n agent peer own port now nonce) ∧
    ∃ m, parseMessage H (greeting H n agent peer own port now nonce) n.magic = .ok m ∧ m.command = "version" ∧
      Says m (ipText peer) (.int 1) (.int n.height) (.bytes agent) (.int n.protocolVersion) (.int 0) := by
  have hlen : (versionPayload n.protocolVersion 1 (now / second) (peer, port) (own, n.address.2) nonce agent
      n.height).length < 2 ^ 32 := by
    unfold versionPayload netBytes
    simp only [List.length_append]
    have h1 := numBytes_len .i false n.protocolVersion
    have h2 := numBytes_len .Q false 1
    have h3 := numBytes_len .q false (now / second)
    have h4 := numBytes_len .H true port
    have h5 := numBytes_len .H true n.address.2
    have h6 := varSize_length agent.length
    have h7 := numBytes_len .i false n.height
    have h8 := numBytes_len .B false 0
    have := hn.short
    omega
  have hw : wFields versionSpec
      [("version", .int n.protocolVersion), ("services", .int services), ("timestamp", stamp now),
      ("addr_recv", .obj "NetworkAddress" (netVal now peer port)),
      ("addr_from", .obj "NetworkAddress" (netVal now own n.address.2)), ("nonce", .bytes nonce),
      ("user_agent", .str n.userAgent), ("start_height", .int n.height), ("relay", .int 0)]
      (versionPayload n.protocolVersion 1 (now / second) (peer, port) (own, n.address.2) nonce agent n.height)
      [("version", .int n.protocolVersion), ("services", .int 1), ("timestamp", .int (now / second)),
      ("addr_recv", .obj "NetworkAddress" (("timestamp", .int 0) ::
        [("services", .int 1), ("address", .str (ipText peer)), ("port", .int port)])),
      ("addr_from", .obj "NetworkAddress" (("timestamp", .int 0) ::
        [("services", .int 1), ("address", .str (ipText own)), ("port", .int n.address.2)])), ("nonce", .bytes nonce),
      ("user_agent", .bytes agent), ("start_height", .int n.height), ("relay", .int 0)] := by
    refine ⟨_, _, _, _, _, _, .inl ⟨n.protocolVersion, rfl, hn.version, rfl, rfl⟩,
      ⟨_, _, _, _, _, _, .inl ⟨1, rfl, by unfold inRange; decide, rfl, rfl⟩,
      ⟨_, _, _, _, _, _, stamp_wire hnow .q (.inr (by decide)) (by decide),
      ⟨_, _, _, _, _, _, net_wire hnow peer port hp hport,
      ⟨_, _, _, _, _, _, net_wire hnow own n.address.2 ho hn.port,
      ⟨_, nonce, _, _, _, _, ⟨hl, rfl, rfl⟩,
      ⟨_, _, _, _, _, _, ⟨agent, by have := hn.short; unfold varLimit; omega, .inr (by rw [hn.ua]; rfl), rfl, rfl⟩,
      ⟨_, _, _, _, _, _, .inl ⟨n.height, rfl, hn.height, rfl, rfl⟩,
      ⟨_, _, _, _, _, _, .inl ⟨0, rfl, by unfold inRange; decide, rfl, rfl⟩, ⟨rfl, rfl, rfl⟩, rfl, rfl, rfl⟩,
      rfl, rfl, rfl⟩, rfl, rfl, rfl⟩, rfl, rfl, rfl⟩, rfl, rfl, rfl⟩, rfl, rfl, rfl⟩, rfl, rfl, rfl⟩, rfl, rfl, rfl⟩,
      rfl, ?_, rfl⟩
    unfold versionPayload
    simp only [List.append_nil]
  obtain ⟨t, ht, htc, -, -, -, h2⟩ := C63_message H "version" versionSpec (List.mem_cons_self ..) _ _ _ n.magic [] hw hlen
    hn.magic
  rw [List.append_nil] at h2
  exact ⟨isFrame_wire (List.mem_cons_self ..) _ _ hn.magic hlen, _, h2, rfl, ⟨_, rfl, rfl⟩, rfl, rfl, rfl, rfl, rfl⟩

theorem head_of_prefix {g : Bytes} {fs : List Bytes} (hg : IsFrame g) (hf : ∀ f ∈ fs, IsFrame f) (hp : g <+: fs.flatten) :
    ∃ gs, fs = g :: gs := by
  obtain ⟨q, hq⟩ := hp
  cases fs with
  | nil =>
    exfalso
    have := hg.1
    rw [List.flatten_nil] at hq
    rw [(List.append_eq_nil_iff.1 hq).1] at this
    simp at this
  | cons f fs =>
    have hff := hf f (List.mem_cons_self ..)
    rw [List.flatten_cons] at hq
    have h1 := frameLength_append (r := q) hg.1
    have h2 := frameLength_append (r := fs.flatten) hff.1
    rw [hq, h2] at h1
    obtain ⟨e, -⟩ := List.append_inj hq (by rw [hg.2, hff.2, h1])
    exact ⟨fs, by rw [e]⟩

theorem accepted_command {t : MsgType} (ht : t ∈ registry) {fields : List (String × Val)} {f : Bytes}
    (h : t.binary H fields magic = .ok f) (hl : magic.length = 4) {m : Msg} (hm : parseMessage H f magic = .ok m) :
    m.command = t.command := by
  obtain ⟨payload, hp, rfl⟩ := wire_of_binary ht h
  have := parseMessage_frame H ht payload magic [] hl hp
  rw [List.append_nil, hm] at this
  obtain ⟨⟨o, kw⟩, -, h2⟩ := bind_ok_iff.1 this.symm
  cases h2
  rfl

theorem Fair2.fair {e : Event} (h : Fair2 e) : Fair e := by
  cases e <;> first | exact h | trivial

/-- A node as it starts, with settings it can tell its peers. -/
structure Starts (n : Node) (agent : Bytes) : Prop where
  present : Presentable n agent
  conns : n.conns = []
  addresses : n.addresses = []
  bootstrap : ∀ a ∈ n.bootstrap, IsAddr a
  guessed : IsIp n.guessedIp
  external : n.externalIp = []
  listening : n.listening = true

/-- What a connection tells of a peer with the settings of `n` and the user agent `agent` (which arrives as bytes), and
which connected to the address `seen`. -/
structure Knows (k : Conn) (n : Node) (agent : Bytes) (seen : Addr) : Prop where
  version : k.version = .int n.protocolVersion
  userAgent : k.userAgent = .bytes agent
  startHeight : k.startHeight = .int n.height
  services : k.services = .int 1
  relay : k.relay = .int 0
  externalIp : k.externalIp = some seen.1

/-- One half of the handshake: what `B` knows when it has received all that `A` sent. -/
theorem learns (A B : Node) (agent : Bytes) (hA : Starts A agent) (hB : B.conns = []) (hm : B.magic = A.magic)
    (es es' : List Event) (hes : ∀ e ∈ es, Fair2 e) (a b : Nat) (ho : Owner (fun t => t.command ≠ "version") a es)
    (k k' : Conn) (hk : (A.run H es).conns[a]? = some k) (hk' : (B.run H es').conns[b]? = some k') (hop : k.isOpen = true)
    (hs : B.stream H es' b = k.out) (hb : k.sendBuf = []) :
    Knows k' A agent k.address ∧ Introduced (accepted H B.magic (B.handled H es' b)) ∧
    (Introduced (accepted H A.magic (A.handled H es a)) → k'.verack = true) := by
  have hl := hA.present.magic
  obtain ⟨fs, hf, hack⟩ := (run_acks (H := H) A hA.conns hl es a ho
    (C98_listening_partial A agent hA.present hA.conns hA.guessed hA.external hA.listening es
      (fun e he => (hes e he).fair))).some k hk
  obtain ⟨peer, own, port, now, nonce, h1, h2, h3, h4, h5, h6, h7⟩ := C100_first_partial (H := H) A agent hA.present hA.conns
    hA.addresses hA.bootstrap hA.guessed hA.external es hes k (List.mem_of_getElem? hk) hop
  obtain ⟨g1, m, g2, g3, g4⟩ := greeting_parsed (H := H) hA.present h1 h2 h4 h5 h3
  have hfr : ∀ f ∈ fs, IsFrame f := fun f hf' => (hf.all f hf').frame hl
  have hB' := C67_stream (H := H) B hB es' b
  have hfl := hf.flat
  rw [hfl] at h7
  rw [hb, List.append_nil] at hfl
  rw [hs, hfl] at hB'
  obtain ⟨e, -⟩ := hB'.unique ⟨(List.append_nil _).symm, hfr, .inl (by decide)⟩
  obtain ⟨gs, rfl⟩ := head_of_prefix g1 hfr h7
  have hag := C105_description (H := H) B hB es' b
  have hd : descOf (B.run H es') b = descConn k' := by unfold descOf; rw [hk']; rfl
  rw [e, hd, hm] at hag
  rw [e, hm]
  have hacc : accepted H A.magic (greeting H A agent peer own port now nonce :: gs) = m :: accepted H A.magic gs := by
    unfold accepted
    rw [List.filterMap_cons, g2]
    rfl
  have hlater : ∀ m' ∈ accepted H A.magic gs, m'.command ≠ "version" := by
    intro m' hm' hv
    obtain ⟨f, hfm, hp⟩ := List.mem_filterMap.1 hm'
    obtain ⟨t, ht, hvt, fields, hbin⟩ := hf.later f hfm
    have hp' : parseMessage H f A.magic = .ok m' := by
      cases hx : parseMessage H f A.magic with
      | error e => rw [hx] at hp; cases hp
      | ok m1 => rw [hx] at hp; cases hp; rfl
    have := accepted_command ht hbin hl hp'
    exact hvt (this.symm.trans hv) (this.symm.trans hv)
  rw [hacc] at hag ⊢
  refine ⟨?_, ⟨m, List.mem_cons_self .., g3⟩, fun hi => ?_⟩
  · obtain ⟨ip, e1, e2⟩ := hag.known [] m _ rfl g3 hlater
    obtain ⟨f1, x1, x2⟩ := e2.recv
    obtain ⟨f2, y1, y2⟩ := g4.recv
    rw [x1] at y1
    cases y1
    rw [x2] at y2
    cases y2
    refine ⟨?_, ?_, ?_, ?_, ?_, ?_⟩
    · exact Except.ok.inj (e2.version.symm.trans g4.version)
    · exact Except.ok.inj (e2.userAgent.symm.trans g4.userAgent)
    · exact Except.ok.inj (e2.startHeight.symm.trans g4.startHeight)
    · exact Except.ok.inj (e2.services.symm.trans g4.services)
    · exact Except.ok.inj (e2.relay.symm.trans g4.relay)
    · rw [h6]
      exact e1
  · refine hag.verack.2 ?_
    have := hack hi
    rw [← hacc]
    obtain ⟨t, ht, htc, -, -, -, hp⟩ := C63_message H "verack" [] (by simp [messages]) [] [] [] A.magic []
      ⟨rfl, rfl, rfl⟩ (by decide) hl
    rw [List.append_nil] at hp
    exact ⟨_, List.mem_filterMap.2 ⟨_, this, by unfold ackFrame; rw [hp]; rfl⟩, rfl⟩

/-- C124: two nodes of the same coin that are connected to each other, whatever else happens to them, have completed the
handshake whenever all that they sent each other has arrived: both have acknowledged, and each knows the other's version,
user agent, height and services, and the ip under which the other sees it. -/
theorem C124_handshake (A B : Node) (agent agent' : Bytes) (hA : Starts A agent) (hB : Starts B agent')
    (hm : B.magic = A.magic) (es es' : List Event) (hes : ∀ e ∈ es, Fair2 e) (hes' : ∀ e ∈ es', Fair2 e) (a b : Nat)
    (ho : Owner (fun t => t.command ≠ "version") a es) (ho' : Owner (fun t => t.command ≠ "version") b es')
    (k k' : Conn) (hk : (A.run H es).conns[a]? = some k) (hk' : (B.run H es').conns[b]? = some k')
    (hop : k.isOpen = true) (hop' : k'.isOpen = true)
    (hs : B.stream H es' b = k.out) (hs' : A.stream H es a = k'.out) (hb : k.sendBuf = []) (hb' : k'.sendBuf = []) :
    k.verack = true ∧ k'.verack = true ∧ Knows k B agent' k'.address ∧ Knows k' A agent k.address := by
  obtain ⟨h1, h2, h3⟩ := learns A B agent hA hB.conns hm es es' hes a b ho k k' hk hk' hop hs hb
  obtain ⟨h1', h2', h3'⟩ := learns B A agent' hB hA.conns hm.symm es' es hes' b a ho' k' k hk' hk hop' hs' hb'
  exact ⟨h3' h2, h3 h2', h1', h1⟩

/-! ### Two nodes -/

/-- The node that is called. -/
def nodeB : Node := Node.init .py3 [1, 2, 3, 4] 70002 7 "/nbc/".toList ("10.0.0.2".toList, 9333) true 16 125 []

/-- What a connection of a node has sent. -/
def outOf (n : Node) (c : Nat) : Bytes := ((n.conns[c]?).map (·.out)).getD []

/-- The caller calls. -/
def callA : List Event :=
  [.addPeer ("10.0.0.2".toList, 9333) false true 5000 [0, 0, 0, 0, 0, 0, 0, 1], .write 0 (.sent 50) 5000,
    .write 0 (.sent 1000) 5000]

/-- The other accepts, reads the greeting in two pieces, and answers. -/
def callB : List Event :=
  [.accept (some ("10.0.0.1".toList, 40000)) 5000 5000 [0, 0, 0, 0, 0, 0, 0, 2],
    .read 0 (.data ((outOf ((node0 .py3 125).run Hashes.toy callA) 0).take 60)) 5000,
    .read 0 (.data ((outOf ((node0 .py3 125).run Hashes.toy callA) 0).drop 60)) 5000, .write 0 (.sent 1000) 5000]

/-- The caller reads the answer, acknowledges, and its owner sends a message. -/
def callA2 : List Event :=
  callA ++ [.read 0 (.data (outOf (nodeB.run Hashes.toy callB) 0)) 6000, .send 0 msgPong [("nonce", .bytes [1, 2, 3, 4, 5, 6, 7, 8])], .write 0 (.sent 1000) 6000]

/-- The other reads that. -/
def callB2 : List Event :=
  callB ++ [.read 0 (.data ((outOf ((node0 .py3 125).run Hashes.toy callA2) 0).drop
    (outOf ((node0 .py3 125).run Hashes.toy callA) 0).length)) 6000]

/-- All that was sent has arrived. -/
example : ((node0 .py3 125).run Hashes.toy callA2).conns.map (fun k => (k.isOpen, k.sendBuf, k.verack)) = [(true, [], true)] ∧
    (nodeB.run Hashes.toy callB2).conns.map (fun k => (k.isOpen, k.sendBuf, k.verack)) = [(true, [], true)] ∧
    nodeB.stream Hashes.toy callB2 0 = outOf ((node0 .py3 125).run Hashes.toy callA2) 0 ∧
    (node0 .py3 125).stream Hashes.toy callA2 0 = outOf (nodeB.run Hashes.toy callB2) 0 ∧
    (nodeB.handled Hashes.toy callB2 0).length = 3 ∧
    (accepted Hashes.toy [1, 2, 3, 4] (nodeB.handled Hashes.toy callB2 0)).map (·.command) = ["version", "verack", "pong"] := by
  decide +kernel

theorem starts_A : Starts (node0 .py3 125) [47, 110, 98, 99, 47] :=
  ⟨node0_presentable _ _, rfl, rfl, fun _ h => (nomatch h), ip_10_0_0_1, rfl, rfl⟩

theorem ip_10_0_0_2 : IsIp "10.0.0.2".toList := ⟨v4Prefix ++ [10, 0, 0, 2], by decide, by decide⟩

theorem starts_B : Starts nodeB [47, 110, 98, 99, 47] :=
  ⟨⟨rfl, show inRange .i 70002 by unfold inRange; decide, show inRange .i 7 by unfold inRange; decide,
    show "/nbc/".toList = latin [47, 110, 98, 99, 47] by decide, by decide, show inRange .H 9333 by unfold inRange; decide⟩,
    rfl, rfl, fun _ h => (nomatch h), ip_10_0_0_2, rfl, rfl⟩

example : (∀ e ∈ callA2, Fair2 e) ∧ Owner (fun t => t.command ≠ "version") 0 callA2 := by
  refine ⟨fun e he => ?_, fun t f h => ?_⟩
  · simp only [callA2, callA, List.cons_append, List.nil_append, List.mem_cons, List.not_mem_nil, or_false] at he
    rcases he with rfl | rfl | rfl | rfl | rfl | rfl
    · exact ⟨⟨ip_10_0_0_2, by unfold inRange; decide⟩, by unfold Current; decide, rfl⟩
    all_goals trivial
  · simp only [callA2, callA, List.cons_append, List.nil_append, List.mem_cons, List.not_mem_nil, or_false, reduceCtorEq,
      false_or, Event.send.injEq] at h
    obtain ⟨-, rfl, -⟩ := h
    exact ⟨by simp [registry], by decide⟩

example : (∀ e ∈ callB2, Fair2 e) ∧ Owner (fun t => t.command ≠ "version") 0 callB2 := by
  refine ⟨fun e he => ?_, fun t f h => ?_⟩
  · simp only [callB2, callB, List.cons_append, List.nil_append, List.mem_cons, List.not_mem_nil, or_false] at he
    rcases he with rfl | rfl | rfl | rfl | rfl
    · refine ⟨fun a h => ?_, by unfold Current; decide, rfl⟩
      cases h
      exact ⟨ip_10_0_0_1, by unfold inRange; decide⟩
    all_goals trivial
  · simp [callB2, callB] at h

end NBC.Props
