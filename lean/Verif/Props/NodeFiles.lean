import Verif.Model.NodeFiles
import Verif.Props.NodeClose

/-!
# Property C168: running out of files
-/

namespace NBC.Props
open NBC NBC.Spec NBC.Spec.Wire NBC.Proto NBC.P2P

variable {H : Hashes}

theorem runF_cons (limit : Nat) (n : Node) (e : Event) (es : List Event) :
    n.runF H limit (e :: es) = (n.stepF H limit e).runF H limit es := rfl

theorem stepF_below {limit : Nat} {n : Node} (h : mapCount n < limit) (e : Event) : n.stepF H limit e = n.step H e := by
  rw [← mapSize_eq] at h
  cases e with
  | accept => rw [Node.stepF, if_neg (fun x => absurd x.2 (by omega))]
  | addPeer => rw [Node.stepF, decide_eq_true h, Bool.and_true]
  | _ => rfl

/-- There is a file left before every one of the events. -/
def Spare (H : Hashes) (limit : Nat) : Node → List Event → Prop
  | _, [] => True
  | n, e :: es => mapCount n < limit ∧ Spare H limit (n.stepF H limit e) es

theorem runF_below {limit : Nat} (es : List Event) (n : Node) (h : Spare H limit n es) :
    n.runF H limit es = n.run H es := by
  induction es generalizing n with
  | nil => rfl
  | cons e es ih => rw [runF_cons, ih _ h.2, stepF_below h.1, run_cons]

/-- C168, what holds: while there are files left, the node of C98 listens.  Missing: `C168_files_false`. -/
theorem C168_spare_partial (limit : Nat) (n : Node) (agent : Bytes) (hn : Starts n agent) (es : List Event)
    (he : ∀ e ∈ es, Fair e) (hs : Spare H limit n es) : (n.runF H limit es).listening = true := by
  rw [runF_below es n hs]
  exact C98_listening_partial n agent hn.present hn.conns hn.guessed hn.external hn.listening es he

theorem deafF (limit : Nat) (es : List Event) (n : Node) (hn : n.listening = false) : (n.runF H limit es).listening = false := by
  induction es generalizing n with
  | nil => exact hn
  | cons e es ih =>
    rw [runF_cons]
    refine ih _ ?_
    have key : ∀ e, (n.step H e).listening = false := fun e => deaf_run [e] n hn
    cases e with
    | accept =>
      rw [Node.stepF]
      split
      · rfl
      · exact key _
    | addPeer => exact key _
    | _ => exact key _

/-- **C168 is false.**  Whatever the limit and `max_peers` are, one peer that connects as often as there are files stops the node
listening, and nothing that happens later, such as its going away, makes it listen again. -/
theorem C168_files_false (limit : Nat) (hlim : 0 < limit) (n : Node) (agent : Bytes) (hn : Starts n agent) (hi : n.listen = true)
    (hb : n.banned = []) (a : Addr) (ha : IsAddr a) (now : Int) (hnow : Current now) (nonce : Bytes)
    (hno : nonce.length = 8) (es : List Event) :
    (n.runF H limit (List.replicate limit (.accept (some a) now now nonce) ++ es)).listening = false := by
  have hcount := C77_unbounded (H := H) n agent hn.present hn.conns hn.guessed hn.external hn.listening hi hb a ha now hnow
    nonce hno
  have hrun : ∀ N, N < limit → n.runF H limit (List.replicate N (.accept (some a) now now nonce)) =
      n.run H (List.replicate N (.accept (some a) now now nonce)) := by
    intro N
    induction N with
    | zero => exact fun _ => rfl
    | succ N ih =>
      intro hN
      rw [List.replicate_succ', Node.runF, List.foldl_append, run_append]
      have h1 := ih (by omega)
      unfold Node.runF at h1
      rw [h1, List.foldl_cons, List.foldl_nil, run_cons]
      exact stepF_below (by rw [hcount N]; omega) _
  obtain ⟨M, rfl⟩ : ∃ M, limit = M + 1 := ⟨limit - 1, by omega⟩
  rw [Node.runF, List.foldl_append]
  refine deafF _ es _ ?_
  rw [List.replicate_succ', List.foldl_append]
  have h1 := hrun M (by omega)
  unfold Node.runF at h1
  rw [h1]
  have h2 := hcount M
  rw [← mapSize_eq] at h2
  rw [List.foldl_cons, List.foldl_nil, Node.stepF]
  by_cases hl : (n.run H (List.replicate M (.accept (some a) now now nonce))).listening = true
  · rw [if_pos ⟨hl, by omega⟩]
  · rw [if_neg (fun x => hl x.1)]
    exact deaf_run [.accept (some a) now now nonce] _ (by simpa using hl)

/-! ### `select` -/

/-- C168: with all files below 1024 it is the turn of C149. -/
theorem C168_small (file : Option Nat → Nat) (hf : ∀ x, file x < 1024) (n : Node) (t : Turn) : n.pollF H file t = n.poll H t := by
  have : ∀ l : List (Option Nat), (l.map file).any (fun f => decide (fdSetSize ≤ f)) = false := by
    intro l
    rw [List.any_eq_false]
    intro f hm
    obtain ⟨x, -, rfl⟩ := List.mem_map.1 hm
    have := hf x
    unfold fdSetSize
    simp only [decide_eq_true_eq]
    omega
  unfold Node.pollF Node.poll
  generalize n.items H t.now t.envs t.choice = r
  obtain ⟨m, o⟩ := r
  cases o with
  | some e => rfl
  | none =>
    simp only
    generalize m.askAll H t.reads m.peers = r
    obtain ⟨m, o⟩ := r
    cases o with
    | error e => rfl
    | ok asked =>
      simp only
      have h := this ((if m.listening then [none] else []) ++ asked.map some)
      rw [List.map_append, List.map_map] at h
      have h2 : (if m.listening then [(none : Option Nat)] else []).map file = if m.listening then [file none] else [] := by
        split <;> rfl
      rw [h2] at h
      rw [if_neg (by
        intro hx
        rw [show (asked.map (fun c => file (some c))) = asked.map (file ∘ some) from rfl] at hx
        rw [h] at hx
        cases hx)]
      rfl

theorem nodup_below {l : List Nat} (hd : l.Nodup) {N : Nat} (h : ∀ x ∈ l, x < N) : l.length ≤ N := by
  have := (List.Nodup.subperm hd (l₂ := List.range N) (fun x hx => List.mem_range.2 (h x hx))).length_le
  rwa [List.length_range] at this

theorem steps_askAll_listening (reads : Nat → Reading) (cs : List Nat) (n : Node) :
    (n.askAll H reads cs).1.listening = n.listening := by
  induction cs generalizing n with
  | nil => rfl
  | cons c cs ih =>
    have h : (n.ask H c (reads c)).1.listening = n.listening := by
      have h := steps2_inv (P := fun m => m.listening = n.listening) (fun a b hp ha => by
        rw [← ha]
        exact listening_prim hp (fun hq => by cases hq))
        (steps_readable (H := H) (Q := fun w _ _ => w = .ping) n c (reads c).now (reads c).now' (reads c).nonce rfl).two rfl
      unfold Node.ask
      generalize n.readable H c (reads c).now (reads c).now' (reads c).nonce = r at h
      obtain ⟨m, b⟩ := r
      cases b <;> exact h
    rw [Node.askAll]
    generalize n.ask H c (reads c) = r at h
    obtain ⟨m, b⟩ := r
    cases b with
    | error e => exact h
    | ok b =>
      have h2 := ih m
      simp only at h ⊢
      generalize m.askAll H reads cs = q at h2
      obtain ⟨m2, b2⟩ := q
      cases b2 <;> exact h2.trans h

/-- **C168 is false where more than 1024 files may be open**: with as many sockets (on which nothing was received, so that
none is closed for its silence) the turn raises `ValueError`, whatever numbers the files have, and the loop of the node ends. -/
theorem C168_select_false (file : Option Nat → Nat) (hf : Function.Injective file) (n : Node) (hm : n.magic.length = 4)
    (hn : Mute n) (hp : 1024 < mapCount n) (t : Turn) (hr : ∀ c, (t.reads c).nonce.length = 8) :
    (n.pollF H file t).2 = .error .valueError := by
  have hst := steps2_step (H := H) (Q := Event.stores (.items t.now t.envs t.choice)) n
    (.items t.now t.envs t.choice) (fun _ _ _ h => h)
  have h1 : Mute (n.step H (.items t.now t.envs t.choice)) := mute_steps (fun _ _ h => h) (fun _ _ h => h) hst hn
  have h1m : (n.step H (.items t.now t.envs t.choice)).magic = n.magic := (steps2_same hst).magic
  have h1l : (n.step H (.items t.now t.envs t.choice)).listening = n.listening :=
    steps2_inv (P := fun m => m.listening = n.listening) (fun a b hp ha => by
      rw [← ha]
      exact listening_prim hp (fun hq => hq)) hst rfl
  have hsub : ∀ c ∈ n.peers, c ∈ (n.step H (.items t.now t.envs t.choice)).peers := by
    intro c hc
    obtain ⟨k, hk, ho⟩ := mem_peers.1 hc
    obtain ⟨b, extra, hk1, -⟩ := items_conn (H := H) n hm t.now t.envs t.choice c k hk
    exact mem_peers.2 ⟨_, hk1, ho⟩
  have hi := (C98_loop (H := H) n hm).1 t.now t.envs t.choice
  rw [Node.step] at h1 h1m h1l hsub
  unfold Node.pollF
  generalize n.items H t.now t.envs t.choice = r at hi h1 h1m h1l hsub
  obtain ⟨p, o⟩ := r
  cases hi
  simp only at h1 h1m h1l hsub ⊢
  have hask := steps_askAll_listening (H := H) t.reads p.peers p
  obtain ⟨m, asked, e1, e0, e2, -, e4⟩ := askAll_spec (H := H) t.reads hr p.peers (peers_nodup p) p
    (by rw [h1m]; exact hm) (fun c hc => by obtain ⟨k, hk, -⟩ := mem_peers.1 hc; exact ⟨k, hk⟩)
  rw [e1] at hask ⊢
  simp only at hask ⊢
  rw [if_pos]
  by_contra hx
  have hsmall : ∀ f ∈ (if m.listening then [file none] else []) ++ asked.map (fun c => file (some c)), f < 1024 := by
    intro f hfm
    by_contra hge
    refine hx (List.any_eq_true.2 ⟨f, hfm, ?_⟩)
    unfold fdSetSize
    simp only [decide_eq_true_eq]
    omega
  have hasked : ∀ c ∈ n.peers, c ∈ asked := by
    intro c hc
    obtain ⟨k, hk, -⟩ := mem_peers.1 (hsub c hc)
    exact (e4 c).2 ⟨hsub c hc, k, hk, .inl (fun hs => hs.1 (h1 k (List.mem_of_getElem? hk)))⟩
  have hlen := nodup_below (l := ((if n.listening then [none] else []) ++ n.peers.map some).map file) (N := 1024)
    (List.Nodup.map hf (by
      have hps : (n.peers.map some).Nodup := (peers_nodup n).map (fun a b h => by injection h)
      split
      · rw [List.singleton_append, List.nodup_cons]
        exact ⟨by simp, hps⟩
      · exact hps)) (by
      intro x hxm
      obtain ⟨y, hy, rfl⟩ := List.mem_map.1 hxm
      apply hsmall
      rw [List.mem_append] at hy ⊢
      rcases hy with hy | hy
      · rw [hask, h1l]
        left
        split at hy
        · rw [if_pos (by assumption), List.mem_singleton.1 hy]
          exact List.mem_singleton.2 rfl
        · cases hy
      · obtain ⟨c, hc, rfl⟩ := List.mem_map.1 hy
        exact .inr (List.mem_map.2 ⟨c, hasked c hc, rfl⟩))
  rw [List.length_map, List.length_append, List.length_map, peers_length] at hlen
  unfold mapCount at hp
  have : (if n.listening = true then [(none : Option Nat)] else []).length = if n.listening = true then 1 else 0 := by
    split <;> rfl
  omega

theorem mute_accept (n : Node) (hn : Mute n) (a : Option Addr) (now : Int) (nonce : Bytes) (N : Nat) :
    Mute (n.run H (List.replicate N (.accept a now now nonce))) := by
  induction N generalizing n with
  | zero => exact hn
  | succ N ih =>
    rw [List.replicate_succ, run_cons]
    refine ih _ ?_
    exact mute_steps (Q := Event.stores (.accept a now now nonce)) (fun _ _ h => by cases h) (fun _ _ h => by cases h)
      (steps2_step (H := H) n (.accept a now now nonce) (fun _ _ _ h => h)) hn

/-- That happens: one peer connects 1024 times to a new node that may have more files, sends nothing, and the next turn of the loop
raises. -/
theorem C168_flood_false (file : Option Nat → Nat) (hf : Function.Injective file) (n : Node) (agent : Bytes) (hn : Starts n agent)
    (hi : n.listen = true) (hb : n.banned = []) (a : Addr) (ha : IsAddr a) (now : Int) (hnow : Current now) (nonce : Bytes)
    (hno : nonce.length = 8) (N : Nat) (hN : 1024 ≤ N) (t : Turn) (hr : ∀ c, (t.reads c).nonce.length = 8) :
    ((n.run H (List.replicate N (.accept (some a) now now nonce))).pollF H file t).2 = .error .valueError := by
  have hcount := C77_unbounded (H := H) n agent hn.present hn.conns hn.guessed hn.external hn.listening hi hb a ha now hnow
    nonce hno N
  refine C168_select_false file hf _ ?_ (mute_accept n (by intro k hk; rw [hn.conns] at hk; cases hk) _ _ _ N) (by omega) t hr
  have key : ∀ (es : List Event) (n : Node), (n.run H es).magic = n.magic := by
    intro es
    induction es with
    | nil => exact fun _ => rfl
    | cons e es ih =>
      intro n
      rw [run_cons, ih]
      exact (steps2_same (steps2_step (H := H) (Q := fun _ _ _ => True) n e (fun _ _ _ _ => trivial))).magic
  rw [key]
  exact hn.present.magic

/-! ### Cases -/

/-- `node0` meets the hypotheses of the theorems: the usual limit of 1024 files, and a peer. -/
example (es : List Event) : ((node0 .py3 125).runF Hashes.toy 1024 (List.replicate 1024
    (.accept (some ("10.0.0.2".toList, 4000)) 5000 5000 [0, 0, 0, 0, 0, 0, 0, 1]) ++ es)).listening = false :=
  C168_files_false 1024 (by decide) _ _ starts_A rfl rfl _ ⟨ip_10_0_0_2, by unfold inRange; decide⟩ 5000
    (by unfold Current; decide) _ rfl es

/-- A limit of three files: two connections are taken, the third stops the node; and when one of the two has gone before, it does
not. -/
example :
    let a := fun (p : Int) => Event.accept (some ("10.0.0.2".toList, p)) 5000 5000 [0, 0, 0, 0, 0, 0, 0, 1]
    ((node0 .py3 125).runF Hashes.toy 3 [a 4000, a 4001]).listening = true ∧
    ((node0 .py3 125).runF Hashes.toy 3 [a 4000, a 4001, a 4002]).listening = false ∧
    ((node0 .py3 125).runF Hashes.toy 3 [a 4000, a 4001, .close 0, a 4002]).listening = true := by
  decide +kernel

example : Spare Hashes.toy 3 (node0 .py3 125) [.accept (some ("10.0.0.2".toList, 4000)) 5000 5000 [0, 0, 0, 0, 0, 0, 0, 1],
    .addPeer ("10.0.0.3".toList, 9333) true true 5000 [0, 0, 0, 0, 0, 0, 0, 2]] := by
  refine ⟨?_, ?_, trivial⟩ <;> decide +kernel

/-- Files numbered in order, from 3. -/
example : Function.Injective (fun x : Option Nat => match x with | none => 3 | some c => c + 4) := by
  intro x y h
  cases x <;> cases y <;> simp at h ⊢
  exact h

end NBC.Props
