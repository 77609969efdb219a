import Verif.Model.PeerTable

/-!
# C164: a node used by two threads

The table of connections has no lock.  What does a thread see that lists the peers while the other one changes the table?
-/

namespace NBC.Props
open NBC NBC.P2P NBC.Proto

/-! ### Reading without interference -/

theorem scan_none {l : Table} {p : Nat} (h : Table.scan p l = none) : Table.values l = [] := by
  induction l generalizing p with
  | nil => rfl
  | cons e l ih =>
    cases e with
    | none => exact ih h
    | some q => cases h

theorem scan_some {l : Table} {p q : Nat} {o : Chan} (h : Table.scan p l = some (o, q)) :
    p < q ∧ Table.values l = o :: Table.values (l.drop (q - p)) := by
  induction l generalizing p with
  | nil => cases h
  | cons e l ih =>
    cases e with
    | none =>
      obtain ⟨h1, h2⟩ := ih h
      refine ⟨by omega, ?_⟩
      rw [show q - p = (q - (p + 1)) + 1 by omega, List.drop_succ_cons]
      exact h2
    | some x =>
      obtain ⟨fd, o'⟩ := x
      simp only [Table.scan, Option.some.injEq, Prod.mk.injEq] at h
      obtain ⟨rfl, rfl⟩ := h
      refine ⟨by omega, ?_⟩
      rw [show p + 1 - p = 1 by omega]
      rfl

theorem scan_drop {t : Table} {p q : Nat} {o : Chan} (h : Table.scan p (t.drop p) = some (o, q)) :
    p < q ∧ Table.values (t.drop p) = o :: Table.values (t.drop q) := by
  obtain ⟨h1, h2⟩ := scan_some h
  rw [List.drop_drop, show p + (q - p) = q by omega] at h2
  exact ⟨h1, h2⟩

/-- Steps without interference read what one step would. -/
theorem listRest_quiet (t : Table) (k : Nat) : ∀ pos, listRest t.used pos t (List.replicate k []) =
    .ok (Table.values (t.drop pos)) := by
  induction k with
  | zero => intro pos; simp [listRest]
  | succ k ih =>
    intro pos
    rw [List.replicate_succ]
    unfold listRest
    simp only [Table.writes, List.foldl_nil, ne_eq, not_true_eq_false, if_false]
    cases h : Table.scan pos (t.drop pos) with
    | none => simp only [scan_none h]
    | some x =>
      obtain ⟨o, q⟩ := x
      simp only [(scan_drop h).2]
      rw [ih q]
      rfl

/-- **C164**, what holds: as long as the other thread leaves the table alone (and always in Python 2) the connections are
listed as they are. -/
theorem C164_alone_partial (ver : Aes.PyVer) (t : Table) (k : Nat) :
    peersOf ver t (List.replicate k []) = .ok (t.values.filterMap Chan.conn?) ∧
    ∀ sched, peersOf .py2 t sched = .ok (t.values.filterMap Chan.conn?) := by
  refine ⟨?_, fun _ => rfl⟩
  cases ver with
  | py2 => rfl
  | py3 =>
    unfold peersOf
    simp only
    rw [listRest_quiet t k 0]
    rfl

example : peersOf .py3 [some (3, .listener), some (5, .conn 0), none, some (6, .conn 2)] (List.replicate 2 []) =
    .ok [0, 2] := by decide

/-! ### Reading with interference -/

/-- The table before the `k`-th call of `next` is answered. -/
def tableAt (t : Table) (sched : List (List Write)) (k : Nat) : Table := t.writes (sched.take k).flatten

theorem tableAt_zero (t : Table) (sched : List (List Write)) : tableAt t sched 0 = t := rfl

theorem tableAt_succ (t : Table) (ws : List Write) (sched : List (List Write)) (k : Nat) :
    tableAt t (ws :: sched) (k + 1) = tableAt (t.writes ws) sched k := by
  unfold tableAt Table.writes
  rw [List.take_succ_cons, List.flatten_cons, List.foldl_append]

theorem listRest_sound (used : Nat) (sched : List (List Write)) : ∀ (pos : Nat) (t : Table) (l : List Chan),
    listRest used pos t sched = .ok l → ∀ o ∈ l, ∃ k, o ∈ (tableAt t sched k).values := by
  induction sched with
  | nil =>
    intro pos t l h o ho
    unfold listRest at h
    split at h
    · cases h
    · cases h
      refine ⟨0, ?_⟩
      obtain ⟨e, he, hv⟩ := List.mem_filterMap.1 ho
      exact List.mem_filterMap.2 ⟨e, List.mem_of_mem_drop he, hv⟩
  | cons ws sched ih =>
    intro pos t l h o ho
    unfold listRest at h
    simp only at h
    split at h
    · cases h
    · cases hs : Table.scan pos ((t.writes ws).drop pos) with
      | none =>
        rw [hs] at h
        cases h
        cases ho
      | some x =>
        obtain ⟨o', q⟩ := x
        rw [hs] at h
        simp only at h
        cases hr : listRest used q (t.writes ws) sched with
        | error e => rw [hr] at h; cases h
        | ok rest =>
          rw [hr] at h
          cases h
          rcases List.mem_cons.1 ho with rfl | ho
          · refine ⟨1, ?_⟩
            rw [tableAt_succ, tableAt_zero]
            have := (scan_drop hs).2
            have hm : o ∈ Table.values ((t.writes ws).drop pos) := by rw [this]; exact List.mem_cons_self
            obtain ⟨e, he, hv⟩ := List.mem_filterMap.1 hm
            exact List.mem_filterMap.2 ⟨e, List.mem_of_mem_drop he, hv⟩
          · obtain ⟨k, hk⟩ := ih q (t.writes ws) rest hr o ho
            exact ⟨k + 1, by rw [tableAt_succ]; exact hk⟩

/-- **C164**: whatever the other thread does, every connection that is listed was in the table at some moment of the call. -/
theorem C164_listed (ver : Aes.PyVer) (t : Table) (sched : List (List Write)) (l : List Nat) (h : peersOf ver t sched = .ok l)
    (c : Nat) (hc : c ∈ l) : ∃ k, Chan.conn c ∈ (tableAt t sched k).values := by
  have key : ∀ m : List Chan, c ∈ m.filterMap Chan.conn? → Chan.conn c ∈ m := by
    intro m hm
    obtain ⟨o, ho, he⟩ := List.mem_filterMap.1 hm
    cases o with
    | listener => cases he
    | conn c' => cases he; exact ho
  cases ver with
  | py2 => cases h; exact ⟨0, key _ hc⟩
  | py3 =>
    unfold peersOf at h
    simp only at h
    cases hr : listRest t.used 0 t sched with
    | error e => rw [hr] at h; cases h
    | ok m =>
      rw [hr] at h
      cases h
      exact listRest_sound _ _ _ _ _ hr _ (key _ hc)

theorem listRest_error (used : Nat) (sched : List (List Write)) : ∀ (pos : Nat) (t : Table) (e : PyErr),
    listRest used pos t sched = .error e → e = .runtimeError ∧ ∃ k, (tableAt t sched k).used ≠ used := by
  induction sched with
  | nil =>
    intro pos t e h
    unfold listRest at h
    split at h
    · rename_i hu
      cases h
      exact ⟨rfl, 0, hu⟩
    · cases h
  | cons ws sched ih =>
    intro pos t e h
    unfold listRest at h
    simp only at h
    split at h
    · rename_i hu
      cases h
      exact ⟨rfl, 1, by rw [tableAt_succ, tableAt_zero]; exact hu⟩
    · cases hs : Table.scan pos ((t.writes ws).drop pos) with
      | none => rw [hs] at h; cases h
      | some x =>
        obtain ⟨o', q⟩ := x
        rw [hs] at h
        simp only at h
        cases hr : listRest used q (t.writes ws) sched with
        | ok rest => rw [hr] at h; cases h
        | error e' =>
          rw [hr] at h
          cases h
          obtain ⟨h1, k, hk⟩ := ih _ _ _ hr
          exact ⟨h1, k + 1, by rw [tableAt_succ]; exact hk⟩

/-- **C164**: listing raises nothing but `RuntimeError`, and only if the number of entries was another one at some moment. -/
theorem C164_raised (ver : Aes.PyVer) (t : Table) (sched : List (List Write)) (e : PyErr) (h : peersOf ver t sched = .error e) :
    ver = .py3 ∧ e = .runtimeError ∧ ∃ k, (tableAt t sched k).used ≠ t.used := by
  cases ver with
  | py2 => cases h
  | py3 =>
    unfold peersOf at h
    simp only at h
    cases hr : listRest t.used 0 t sched with
    | ok m => rw [hr] at h; cases h
    | error e' =>
      rw [hr] at h
      cases h
      exact ⟨rfl, listRest_error _ _ _ _ _ hr⟩

/-! ### Connections nobody touches -/

theorem write_keeps {t : Table} {w : Write} {fd j : Nat} {o : Chan} (h : t[j]? = some (some (fd, o))) (hw : w.fd ≠ fd)
    (hr : w.resizes = false) : (t.write w)[j]? = some (some (fd, o)) := by
  have hb : (fd == w.fd) = false := by simpa using fun hh => hw hh.symm
  cases w with
  | del fd' =>
    simp only [Table.write, List.getElem?_map, h, Option.map_some, Option.any_some]
    simp only [Write.fd] at hb
    simp [hb]
  | add fd' o' r =>
    simp only [Write.resizes] at hr
    subst hr
    simp only [Write.fd] at hb
    unfold Table.write
    simp only
    split
    · simp only [List.getElem?_map, h, Option.map_some, Option.any_some]
      simp [hb]
    · simp only [Bool.false_eq_true, if_false]
      rw [List.getElem?_append_left (List.getElem?_eq_some_iff.1 h).1]
      exact h

theorem writes_keep {ws : List Write} {fd j : Nat} {o : Chan} : ∀ {t : Table}, t[j]? = some (some (fd, o)) →
    (∀ w ∈ ws, w.fd ≠ fd ∧ w.resizes = false) → (t.writes ws)[j]? = some (some (fd, o)) := by
  induction ws with
  | nil => intro t h _; exact h
  | cons w ws ih =>
    intro t h hw
    obtain ⟨h1, h2⟩ := hw w List.mem_cons_self
    exact ih (write_keeps h h1 h2) (fun w' hm => hw w' (List.mem_cons_of_mem _ hm))

theorem scan_upto {l : Table} {p i fd : Nat} {o : Chan} (h : l[i]? = some (some (fd, o))) :
    ∃ o' q, Table.scan p l = some (o', q) ∧ (q ≤ p + i ∨ q = p + i + 1 ∧ o' = o) := by
  induction l generalizing p i with
  | nil => simp at h
  | cons e l ih =>
    cases e with
    | some x =>
      obtain ⟨fd', o'⟩ := x
      refine ⟨o', p + 1, rfl, ?_⟩
      cases i with
      | zero => simp only [List.getElem?_cons_zero, Option.some.injEq, Prod.mk.injEq] at h; exact Or.inr ⟨rfl, h.2⟩
      | succ i => exact Or.inl (by omega)
    | none =>
      cases i with
      | zero => simp at h
      | succ i =>
        obtain ⟨o', q, h1, h2⟩ := ih (p := p + 1) (by simpa using h)
        refine ⟨o', q, h1, ?_⟩
        rcases h2 with h2 | ⟨h2, h3⟩
        · exact Or.inl (by omega)
        · exact Or.inr ⟨by omega, h3⟩

theorem listRest_complete (used : Nat) (fd : Nat) (o : Chan) (j : Nat) (sched : List (List Write)) :
    ∀ (pos : Nat) (t : Table) (l : List Chan), (∀ ws ∈ sched, ∀ w ∈ ws, w.fd ≠ fd ∧ w.resizes = false) →
    t[j]? = some (some (fd, o)) → pos ≤ j → listRest used pos t sched = .ok l → o ∈ l := by
  induction sched with
  | nil =>
    intro pos t l _ hj hp h
    unfold listRest at h
    split at h
    · cases h
    · cases h
      refine List.mem_filterMap.2 ⟨some (fd, o), ?_, rfl⟩
      rw [show j = pos + (j - pos) by omega, ← List.getElem?_drop] at hj
      exact List.mem_of_getElem? hj
  | cons ws sched ih =>
    intro pos t l hw hj hp h
    have hj' := writes_keep hj (hw ws List.mem_cons_self)
    unfold listRest at h
    simp only at h
    split at h
    · cases h
    · have hd : ((t.writes ws).drop pos)[j - pos]? = some (some (fd, o)) := by
        rw [List.getElem?_drop, show pos + (j - pos) = j by omega]
        exact hj'
      obtain ⟨o', q, hs, hq⟩ := scan_upto (p := pos) hd
      rw [hs] at h
      simp only at h
      cases hr : listRest used q (t.writes ws) sched with
      | error e => rw [hr] at h; cases h
      | ok rest =>
        rw [hr] at h
        cases h
        rcases hq with hq | ⟨-, rfl⟩
        · exact List.mem_cons_of_mem _ (ih q _ rest (fun ws' hm => hw ws' (List.mem_cons_of_mem _ hm)) hj' (by omega) hr)
        · exact List.mem_cons_self

/-- **C164**, what holds: if listing does not raise and the dictionary is not moved meanwhile, no connection that stayed in
the table is left out.  Missing: `C164_missed_false`. -/
theorem C164_kept_partial (ver : Aes.PyVer) (t : Table) (sched : List (List Write)) (l : List Nat) (fd c : Nat)
    (hm : some (fd, Chan.conn c) ∈ t) (hw : ∀ ws ∈ sched, ∀ w ∈ ws, w.fd ≠ fd ∧ w.resizes = false)
    (h : peersOf ver t sched = .ok l) : c ∈ l := by
  obtain ⟨j, hj, he⟩ := List.getElem_of_mem hm
  have hj' : t[j]? = some (some (fd, .conn c)) := by rw [List.getElem?_eq_getElem hj, he]
  cases ver with
  | py2 =>
    cases h
    exact List.mem_filterMap.2 ⟨.conn c, List.mem_filterMap.2 ⟨_, hm, rfl⟩, rfl⟩
  | py3 =>
    unfold peersOf at h
    simp only at h
    cases hr : listRest t.used 0 t sched with
    | error e => rw [hr] at h; cases h
    | ok m =>
      rw [hr] at h
      cases h
      exact List.mem_filterMap.2 ⟨.conn c, listRest_complete _ _ _ j _ _ _ _ hw hj' (by omega) hr, rfl⟩

/-- one connection closed and another accepted while the peers are listed -/
example : some (6, Chan.conn 1) ∈ [some (3, Chan.listener), some (5, .conn 0), some (6, .conn 1)] ∧
    peersOf .py3 [some (3, .listener), some (5, .conn 0), some (6, .conn 1)]
      [[], [], [.del 5, .add 7 (.conn 2) false]] = .ok [0, 1, 2] := by decide

/-- **C164 is false**: a connection nobody touched is left out, without an exception, when the dictionary is moved. -/
theorem C164_missed_false : ∃ (t : Table) (sched : List (List Write)) (l : List Nat), some (5, Chan.conn 0) ∈ t ∧
    (∀ ws ∈ sched, ∀ w ∈ ws, w.fd ≠ 5) ∧ peersOf .py3 t sched = .ok l ∧ 0 ∉ l :=
  ⟨[some (4, .conn 7), some (5, .conn 0), some (6, .conn 1)], [[], [.del 4, .add 7 (.conn 2) true]], [7, 1, 2],
    by decide, by decide, by decide, by decide⟩

/-! ### One change -/

theorem used_append (t u : Table) : Table.used (t ++ u) = t.used + u.used := by
  simp [Table.used]

theorem used_filter (t : Table) : Table.used (t.filter Option.isSome) = t.used := by
  simp [Table.used]

theorem used_del_le (t : Table) (fd : Nat) : (t.write (.del fd)).used ≤ t.used := by
  induction t with
  | nil => exact Nat.le_refl _
  | cons e t ih =>
    simp only [Table.write, Table.used, List.map_cons] at ih ⊢
    cases e with
    | none => simpa using ih
    | some x =>
      simp only [Option.any_some]
      split
      · simp only [List.filter_cons, Option.isSome_none, Option.isSome_some, Bool.false_eq_true, if_false, if_true,
          List.length_cons]
        omega
      · simp only [List.filter_cons, Option.isSome_some, if_true, List.length_cons]
        omega

theorem used_del {t : Table} {fd : Nat} (h : t.has fd = true) : (t.write (.del fd)).used < t.used := by
  induction t with
  | nil => cases h
  | cons e t ih =>
    have hle := used_del_le t fd
    simp only [Table.write, Table.used, Table.has, List.map_cons, List.any_cons, Bool.or_eq_true] at ih h hle ⊢
    cases e with
    | none =>
      rcases h with h | h
      · cases h
      · simpa using ih h
    | some x =>
      simp only [Option.any_some] at h ⊢
      split
      · simp only [List.filter_cons, Option.isSome_none, Option.isSome_some, Bool.false_eq_true, if_false, if_true,
          List.length_cons]
        omega
      · rename_i hne
        have := ih (h.resolve_left hne)
        simp only [List.filter_cons, Option.isSome_some, if_true, List.length_cons]
        omega

theorem used_add {t : Table} {fd : Nat} {o : Chan} {r : Bool} (h : t.has fd = false) :
    (t.write (.add fd o r)).used = t.used + 1 := by
  unfold Table.write
  simp only [h, Bool.false_eq_true, if_false]
  split
  · rw [used_append, used_filter]; rfl
  · rw [used_append]; rfl

theorem values_length (t : Table) : t.values.length = t.used := by
  induction t with
  | nil => rfl
  | cons e t ih =>
    cases e with
    | none => simpa [Table.values, Table.used] using ih
    | some x => simpa [Table.values, Table.used] using ih

theorem listRest_late {t : Table} {w : Write} (hw : (t.write w).used ≠ t.used) (k : Nat) : ∀ pos,
    k ≤ (Table.values (t.drop pos)).length →
    listRest t.used pos t (List.replicate k [] ++ [[w]]) = .error .runtimeError := by
  induction k with
  | zero =>
    intro pos _
    simp only [List.replicate_zero, List.nil_append]
    unfold listRest
    simp only
    rw [if_pos (show (t.writes [w]).used ≠ t.used from hw)]
  | succ k ih =>
    intro pos hk
    rw [List.replicate_succ, List.cons_append]
    unfold listRest
    simp only [Table.writes, List.foldl_nil, ne_eq, not_true_eq_false, if_false]
    cases h : Table.scan pos (t.drop pos) with
    | none => rw [scan_none h] at hk; simp at hk
    | some x =>
      obtain ⟨o, q⟩ := x
      rw [(scan_drop h).2, List.length_cons] at hk
      simp only
      rw [ih q (by omega)]
      rfl

/-- A change of the other thread that adds an entry or takes one out. -/
inductive Changes (t : Table) : Write → Prop
  | add {fd : Nat} {o : Chan} {r : Bool} : t.has fd = false → Changes t (.add fd o r)
  | del {fd : Nat} : t.has fd = true → Changes t (.del fd)

/-- **C164 is false** in Python 3: one connection added or removed by the other thread, after any number of steps from the
first to the last, makes the property `peers` raise `RuntimeError`, whatever the table. -/
theorem C164_changed_false (t : Table) (w : Write) (hw : Changes t w) (k : Nat) (hk : k ≤ t.used) :
    peersOf .py3 t (List.replicate k [] ++ [[w]]) = .error .runtimeError := by
  have hu : (t.write w).used ≠ t.used := by
    cases hw with
    | add h => rw [used_add h]; omega
    | del h => exact (used_del h).ne
  unfold peersOf
  simp only
  rw [listRest_late hu k 0 (by rw [List.drop_zero, values_length]; exact hk)]
  rfl

example : Changes [some (3, .listener), some (5, .conn 0)] (.add 6 (.conn 1) false) ∧
    1 ≤ Table.used [some (3, .listener), some (5, .conn 0)] := ⟨.add (by decide), by decide⟩

/-- **C164 is false**: this stops the node.  If a connection is opened by `add_peer`, or closed by `remove_peer` or
`node.close()`, in the program's thread while the heartbeat of the serving thread lists the peers, the loop ends with
`RuntimeError` and the listener is closed. -/
theorem C164_stops_false (H : Hashes) (n : Node) (turn : Turn) (t : Table) (w : Write) (hw : Changes t w) (k : Nat)
    (hk : k ≤ t.used) (ts : List Turn) (hv : n.ver = .py3) (hn : 0 < n.mapSize)
    (hb : turn.now - n.lastHeartbeat > 10 * second) :
    n.serveT H turn t (List.replicate k [] ++ [[w]]) ts =
      ({ n with lastHeartbeat := turn.now, listening := false }, .raised .runtimeError) := by
  unfold Node.serveT Node.pollT Node.truthy
  simp only [hv, hn, decide_true, if_true, hb, C164_changed_false t w hw k hk]

/-- the first heartbeat of a node that another thread closes -/
example : ((Node.init .py3 [1, 2, 3, 4] 70002 0 "/nbc/".toList ([], 9333) true 16 125 []).serveT Hashes.toy
    ⟨20 * second, [], 0, fun _ => ⟨0, 0, []⟩, []⟩ [some (3, .listener)] [[], [.del 3]] []).2 = .raised .runtimeError := by
  decide +kernel

/-- **C164**: in Python 2 it does not: the turn is the one without the other thread. -/
theorem C164_py2 (H : Hashes) (n : Node) (turn : Turn) (t : Table) (sched : List (List Write)) (hv : n.ver = .py2) :
    n.pollT H turn t sched = n.poll H turn := by
  unfold Node.pollT
  rw [hv]
  simp only [peersOf]
  split <;> rfl

end NBC.Props
