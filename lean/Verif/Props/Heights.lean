import Verif.Model.Heights
import Mathlib.Data.Rat.Defs
import Mathlib.Algebra.Order.Ring.Rat
import Mathlib.Data.List.Nodup
import Mathlib.Data.List.Dedup
import Mathlib.Tactic.Linarith

/-!
# Block heights from other sources: C116, C117
-/

namespace NBC.Props

open NBC NBC.Heights

/-! ### C116 -/

theorem waits_time {timeout t0 now e : Rat} {ws : List Worker} (h : Waits timeout t0 ws now e)
    (hn : now ≤ t0 + max timeout 0) : now ≤ e ∧ e ≤ t0 + max timeout 0 := by
  induction h with
  | none now => exact ⟨le_refl _, hn⟩
  | «break» now w ws h => exact ⟨le_refl _, hn⟩
  | join now now' e w ws h0 h1 h2 h3 _ _ ih =>
    have ht : 0 ≤ timeout := not_lt.1 h0
    rw [max_eq_left ht] at hn ih ⊢
    have hw : max (timeout - (now - t0)) 0 = timeout - (now - t0) := max_eq_left (by linarith)
    rw [hw] at h2
    obtain ⟨i1, i2⟩ := ih (by linarith)
    exact ⟨le_trans h1 i1, i2⟩

theorem waits_done {timeout t0 now e : Rat} {ws : List Worker} (h : Waits timeout t0 ws now e)
    (ht : 0 ≤ timeout) (hn : now ≤ t0 + timeout) : e = t0 + timeout ∨ ∀ w ∈ ws, w.doneBy e := by
  induction h with
  | none now => right; simp
  | «break» now w ws h => exact absurd ht (not_le.2 h)
  | join now now' e w ws h0 h1 h2 h3 _ h5 ih =>
    have hw : max (timeout - (now - t0)) 0 = timeout - (now - t0) := max_eq_left (by linarith)
    rw [hw] at h2 h3
    have he := waits_time h5 (by rw [max_eq_left ht]; linarith)
    rw [max_eq_left ht] at he
    rcases ih (by linarith) with h | h
    · left; exact h
    · rcases h3 with h3 | h3
      · right
        intro x hx
        rcases List.mem_cons.1 hx with rfl | hx
        · obtain ⟨d, hd1, hd2⟩ := h3
          exact ⟨d, hd1, le_trans hd2 he.1⟩
        · exact h x hx
      · left
        linarith

theorem mem_store {d : List (String × Option Int)} {k : String} {v : Option Int} {p : String × Option Int} :
    p ∈ store d k v ↔ (p ∈ d ∧ p.1 ≠ k) ∨ p = (k, v) := by
  simp [store]

/-- What is stored by workers with different names. -/
theorem mem_results (ws : List Worker) (hn : (ws.map (·.name)).Nodup) (k : String) (v : Option Int) :
    (k, v) ∈ results ws ↔ ∃ w ∈ ws, w.name = k ∧ w.value = some v := by
  unfold results
  have key : ∀ (ws : List Worker) (d : List (String × Option Int)), (ws.map (·.name)).Nodup →
      (∀ p ∈ d, p.1 ∉ ws.map (·.name)) →
      ((k, v) ∈ ws.foldl (fun d w => match w.value with
        | some v => store d w.name v
        | none => d) d ↔ (k, v) ∈ d ∨ ∃ w ∈ ws, w.name = k ∧ w.value = some v) := by
    intro ws
    induction ws with
    | nil => intro d _ _; simp
    | cons w ws ih =>
      intro d hn hd
      rw [List.map_cons, List.nodup_cons] at hn
      rw [List.foldl_cons]
      cases hv : w.value with
      | none =>
        simp only
        rw [ih d hn.2 (fun p hp => fun h => hd p hp (by simp [h]))]
        simp [hv]
      | some x =>
        simp only
        rw [ih (store d w.name x) hn.2]
        · rw [mem_store]
          constructor
          · rintro ((⟨h1, -⟩ | h1) | ⟨w', h1, h2⟩)
            · exact .inl h1
            · injection h1 with h1 h2
              exact .inr ⟨w, by simp, h1.symm, by rw [hv, h2]⟩
            · exact .inr ⟨w', by simp [h1], h2⟩
          · rintro (h1 | ⟨w', h1, h2, h3⟩)
            · refine .inl (.inl ⟨h1, ?_⟩)
              have := hd _ h1
              simp only [List.map_cons, List.mem_cons, not_or] at this
              exact this.1
            · rcases List.mem_cons.1 h1 with rfl | h1
              · rw [hv] at h3
                injection h3 with h3
                exact .inl (.inr (by rw [h2, h3]))
              · exact .inr ⟨w', h1, h2, h3⟩
        · intro p hp
          rcases mem_store.1 hp with ⟨h1, -⟩ | rfl
          · have := hd p h1
            simp only [List.map_cons, List.mem_cons, not_or] at this
            exact this.2
          · exact hn.1
  exact (key ws [] hn (by simp)).trans (by simp)

theorem nodup_names {ws order : List Worker} (hn : (ws.map (·.name)).Nodup) (ho : order.Nodup)
    (h : ∀ w ∈ order, w ∈ ws) : (order.map (·.name)).Nodup := by
  have hinj : ∀ a ∈ ws, ∀ b ∈ ws, a.name = b.name → a = b := by
    intro a ha b hb hab
    exact List.inj_on_of_nodup_map hn ha hb hab
  exact ho.map_on (fun a ha b hb hab => hinj a (h a ha) b (h b hb) hab)

/-- C116, for sources with different names: `guess_block_height` returns within the timeout, at once for a
negative one; before the timeout is over it returns only when every source is done; the answer has exactly the
values of the sources that are done. -/
theorem C116_guess (workers : List Worker) (timeout t0 e : Rat) (r : List (String × Option Int))
    (hn : (workers.map (·.name)).Nodup) (h : Guess workers timeout t0 e r) :
    t0 ≤ e ∧ e ≤ t0 + max timeout 0 ∧
    (0 ≤ timeout → e < t0 + timeout → ∀ w ∈ workers, w.doneBy e) ∧
    ∀ k v, (k, v) ∈ r ↔ ∃ w ∈ workers, w.doneBy e ∧ w.name = k ∧ w.value = some v := by
  obtain ⟨hw, order, ho, hm, rfl⟩ := h
  obtain ⟨h1, h2⟩ := waits_time hw (by have := le_max_right timeout 0; linarith)
  refine ⟨h1, h2, ?_, ?_⟩
  · intro ht he
    rcases waits_done hw ht (by linarith) with h | h
    · exact absurd h (ne_of_lt he)
    · exact h
  · intro k v
    rw [mem_results order (nodup_names hn ho (fun w hw => ((hm w).1 hw).1))]
    constructor
    · rintro ⟨w, h3, h4⟩
      obtain ⟨h5, h6⟩ := (hm w).1 h3
      exact ⟨w, h5, h6, h4⟩
    · rintro ⟨w, h3, h4, h5⟩
      exact ⟨w, (hm w).2 ⟨h3, h4⟩, h5⟩

/-- C116: a run to the end exists for all sources and timeouts. -/
theorem C116_returns (workers : List Worker) (timeout t0 : Rat) : ∃ e r, Guess workers timeout t0 e r := by
  classical
  have hw : ∀ (ws : List Worker) (now : Rat), ∃ e, Waits timeout t0 ws now e := by
    intro ws
    induction ws with
    | nil => exact fun now => ⟨now, .none now⟩
    | cons w ws ih =>
      intro now
      by_cases ht : timeout < 0
      · exact ⟨now, .break now w ws ht⟩
      · have hle : now ≤ now + max (timeout - (now - t0)) 0 := by
          have := le_max_right (timeout - (now - t0)) 0
          linarith
        by_cases hd : ∃ d, w.done = some d ∧ d ≤ now + max (timeout - (now - t0)) 0
        · obtain ⟨d, hd1, hd2⟩ := hd
          obtain ⟨e, he⟩ := ih (max now d)
          refine ⟨e, .join now (max now d) e w ws ht (le_max_left _ _) (max_le hle hd2)
            (.inl ⟨d, hd1, le_max_right _ _⟩) ?_ he⟩
          rintro t h1 h2 ⟨d', h3, h4⟩
          rw [hd1] at h3
          injection h3 with h3
          subst h3
          exact absurd h2 (not_lt.2 (max_le h1 h4))
        · obtain ⟨e, he⟩ := ih (now + max (timeout - (now - t0)) 0)
          refine ⟨e, .join now _ e w ws ht hle (le_refl _) (.inr rfl) ?_ he⟩
          rintro t h1 h2 ⟨d', h3, h4⟩
          exact hd ⟨d', h3, by linarith⟩
  obtain ⟨e, he⟩ := hw workers t0
  exact ⟨e, _, he, (workers.filter (fun w => decide (w.doneBy e))).dedup, List.nodup_dedup _,
    fun w => by simp, rfl⟩

/-- One source answers after 2 seconds, one never: after 5 seconds the first answer is returned. -/
example : Guess [⟨"a", some 2, some (some 100)⟩, ⟨"b", none, none⟩] 5 0 5 [("a", some 100)] := by
  refine ⟨.join 0 2 5 _ _ (by norm_num) (by norm_num) (by norm_num) (.inl ⟨2, rfl, by norm_num⟩) ?_
    (.join 2 5 5 _ _ (by norm_num) (by norm_num) (by norm_num) (.inr (by norm_num)) ?_ (.none 5)),
    [⟨"a", some 2, some (some 100)⟩], by simp, ?_, rfl⟩
  · rintro t h1 h2 ⟨d, h3, h4⟩
    simp only [Option.some.injEq] at h3
    subst h3
    linarith
  · rintro t h1 h2 ⟨d, h3, h4⟩
    cases h3
  · intro w
    simp only [List.mem_cons, List.not_mem_nil, or_false]
    constructor
    · rintro rfl
      exact ⟨.inl rfl, 2, rfl, by norm_num⟩
    · rintro ⟨rfl | rfl, d, h, -⟩
      · rfl
      · cases h

/-! ### C117 -/

/-- What a path leads to: keys in objects, positions in lists. -/
inductive Leads (index : String → Option Nat) : Json → List String → Json → Prop
  | here (j : Json) : Leads index j [] j
  | key (d : List (String × Json)) (k : String) (j t : Json) (cs : List String) (before after : List (String × Json)) :
      d = before ++ (k, j) :: after → (∀ p ∈ after, p.1 ≠ k) → Leads index j cs t → Leads index (.dict d) (k :: cs) t
  | item (l : List Json) (c : String) (i : Nat) (j t : Json) (cs : List String) :
      index c = some i → l[i]? = some j → Leads index j cs t → Leads index (.list l) (c :: cs) t

/-- No list on the way. -/
inductive NoList : Json → List String → Prop
  | here (j : Json) : NoList j []
  | key (d : List (String × Json)) (k : String) (cs : List String) :
      (∀ p ∈ d, p.1 = k → NoList p.2 cs) → NoList (.dict d) (k :: cs)
  | other (j : Json) (k : String) (cs : List String) : (∀ l, j ≠ .list l) → (∀ d, j ≠ .dict d) → NoList j (k :: cs)

theorem key_ok {d : List (String × Json)} {k : String} {j : Json} :
    Json.key d k = .ok j ↔ ∃ before after, d = before ++ (k, j) :: after ∧ ∀ p ∈ after, p.1 ≠ k := by
  unfold Json.key
  constructor
  · intro h
    split at h
    · rename_i p hp
      injection h with h
      subst h
      obtain ⟨h1, as, bs, h2, h3⟩ := List.find?_eq_some_iff_append.1 hp
      simp only [decide_eq_true_eq] at h1
      refine ⟨bs.reverse, as.reverse, ?_, ?_⟩
      · rw [← d.reverse_reverse, h2]
        subst h1
        simp
      · intro q hq
        have := h3 q (List.mem_reverse.1 hq)
        simpa using this
    · cases h
  · rintro ⟨before, after, rfl, h⟩
    have : (before ++ (k, j) :: after).reverse.find? (fun p => p.1 = k) = some (k, j) := by
      rw [List.find?_eq_some_iff_append]
      refine ⟨by simp, after.reverse, before.reverse, by simp, ?_⟩
      intro a ha
      have := h a (List.mem_reverse.1 ha)
      simpa using this
    rw [this]

theorem walk_leads {index : String → Option Nat} {data : Json} {path : List String} {t : Json}
    (h : walk data path = .ok (some t)) : Leads index data path t := by
  induction path generalizing data with
  | nil =>
    simp only [walk, Except.ok.injEq, Option.some.injEq] at h
    subst h
    exact .here _
  | cons c cs ih =>
    cases data with
    | dict d =>
      simp only [walk] at h
      cases hk : Json.key d c with
      | error e => rw [hk] at h; cases h
      | ok j =>
        rw [hk] at h
        obtain ⟨b, a, h1, h2⟩ := key_ok.1 hk
        exact .key d c j t cs b a h1 h2 (ih h)
    | _ => cases h

theorem leads_walk {index : String → Option Nat} {data : Json} {path : List String} {t : Json}
    (h : Leads index data path t) (hn : NoList data path) : walk data path = .ok (some t) := by
  induction h with
  | here j => rfl
  | key d k j t cs b a h1 h2 _ ih =>
    have hk : Json.key d k = .ok j := key_ok.2 ⟨b, a, h1, h2⟩
    simp only [walk, hk]
    refine ih ?_
    cases hn with
    | key _ _ _ h => exact h (k, j) (by rw [h1]; simp) rfl
    | other _ _ _ _ h => exact absurd rfl (h d)
  | item l c i j t cs _ _ _ _ =>
    cases hn with
    | other _ _ _ h _ => exact absurd rfl (h l)

/-- C117: a value is never made up; and for data without a list on the way it is found exactly when it is
there.  Missing: lists on the way (`C117_list_false`). -/
theorem C117_path_partial (index : String → Option Nat) (text : List Char → Py Int) (data : Json)
    (path : List String) (i : Int) :
    (fetchPath text data path = some i → ∃ t, Leads index data path t ∧ toInt text t = .ok i) ∧
    (NoList data path → (fetchPath text data path = some i ↔ ∃ t, Leads index data path t ∧ toInt text t = .ok i)) := by
  have h1 : fetchPath text data path = some i → ∃ t, Leads index data path t ∧ toInt text t = .ok i := by
    intro h
    unfold fetchPath at h
    split at h
    · rename_i d hd
      split at h
      · rename_i j hj
        injection h with h
        subst h
        exact ⟨d, walk_leads hd, hj⟩
      · cases h
    · cases h
    · cases h
  refine ⟨h1, fun hn => ⟨h1, ?_⟩⟩
  rintro ⟨t, h2, h3⟩
  unfold fetchPath
  rw [leads_walk h2 hn]
  simp only [h3]

/-- C117 fails: nothing is ever found in a list. -/
theorem C117_list_false (text : List Char → Py Int) (l : List Json) (c : String) (cs : List String) :
    fetchPath text (.list l) (c :: cs) = none := rfl

/-- The path of `blockr.io` in `nbc/coins/newbitcoin.py:59`. -/
example (text : List Char → Py Int) : fetchPath text
    (.dict [("data", .dict [("last_block", .dict [("nb", .int 314159)])])]) ["data", "last_block", "nb"] =
    some 314159 := rfl

end NBC.Props
