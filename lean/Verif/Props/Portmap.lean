import Verif.Model.Portmap
import Mathlib.Tactic.ByContra
import Mathlib.Order.Basic

/-!
# Port mappings: C118
-/

namespace NBC.Props

open NBC NBC.Portmap

theorem setEntry_same (t : Int → Option Entry) (p : Int) (e : Option Entry) : setEntry t p e p = e := by
  simp [setEntry]

theorem setEntry_other (t : Int → Option Entry) {p q : Int} (e : Option Entry) (h : q ≠ p) :
    setEntry t p e q = t q := by
  simp [setEntry, h]

/-- The port found is the first one from `p` on that is free, or 65536. -/
theorem freePort_spec (t : Int → Option Entry) (p : Int) (hp : p ≤ 65536) :
    p ≤ freePort t p ∧ freePort t p ≤ 65536 ∧ (∀ q, p ≤ q → q < freePort t p → (t q).isSome) ∧
    (freePort t p < 65536 → t (freePort t p) = none) := by
  induction p using freePort.induct (table := t) with
  | case1 p h ih =>
    rw [freePort, if_pos h]
    obtain ⟨h1, h2, h3, h4⟩ := ih (by omega)
    refine ⟨by omega, h2, ?_, h4⟩
    intro q hq1 hq2
    by_cases hq : q = p
    · rw [hq]; exact h.1
    · exact h3 q (by omega) hq2
  | case2 p h =>
    rw [freePort, if_neg h]
    refine ⟨Int.le_refl _, hp, fun q h1 h2 => by omega, fun h2 => ?_⟩
    cases ht : t p with
    | none => rfl
    | some e => exact absurd ⟨by simp [ht], h2⟩ h

/-- C118: a listening node on a platform with `miniupnpc`, with a free port at the router: the loop runs; while it
runs the external port leads to the node and every other mapping is as before; afterwards the table is as it was
before, however the loop ended.  Missing: other platforms (`C118_platform_false`), a port that is taken
(`C118_taken_false`), a router without free ports (`C118_full_false`). -/
theorem C118_portmap_partial (w : World) (port : Int) (lan : String) (loop : Py Unit)
    (hd : w.darwin ∨ w.upnp) (hs : w.upnp ∨ w.discovers) (hg : w.gateway)
    (ha : w.allowsAdd port) (hr : w.allowsDelete port) (hf : w.table port = none) :
    let r := serveForever w true port lan loop
    r.entered ∧ r.result = loop ∧ r.during port = some ⟨lan, port⟩ ∧ (∀ q, q ≠ port → r.during q = w.table q) ∧
    r.after.table = w.table := by
  have hfp : freePort w.table port = port := by
    rw [freePort, if_neg (by simp [hf])]
  have hadd : ∃ w', addPortmap w port lan = .ok w' ∧ w'.table = setEntry w.table port (some ⟨lan, port⟩) ∧
      w'.upnp ∧ w'.allowsDelete = w.allowsDelete := by
    unfold addPortmap initUpnp
    by_cases hu : w.upnp
    · refine ⟨_, by simp [hu, hg, hfp, ha, bind, Except.bind]; rfl, ?_⟩
      simp
    · have hd' := hd.resolve_right hu
      have hs' := hs.resolve_left hu
      refine ⟨_, by simp [hu, hd', hs', hg, hfp, ha, bind, Except.bind]; rfl, ?_⟩
      simp
  obtain ⟨w', h1, h2, h3, h4⟩ := hadd
  simp only [serveForever, h1, if_true]
  refine ⟨trivial, trivial, ?_, ?_, ?_⟩
  · rw [h2, setEntry_same]
  · intro q hq
    rw [h2, setEntry_other _ _ hq]
  · rw [removePortmap, if_neg (by simp [h3]), h4, if_pos hr]
    funext q
    simp only [h2]
    by_cases hq : q = port
    · rw [hq, setEntry_same, hf]
    · rw [setEntry_other _ _ hq, setEntry_other _ _ hq]

/-- C118: while the node runs, nobody else's mapping has been changed, if some port from its own on is free. -/
theorem C118_others_partial (w : World) (port : Int) (lan : String) (loop : Py Unit)
    (hfree : ∃ q, port ≤ q ∧ q < 65536 ∧ w.table q = none) (q : Int) (e : Entry) (he : w.table q = some e) :
    (serveForever w true port lan loop).during q = some e := by
  obtain ⟨f, hf1, hf2, hf3⟩ := hfree
  obtain ⟨h1, h2, h3, h4⟩ := freePort_spec w.table port (by omega)
  have hlt : freePort w.table port < 65536 := by
    by_contra hc
    have := h3 f hf1 (by omega)
    simp [hf3] at this
  have hne : q ≠ freePort w.table port := by
    rintro rfl
    rw [h4 hlt] at he
    cases he
  unfold serveForever
  rw [if_pos rfl]
  split
  · exact he
  · rename_i w' hw
    unfold addPortmap initUpnp at hw
    have key : ∀ v : World, v.table = w.table →
        (if (¬ (true : Bool) = true) ∨ ¬ v.gateway = true then (.ok v : Py World)
          else if v.allowsAdd (freePort v.table port) then
            .ok { v with table := setEntry v.table (freePort v.table port) (some ⟨lan, port⟩) } else .ok v) =
          .ok w' → w'.table q = some e := by
      intro v hv hw
      split at hw
      · injection hw with hw
        rw [← hw, hv]; exact he
      · split at hw
        · injection hw with hw
          rw [← hw]
          simp only [hv]
          rw [setEntry_other _ _ hne]; exact he
        · injection hw with hw
          rw [← hw, hv]; exact he
    by_cases hu : w.upnp
    · rw [if_pos hu] at hw
      exact key w rfl hw
    · rw [if_neg hu] at hw
      by_cases hd : w.darwin
      · rw [if_neg (by simp [hd])] at hw
        by_cases hs : w.discovers
        · rw [if_pos hs] at hw
          exact key { w with upnp := true } rfl hw
        · rw [if_neg hs] at hw
          simp only [bind, Except.bind, Bool.false_eq_true, not_false_eq_true, true_or, if_true,
            Except.ok.injEq] at hw
          rw [← hw]; exact he
      · rw [if_pos hd] at hw
        cases hw

/-- C118 fails where `miniupnpc` is not imported: a listening node never enters its loop. -/
theorem C118_platform_false (w : World) (port : Int) (lan : String) (loop : Py Unit) (hd : w.darwin = false)
    (hu : w.upnp = false) :
    (serveForever w true port lan loop).entered = false ∧
    (serveForever w true port lan loop).result = .error .nameError := by
  simp [serveForever, addPortmap, initUpnp, hd, hu, bind, Except.bind]

/-- A router whose port 8333 is taken by another host. -/
def taken : World where
  darwin := true
  upnp := false
  discovers := true
  gateway := true
  allowsAdd _ := true
  allowsDelete _ := true
  table := fun p => if p = 8333 then some ⟨"192.168.0.9", 8333⟩ else none

/-- C118 fails when the port is taken: after the node has ended, the other host's mapping is gone and the node's
own, at the next port, is still there. -/
theorem C118_taken_false (loop : Py Unit) :
    let r := serveForever taken true 8333 "192.168.0.2" loop
    taken.table 8333 = some ⟨"192.168.0.9", 8333⟩ ∧ r.after.table 8333 = none ∧
    r.after.table 8334 = some ⟨"192.168.0.2", 8333⟩ := by
  have h : freePort taken.table 8333 = 8334 := by
    rw [freePort, if_pos (by simp [taken]), freePort, if_neg (by simp [taken])]
    rfl
  have h' : freePort (fun p : Int => if p = 8333 then some (⟨"192.168.0.9", 8333⟩ : Entry) else none) 8333 = 8334 := h
  simp [serveForever, addPortmap, initUpnp, taken, bind, Except.bind, h', removePortmap, setEntry]

/-- C118 fails when no port from the node's on is free: a mapping of the port 65536, which does not exist, is asked
for. -/
theorem C118_full_false (t : Int → Option Entry) (port : Int) (hp : port ≤ 65536)
    (hall : ∀ q, port ≤ q → q < 65536 → (t q).isSome) : freePort t port = 65536 := by
  obtain ⟨h1, h2, h3, h4⟩ := freePort_spec t port hp
  by_contra hc
  have := hall _ h1 (by omega)
  rw [h4 (by omega)] at this
  cases this

/-- A free router: the hypotheses of the first theorem hold. -/
example : (serveForever { taken with table := fun _ => none } true 8333 "192.168.0.2" (.ok ())).during 8333 =
    some ⟨"192.168.0.2", 8333⟩ :=
  (C118_portmap_partial { taken with table := fun _ => none } 8333 "192.168.0.2" (.ok ()) (.inl rfl)
    (.inr rfl) rfl rfl rfl rfl).2.2.1

/-- The hypothesis of the second theorem holds of `taken`. -/
example : (serveForever taken true 8333 "192.168.0.2" (.ok ())).during 8333 = some ⟨"192.168.0.9", 8333⟩ :=
  C118_others_partial taken 8333 "192.168.0.2" (.ok ()) ⟨8334, by decide, by decide, by simp [taken]⟩ 8333 _
    (by simp [taken])

end NBC.Props
