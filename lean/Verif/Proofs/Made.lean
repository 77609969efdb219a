import Verif.Model.Node
import Verif.Proofs.PyBind
import Verif.Spec.Built

/-!
# The messages that a node makes of its own accord
-/

namespace NBC.P2P
open NBC NBC.Proto NBC.Spec.Built

theorem number_built {f : Fmt} {big af : Bool} {w v : Val} (h : (ftNumber f big af).validate w = .ok v)
    (hn : v.isNone = false) : Built w := by
  simp only [ftNumber] at h
  unfold numValidate at h
  split at h
  · exact .int _
  · exact .float _ _
  · cases h
    cases hn

theorem bytes_built {n : Nat} {w v : Val} (h : (ftBytes n).validate w = .ok v) (hn : v.isNone = false) : Built w := by
  simp only [ftBytes] at h
  split at h
  · exact .bytes _
  · cases h
    cases hn

theorem newNetworkAddress_built {t s v : Val} {ip : List Char} {port : Int}
    (h : newNetworkAddress t s ip port = .ok v) : Built v := by
  unfold newNetworkAddress at h
  obtain ⟨f, hf, h⟩ := bind_ok_iff.1 h
  injection h with h
  subst h
  have hf' := hf
  unfold compInit at hf'
  simp only at hf'
  split_ifs at hf'
  simp only [networkAddress, initLoop, List.map_cons, List.map_nil, List.zip_cons_cons, List.append_nil] at hf'
  obtain ⟨w1, hw1, g1⟩ := bind_ok_iff.1 hf'
  obtain ⟨v1, hv1, g2⟩ := bind_ok_iff.1 g1
  obtain rfl : t = w1 := by simpa [getField] using hw1
  split_ifs at g2 with h1
  obtain ⟨r, g3, -⟩ := bind_ok_iff.1 g2
  obtain ⟨w2, hw2, g4⟩ := bind_ok_iff.1 g3
  obtain ⟨v2, hv2, g5⟩ := bind_ok_iff.1 g4
  obtain rfl : s = w2 := by simpa [getField] using hw2
  split_ifs at g5 with h2
  refine .obj networkAddress (by simp [classes]) _ [] f ?_ (by simp) hf
  intro x hx
  simp only [List.mem_cons, List.not_mem_nil, or_false] at hx
  rcases hx with rfl | rfl | rfl | rfl
  · exact number_built hv1 (by simpa using h1)
  · exact number_built hv2 (by simpa using h2)
  · exact .str _
  · exact .int _

theorem collect_built {l : List (Addr × Val × Val)} {acc out : List Val} (ha : ∀ v ∈ acc, Built v)
    (h : collect l acc = .ok out) : ∀ v ∈ out, Built v := by
  induction l generalizing acc with
  | nil =>
    cases h
    exact ha
  | cons e l ih =>
    obtain ⟨a, t, s⟩ := e
    unfold collect at h
    split_ifs at h
    · exact ih ha h
    · obtain ⟨v, hv, h⟩ := bind_ok_iff.1 h
      have hb : ∀ x ∈ acc ++ [v], Built x := by
        intro x hx
        rcases List.mem_append.1 hx with hx | hx
        · exact ha x hx
        · rw [List.mem_singleton.1 hx]
          exact newNetworkAddress_built hv
      split_ifs at h
      · cases h
        exact hb
      · exact ih hb h

theorem versionFields_made {n : Node} {a : Addr} {now : Int} {nonce : Bytes} {fields : List (String × Val)}
    (h : n.versionFields a now nonce = .ok fields) : Constructed msgVersion fields := by
  unfold Node.versionFields at h
  obtain ⟨r, hr, h⟩ := bind_ok_iff.1 h
  obtain ⟨f, hf, h⟩ := bind_ok_iff.1 h
  refine ⟨_, _, by simp, ?_, h⟩
  simp only [List.forall_mem_cons, List.not_mem_nil, false_imp_iff, implies_true, and_true]
  exact ⟨.int _, .int _, .float _ _, newNetworkAddress_built hr, newNetworkAddress_built hf, .bytes _, .str _, .int _, .int _⟩

theorem pong_made {v : Val} {fields : List (String × Val)} (h : compInit msgPong.props [v] [] = .ok fields) : Built v := by
  unfold compInit at h
  simp only at h
  split_ifs at h
  simp only [msgPong, initLoop, List.map_cons, List.map_nil, List.zip_cons_cons, List.append_nil] at h
  obtain ⟨w1, hw1, g1⟩ := bind_ok_iff.1 h
  obtain ⟨v1, hv1, g2⟩ := bind_ok_iff.1 g1
  obtain rfl : v = w1 := by simpa [getField] using hw1
  split_ifs at g2 with h1
  exact bytes_built hv1 (by simpa using h1)

end NBC.P2P
