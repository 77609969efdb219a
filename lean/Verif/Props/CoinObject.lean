import Verif.Model.CoinObject
import Verif.Spec.Text
import Verif.Proofs.Aes
import Mathlib.Data.List.Induction

/-!
# C173: coins compared, ordered, and used as keys
-/

namespace NBC.Props
open NBC NBC.Aes NBC.Coins NBC.Spec

theorem cmpStr_eq (s t : Bytes) : cmpStr s t = .eq ↔ s = t := by
  induction s generalizing t with
  | nil => cases t <;> simp [cmpStr]
  | cons a s ih =>
    cases t with
    | nil => simp [cmpStr]
    | cons b t =>
      rw [cmpStr]
      by_cases h1 : a < b
      · rw [if_pos h1]
        have : a ≠ b := fun h => absurd h1 (by rw [h]; exact UInt8.lt_irrefl b)
        simp [this]
      · rw [if_neg h1]
        by_cases h2 : a = b
        · rw [if_pos h2, ih]
          simp [h2]
        · rw [if_neg h2]
          simp [h2]

theorem cmpStr_gt (s t : Bytes) : cmpStr s t = .gt ↔ cmpStr t s = .lt := by
  induction s generalizing t with
  | nil => cases t <;> simp [cmpStr]
  | cons a s ih =>
    cases t with
    | nil => simp [cmpStr]
    | cons b t =>
      rw [cmpStr, cmpStr]
      rcases UInt8.lt_or_lt_of_ne (a := a) (b := b) |> fun f => (Classical.em (a = b)).imp id f with h | h | h
      · subst h
        simp only [UInt8.lt_irrefl, if_false, if_true]
        exact ih t
      · have h' : ¬ b < a := fun h2 => UInt8.lt_irrefl _ (UInt8.lt_trans h h2)
        have h3 : b ≠ a := fun e => by subst e; exact UInt8.lt_irrefl _ h
        simp [h, h', h3]
      · have h' : ¬ a < b := fun h2 => UInt8.lt_irrefl _ (UInt8.lt_trans h h2)
        have h3 : a ≠ b := fun e => by subst e; exact UInt8.lt_irrefl _ h
        simp [h, h', h3]

theorem cmpStr_trans (s t u : Bytes) (h1 : cmpStr s t = .lt) (h2 : cmpStr t u = .lt) : cmpStr s u = .lt := by
  induction s generalizing t u with
  | nil => cases t <;> cases u <;> simp_all [cmpStr]
  | cons a s ih =>
    cases t with
    | nil => simp [cmpStr] at h1
    | cons b t =>
      cases u with
      | nil => simp [cmpStr] at h2
      | cons c u =>
        rw [cmpStr] at h1 h2 ⊢
        by_cases hab : a < b
        · have hbc : b < c ∨ b = c := by
            by_cases hbc : b < c
            · exact .inl hbc
            · rw [if_neg hbc] at h2
              by_cases e : b = c
              · exact .inr e
              · rw [if_neg e] at h2
                cases h2
          have hac : a < c := by
            rcases hbc with h | h
            · exact UInt8.lt_trans hab h
            · exact h ▸ hab
          rw [if_pos hac]
        · rw [if_neg hab] at h1
          by_cases e : a = b
          · rw [if_pos e] at h1
            subst e
            by_cases hac : a < c
            · rw [if_pos hac]
            · rw [if_neg hac] at h2 ⊢
              by_cases e : a = c
              · rw [if_pos e] at h2 ⊢
                exact ih t u h1 h2
              · rw [if_neg e] at h2
                cases h2
          · rw [if_neg e] at h1
            cases h1

theorem cmpName_eq (a b : Option Bytes) : cmpName a b = .eq ↔ a = b := by
  cases a <;> cases b <;> simp [cmpName, cmpStr_eq]

/-- C173, Python 2: two coins are equal exactly if they have the same name.  Missing: Python 3 (`C173_python3_false`). -/
theorem C173_equal_partial (a b : CoinObj) : coinEq .py2 a (.coin b) = .ok (decide (a.name = b.name)) := by
  unfold coinEq
  simp only [Except.ok.injEq]
  by_cases h : a.name = b.name
  · simp [h, (cmpName_eq b.name b.name).2 rfl]
  · simp only [h, decide_false, beq_eq_false_iff_ne, ne_eq]
    exact fun e => h ((cmpName_eq _ _).1 e)

/-- C173, Python 2: `<` is a strict order, and total but for coins of the same name. -/
theorem C173_order_partial :
    (∀ a b, ∃ x, coinLt .py2 a (.coin b) = .ok x) ∧
    (∀ a, coinLt .py2 a (.coin a) = .ok false) ∧
    (∀ a b c, coinLt .py2 a (.coin b) = .ok true → coinLt .py2 b (.coin c) = .ok true → coinLt .py2 a (.coin c) = .ok true) ∧
    (∀ a b, a.name ≠ b.name → (coinLt .py2 a (.coin b) = .ok true ↔ coinLt .py2 b (.coin a) = .ok false)) := by
  refine ⟨fun a b => ⟨_, rfl⟩, fun a => ?_, fun a b c => ?_, fun a b h => ?_⟩
  · simp [coinLt, (cmpName_eq a.name a.name).2 rfl]
  · simp only [coinLt, Except.ok.injEq, beq_iff_eq]
    rcases a.name with _ | x <;> rcases b.name with _ | y <;> rcases c.name with _ | z <;> simp only [cmpName] <;>
      first | exact cmpStr_trans x y z | simp
  · simp only [coinLt, Except.ok.injEq, beq_iff_eq, beq_eq_false_iff_ne]
    revert h
    rcases a.name with _ | x <;> rcases b.name with _ | y <;> simp only [cmpName] <;> try simp
    intro h
    rw [← cmpStr_gt x y]
    have := (cmpStr_eq x y).not.2 h
    cases hc : cmpStr x y <;> simp_all

theorem cmpStr_lt (s t : Bytes) : cmpStr s t = .lt ↔ s < t := by
  induction s generalizing t with
  | nil => cases t <;> simp [cmpStr]
  | cons a s ih =>
    cases t with
    | nil => simp [cmpStr]
    | cons b t =>
      rw [cmpStr, List.cons_lt_cons_iff, ← ih]
      by_cases h1 : a < b
      · simp [h1]
      · by_cases h2 : a = b
        · simp [h2]
        · simp [h1, h2]

/-- C173, Python 2: it is the alphabetical order of the names, a coin without a name first. -/
theorem C173_alphabetical_partial (a b : CoinObj) : coinLt .py2 a (.coin b) = .ok true ↔
    (a.name = none ∧ b.name ≠ none) ∨ ∃ s t, a.name = some s ∧ b.name = some t ∧ s < t := by
  simp only [coinLt, Except.ok.injEq, beq_iff_eq]
  rcases a.name with _ | x <;> rcases b.name with _ | y <;> simp [cmpName, cmpStr_lt]

/-! ### Coins as keys -/

/-- The value that was stored last under a key with `same`. -/
def lastStored {V : Type} (same : CoinObj → Bool) (ops : List (CoinObj × V)) : Option V :=
  ((ops.filter (fun x => same x.1)).getLast?).map (·.2)

/-- What is together in one program: an object has one name and one symbol, and coins with the same name have the same
symbol. -/
structure FairCoins (objs : CoinObj → Prop) : Prop where
  one : ∀ a b, objs a → objs b → a.id = b.id → a = b
  symbol : ∀ a b, objs a → objs b → a.name = b.name → a.symbol = b.symbol

theorem coinGet_set {V α : Type} [DecidableEq α] (ver : PyVer) (hash : Option Bytes → Int) (objs : CoinObj → Prop)
    (f : CoinObj → α) (hf : ∀ a b, objs a → objs b → sameKey ver hash a b = decide (f a = f b))
    (k k' : CoinObj) (hk : objs k) (hk' : objs k') (v : V) (d : List (CoinObj × V)) (hd : ∀ x ∈ d, objs x.1) :
    coinGet ver hash k' (coinSet ver hash k v d) = if f k = f k' then some v else coinGet ver hash k' d := by
  induction d with
  | nil => simp [coinSet, coinGet, hf k k' hk hk']
  | cons x d ih =>
    obtain ⟨x, w⟩ := x
    have hx := hd (x, w) List.mem_cons_self
    have ih := ih (fun y hy => hd y (List.mem_cons_of_mem _ hy))
    simp only [coinSet, hf x k hx hk]
    by_cases h : f x = f k
    · simp only [h, decide_true, if_true, coinGet, hf x k' hx hk', decide_eq_true_eq]
      split
      · rfl
      · rfl
    · simp only [h, decide_false, Bool.false_eq_true, if_false, coinGet, hf x k' hx hk', decide_eq_true_eq, ih]
      by_cases h' : f x = f k'
      · have : f k ≠ f k' := fun e => h (h'.trans e.symm)
        simp [h', this]
      · simp [h']

theorem coinSet_mem {V : Type} (ver : PyVer) (hash : Option Bytes → Int) (objs : CoinObj → Prop) (k : CoinObj) (hk : objs k)
    (v : V) (d : List (CoinObj × V)) (hd : ∀ x ∈ d, objs x.1) : ∀ x ∈ coinSet ver hash k v d, objs x.1 := by
  induction d with
  | nil => simpa [coinSet] using hk
  | cons x d ih =>
    obtain ⟨x, w⟩ := x
    have hx := hd (x, w) List.mem_cons_self
    have ih := ih (fun y hy => hd y (List.mem_cons_of_mem _ hy))
    rw [coinSet]
    split
    · intro y hy
      rcases List.mem_cons.1 hy with rfl | hy
      · exact hx
      · exact hd y (List.mem_cons_of_mem _ hy)
    · intro y hy
      rcases List.mem_cons.1 hy with rfl | hy
      · exact hx
      · exact ih y hy

theorem coinGet_fold {V α : Type} [DecidableEq α] (ver : PyVer) (hash : Option Bytes → Int) (objs : CoinObj → Prop)
    (f : CoinObj → α) (hf : ∀ a b, objs a → objs b → sameKey ver hash a b = decide (f a = f b))
    (k : CoinObj) (hk : objs k) (ops : List (CoinObj × V)) (ho : ∀ x ∈ ops, objs x.1) :
    coinGet ver hash k (ops.foldl (fun d x => coinSet ver hash x.1 x.2 d) []) =
      lastStored (fun x => decide (f x = f k)) ops ∧
    ∀ x ∈ ops.foldl (fun d x => coinSet ver hash x.1 x.2 d) [], objs x.1 := by
  induction ops using List.reverseRecOn with
  | nil => exact ⟨rfl, by simp⟩
  | append_singleton ops x ih =>
    obtain ⟨ih, hm⟩ := ih (fun y hy => ho y (List.mem_append_left _ hy))
    have hx := ho x (by simp)
    rw [List.foldl_append]
    simp only [List.foldl_cons, List.foldl_nil]
    refine ⟨?_, coinSet_mem ver hash objs x.1 hx x.2 _ hm⟩
    rw [coinGet_set ver hash objs f hf x.1 k hx hk x.2 _ hm, ih]
    unfold lastStored
    rw [List.filter_append]
    by_cases h : f x.1 = f k
    · simp [h]
    · simp [h]

/-- C173, Python 2: a dictionary whose keys are coins gives for a coin what was stored last under a coin of that name, whichever
objects they are.  Missing: coins of one name with different symbols (`C173_symbol_false`). -/
theorem C173_keys_partial {V : Type} (hash : Option Bytes → Int) (objs : CoinObj → Prop) (hf : FairCoins objs)
    (k : CoinObj) (hk : objs k) (ops : List (CoinObj × V)) (ho : ∀ x ∈ ops, objs x.1) :
    coinGet .py2 hash k (ops.foldl (fun d x => coinSet .py2 hash x.1 x.2 d) []) =
      lastStored (fun x => decide (x.name = k.name)) ops := by
  refine (coinGet_fold .py2 hash objs CoinObj.name (fun a b ha hb => ?_) k hk ops ho).1
  unfold sameKey coinHash
  rw [C173_equal_partial]
  by_cases h : a.name = b.name
  · simp [h, hf.symbol a b ha hb h]
  · have : a.id ≠ b.id := fun e => h (by rw [hf.one a b ha hb e])
    simp [h, this]

/-- C173, Python 3: it gives what was stored last under the very object. -/
theorem C173_keys_python3 {V : Type} (hash : Option Bytes → Int) (k : CoinObj) (ops : List (CoinObj × V)) :
    coinGet .py3 hash k (ops.foldl (fun d x => coinSet .py3 hash x.1 x.2 d) []) =
      lastStored (fun x => decide (x.id = k.id)) ops := by
  refine (coinGet_fold .py3 hash (fun _ => True) CoinObj.id (fun a b _ _ => ?_) k trivial ops (fun _ _ => trivial)).1
  unfold sameKey coinEq
  by_cases h : a.id = b.id
  · simp [h]
  · simp [h]

/-- C173 fails in Python 3: two objects for the same coin are different, what is stored under one is not found under the
other, and no coins can be sorted. -/
theorem C173_python3_false (hash : Option Bytes → Int) (a b : CoinObj) (h : a.id ≠ b.id) (v : Nat) :
    coinEq .py3 a (.coin b) = .ok false ∧ coinGet .py3 hash b (coinSet .py3 hash a v []) = none ∧
    coinLt .py3 a (.coin b) = .error .typeError := by
  simp [coinEq, coinGet, coinSet, sameKey, coinLt, h]

/-- C173 fails in Python 2 for coins with one name and different symbols: they are equal, but what is stored under one is not
found under the other, if only the hashes of the symbols differ. -/
theorem C173_symbol_false (hash : Option Bytes → Int) (a b : CoinObj) (hi : a.id ≠ b.id) (hn : a.name = b.name)
    (hs : hash a.symbol ≠ hash b.symbol) (v : Nat) :
    coinEq .py2 a (.coin b) = .ok true ∧ coinGet .py2 hash b (coinSet .py2 hash a v []) = none := by
  rw [C173_equal_partial]
  simp [coinGet, coinSet, sameKey, coinHash, hi, hn, hs]

/-- C173 fails in Python 2 for anything without a name: the comparison raises. -/
theorem C173_other_false (a : CoinObj) : coinEq .py2 a .other = .error .attributeError ∧
    coinEq .py3 a .other = .ok false := ⟨rfl, rfl⟩

/-- The letters of a name, all small. -/
def small (s : Bytes) : Bytes := s.map lowerByte

/-- C173: two coins are shown alike exactly if their names differ at most in the case of letters; a coin without a name cannot be
shown. -/
theorem C173_shown (a b : CoinObj) :
    (a.name = none → coinStr a = .error .attributeError) ∧
    (∀ s t, a.name = some s → b.name = some t → (coinStr a = coinStr b ↔ small s = small t)) := by
  refine ⟨fun h => by simp [coinStr, h], fun s t hs ht => ?_⟩
  have h1 : ∀ c : UInt8, lowerByte (upperByte c) = lowerByte c := fun c =>
    forall_byte (P := fun c => lowerByte (upperByte c) = lowerByte c) (fun n hn => by revert n; decide +kernel) c
  have h2 : ∀ c : UInt8, upperByte (lowerByte c) = upperByte c := fun c =>
    forall_byte (P := fun c => upperByte (lowerByte c) = upperByte c) (fun n hn => by revert n; decide +kernel) c
  have hu : ∀ c d, upperByte c = upperByte d ↔ lowerByte c = lowerByte d := fun c d =>
    ⟨fun h => by rw [← h1 c, h, h1], fun h => by rw [← h2 c, h, h2]⟩
  unfold coinStr small
  rw [hs, ht]
  cases s with
  | nil => cases t <;> simp
  | cons c s =>
    cases t with
    | nil => simp
    | cons d t => simp [hu]

/-- Two objects of the coin and one of another, as in `C173_keys_partial`; what is stored under the first is found under the
second; and the text of the coin. -/
example : FairCoins (fun c => c ∈ [⟨1, some (ascii "newbitcoin"), some (ascii "NBC")⟩, ⟨2, some (ascii "newbitcoin"), some (ascii "NBC")⟩,
      (⟨3, some (ascii "bitcoin"), some (ascii "BTC")⟩ : CoinObj)]) ∧
    coinGet .py2 (fun _ => 7) ⟨2, some (ascii "newbitcoin"), some (ascii "NBC")⟩
      (coinSet .py2 (fun _ => 7) ⟨3, some (ascii "bitcoin"), some (ascii "BTC")⟩ 5
        (coinSet .py2 (fun _ => 7) ⟨1, some (ascii "newbitcoin"), some (ascii "NBC")⟩ 4 [])) = some 4 ∧
    coinLt .py2 ⟨3, some (ascii "bitcoin"), some (ascii "BTC")⟩ (.coin ⟨1, some (ascii "newbitcoin"), some (ascii "NBC")⟩) = .ok true ∧
    coinStr ⟨1, some (ascii "newbitcoin"), some (ascii "NBC")⟩ = .ok (ascii "<Newbitcoin>") := by
  refine ⟨⟨?_, ?_⟩, by decide +kernel, by decide +kernel, by decide +kernel⟩
  · intro a b ha hb
    simp only [List.mem_cons, List.not_mem_nil, or_false] at ha hb
    rcases ha with rfl | rfl | rfl <;> rcases hb with rfl | rfl | rfl <;> decide +kernel
  · intro a b ha hb
    simp only [List.mem_cons, List.not_mem_nil, or_false] at ha hb
    rcases ha with rfl | rfl | rfl <;> rcases hb with rfl | rfl | rfl <;> decide +kernel

/-- Objects as in `C173_python3_false` and `C173_symbol_false`: one coin twice, and one name with two symbols whose hashes
differ. -/
example : let a : CoinObj := ⟨1, some (ascii "newbitcoin"), some (ascii "NBC")⟩
    let b : CoinObj := ⟨2, some (ascii "newbitcoin"), some (ascii "NB")⟩
    let hash : Option Bytes → Int := fun s => ((s.getD []).length : Int)
    coinEq .py2 a (.coin b) = .ok true ∧ coinGet .py2 hash b (coinSet .py2 hash a 4 []) = none ∧
    coinEq .py3 a (.coin { a with id := 3 }) = .ok false ∧ coinLt .py3 a (.coin b) = .error .typeError := by
  intro a b hash
  obtain ⟨h1, h2⟩ := C173_symbol_false hash a b (by decide) rfl (by decide +kernel) 4
  obtain ⟨h3, -, -⟩ := C173_python3_false hash a { a with id := 3 } (by decide) 4
  exact ⟨h1, h2, h3, (C173_python3_false hash a b (by decide) 4).2.2⟩

end NBC.Props
