import Verif.Model.FuzzyArray
import Mathlib.Tactic.NormNum
import Mathlib.Tactic.Linarith

/-!
# Property C185: fuzzy statements on arrays
-/

namespace Verif.FuzzyArray

variable {K : Type} [One K] [Sub K] [Min K] [Max K]

/-- The truth value of a statement for one number. -/
def Stmt.truth : Stmt K → K → K
  | .atom f, x => f x
  | .and a b, x => min (a.truth x) (b.truth x)
  | .or a b, x => max (a.truth x) (b.truth x)
  | .not a, x => 1 - a.truth x

/-- There is no `&`, `|` or `==` in the statement. -/
def Stmt.Plain : Stmt K → Prop
  | .atom _ => True
  | .and _ _ => False
  | .or _ _ => False
  | .not a => a.Plain

/-- Nowhere in the statement a plain statement is combined with one that is not plain. -/
def Stmt.Even : Stmt K → Prop
  | .atom _ => True
  | .and a b => a.Even ∧ b.Even ∧ (a.Plain ↔ b.Plain)
  | .or a b => a.Even ∧ b.Even ∧ (a.Plain ↔ b.Plain)
  | .not a => a.Even

/-- **C185.** Called with a number a fuzzy statement returns its truth value. -/
theorem C185_number (s : Stmt K) (x : K) : eval s (.num x) = .ok (.num (s.truth x)) := by
  induction s with
  | atom f => rfl
  | and a b iha ihb => simp [eval, iha, ihb, rowStack, firstOf, Stmt.truth]
  | or a b iha ihb => simp [eval, iha, ihb, rowStack, firstOf, Stmt.truth]
  | not a ih => simp [eval, ih, Stmt.truth]

/-- **C185** (partial: comparisons and negations only). Called with an array, a statement without `&`, `|` and `==` returns the truth
values of all entries. -/
theorem C185_plain_partial {s : Stmt K} (h : s.Plain) (l : List K) : eval s (.arr l) = .ok (.arr (l.map s.truth)) := by
  induction s with
  | atom f => rfl
  | and a b => exact h.elim
  | or a b => exact h.elim
  | not a ih => simp [eval, ih h, Stmt.truth]

/-- What a statement returns for an array with at least one entry, unless it raises an error. -/
theorem eval_value {s : Stmt K} {x : K} {l : List K} {v : Value K} (h : eval s (.arr (x :: l)) = .ok v) :
    v = .arr ((x :: l).map s.truth) ∧ s.Plain ∨ v = .num (s.truth x) ∧ ¬ s.Plain := by
  induction s generalizing v with
  | atom f =>
    simp only [eval, Except.ok.injEq] at h
    exact .inl ⟨h.symm, trivial⟩
  | and a b iha ihb =>
    right
    refine ⟨?_, fun h => h⟩
    simp only [eval] at h
    split at h
    · cases h
    · rename_i u hu
      split at h
      · cases h
      · rename_i w hw
        rcases iha hu with ⟨rfl, -⟩ | ⟨rfl, -⟩ <;> rcases ihb hw with ⟨rfl, -⟩ | ⟨rfl, -⟩ <;>
          simp only [rowStack, List.map_cons, List.length_cons, List.length_map, Nat.add_eq_right] at h
        · simp [firstOf] at h
          exact h.symm
        · split_ifs at h with h1
          · simp [firstOf] at h
            exact h.symm
        · split_ifs at h with h1
          · simp [firstOf] at h
            exact h.symm
        · simp [firstOf] at h
          exact h.symm
  | or a b iha ihb =>
    right
    refine ⟨?_, fun h => h⟩
    simp only [eval] at h
    split at h
    · cases h
    · rename_i u hu
      split at h
      · cases h
      · rename_i w hw
        rcases iha hu with ⟨rfl, -⟩ | ⟨rfl, -⟩ <;> rcases ihb hw with ⟨rfl, -⟩ | ⟨rfl, -⟩ <;>
          simp only [rowStack, List.map_cons, List.length_cons, List.length_map, Nat.add_eq_right] at h
        · simp [firstOf] at h
          exact h.symm
        · split_ifs at h with h1
          · simp [firstOf] at h
            exact h.symm
        · split_ifs at h with h1
          · simp [firstOf] at h
            exact h.symm
        · simp [firstOf] at h
          exact h.symm
  | not a ih =>
    simp only [eval] at h
    split at h
    · cases h
    · rename_i y hy
      rcases ih hy with ⟨e, -⟩ | ⟨e, hp⟩
      · cases e
      · cases e
        cases h
        exact .inr ⟨rfl, hp⟩
    · rename_i m hy
      rcases ih hy with ⟨e, hp⟩ | ⟨e, -⟩
      · cases e
        cases h
        exact .inl ⟨by simp [Stmt.truth], hp⟩
      · cases e

/-- **C185 is false** for statements with `&`, `|` or `==`: if they return something for an array, then it is the truth value of the
first entry, whatever the others are. -/
theorem C185_first_false {s : Stmt K} (hs : ¬ s.Plain) {x : K} {l : List K} {v : Value K} (h : eval s (.arr (x :: l)) = .ok v) :
    v = .num (s.truth x) := by
  rcases eval_value h with ⟨-, hp⟩ | ⟨e, -⟩
  · exact absurd hp hs
  · exact e

/-- **C185**, exactly: called with an array of at least two entries, a statement returns something if and only if nowhere a plain
statement is combined with one that is not plain; otherwise it raises `ValueError`. -/
theorem C185_returns_exactly (s : Stmt K) (x y : K) (l : List K) :
    ((∃ v, eval s (.arr (x :: y :: l)) = .ok v) ↔ s.Even) ∧
    (¬ s.Even → eval s (.arr (x :: y :: l)) = .error .valueError) := by
  have key : (s.Even → ∃ v, eval s (.arr (x :: y :: l)) = .ok v) ∧
      (¬ s.Even → eval s (.arr (x :: y :: l)) = .error .valueError) := by
    induction s with
    | atom f => exact ⟨fun _ => ⟨_, rfl⟩, fun h => absurd trivial h⟩
    | and a b iha ihb =>
      by_cases ha : a.Even
      · obtain ⟨u, hu⟩ := iha.1 ha
        by_cases hb : b.Even
        · obtain ⟨w, hw⟩ := ihb.1 hb
          simp only [eval, hu, hw, Stmt.Even, ha, hb, true_and]
          rcases eval_value hu with ⟨rfl, pa⟩ | ⟨rfl, pa⟩ <;> rcases eval_value hw with ⟨rfl, pb⟩ | ⟨rfl, pb⟩ <;>
            simp [rowStack, firstOf, pa, pb]
        · have hw := ihb.2 hb
          simp [eval, hu, hw, Stmt.Even, hb]
      · have hu := iha.2 ha
        simp [eval, hu, Stmt.Even, ha]
    | or a b iha ihb =>
      by_cases ha : a.Even
      · obtain ⟨u, hu⟩ := iha.1 ha
        by_cases hb : b.Even
        · obtain ⟨w, hw⟩ := ihb.1 hb
          simp only [eval, hu, hw, Stmt.Even, ha, hb, true_and]
          rcases eval_value hu with ⟨rfl, pa⟩ | ⟨rfl, pa⟩ <;> rcases eval_value hw with ⟨rfl, pb⟩ | ⟨rfl, pb⟩ <;>
            simp [rowStack, firstOf, pa, pb]
        · have hw := ihb.2 hb
          simp [eval, hu, hw, Stmt.Even, hb]
      · have hu := iha.2 ha
        simp [eval, hu, Stmt.Even, ha]
    | not a ih =>
      refine ⟨fun h => ?_, fun h => ?_⟩
      · obtain ⟨v, hv⟩ := ih.1 h
        cases v with
        | num z => exact ⟨.num (1 - z), by simp [eval, hv]⟩
        | arr m => exact ⟨.arr (m.map (1 - ·)), by simp [eval, hv]⟩
      · simp [eval, ih.2 h]
  refine ⟨⟨fun ⟨v, hv⟩ => ?_, key.1⟩, key.2⟩
  by_contra hn
  rw [key.2 hn] at hv
  cases hv

/-- **C185**, exactly: a statement returns the truth values of all entries of arrays of at least two entries if and only if it is
plain. -/
theorem C185_exactly (s : Stmt K) (x y : K) (l : List K) :
    eval s (.arr (x :: y :: l)) = .ok (.arr ((x :: y :: l).map s.truth)) ↔ s.Plain := by
  refine ⟨fun h => ?_, fun h => C185_plain_partial h _⟩
  rcases eval_value h with ⟨-, hp⟩ | ⟨e, -⟩
  · exact hp
  · cases e

/-- **C185.** Arrays of one entry: every statement returns its truth value, as a number or in an array of one entry. -/
theorem C185_one (s : Stmt K) (x : K) :
    eval s (.arr [x]) = .ok (.arr [s.truth x]) ∧ s.Plain ∨ eval s (.arr [x]) = .ok (.num (s.truth x)) ∧ ¬ s.Plain := by
  have : ∃ v, eval s (.arr [x]) = .ok v := by
    induction s with
    | atom f => exact ⟨_, rfl⟩
    | and a b iha ihb =>
      obtain ⟨u, hu⟩ := iha
      obtain ⟨w, hw⟩ := ihb
      simp only [eval, hu, hw]
      rcases eval_value hu with ⟨rfl, pa⟩ | ⟨rfl, pa⟩ <;> rcases eval_value hw with ⟨rfl, pb⟩ | ⟨rfl, pb⟩ <;>
        simp [rowStack, firstOf]
    | or a b iha ihb =>
      obtain ⟨u, hu⟩ := iha
      obtain ⟨w, hw⟩ := ihb
      simp only [eval, hu, hw]
      rcases eval_value hu with ⟨rfl, pa⟩ | ⟨rfl, pa⟩ <;> rcases eval_value hw with ⟨rfl, pb⟩ | ⟨rfl, pb⟩ <;>
        simp [rowStack, firstOf]
    | not a ih =>
      obtain ⟨v, hv⟩ := ih
      cases v with
      | num z => exact ⟨.num (1 - z), by simp [eval, hv]⟩
      | arr m => exact ⟨.arr (m.map (1 - ·)), by simp [eval, hv]⟩
  obtain ⟨v, hv⟩ := this
  rcases eval_value hv with ⟨rfl, p⟩ | ⟨rfl, p⟩
  · exact .inl ⟨hv, p⟩
  · exact .inr ⟨hv, p⟩

/-- **C185**, exactly: for an array without entries, exactly the statements without `&`, `|` and `==` return something, all others raise
`IndexError`. -/
theorem C185_empty_exactly (s : Stmt K) :
    ((∃ v, eval s (.arr []) = .ok v) ↔ s.Plain) ∧ (¬ s.Plain → eval s (.arr []) = .error .indexError) := by
  have key : ¬ s.Plain → eval s (.arr []) = .error .indexError := by
    have bin : ∀ (a b : Stmt K), (¬ a.Plain → eval a (.arr []) = .error .indexError) →
        (¬ b.Plain → eval b (.arr []) = .error .indexError) →
        eval (.and a b) (.arr []) = .error .indexError ∧ eval (.or a b) (.arr []) = .error .indexError := by
      intro a b iha ihb
      by_cases ha : a.Plain
      · by_cases hb : b.Plain
        · simp [eval, C185_plain_partial ha, C185_plain_partial hb, rowStack, firstOf]
        · simp [eval, C185_plain_partial ha, ihb hb]
      · simp [eval, iha ha]
    induction s with
    | atom f => exact fun h => absurd trivial h
    | and a b iha ihb => exact fun _ => (bin a b iha ihb).1
    | or a b iha ihb => exact fun _ => (bin a b iha ihb).2
    | not a ih => exact fun h => by simp [eval, ih h]
  refine ⟨⟨fun ⟨v, hv⟩ => ?_, fun h => ⟨_, C185_plain_partial h []⟩⟩, key⟩
  by_contra hn
  rw [key hn] at hv
  cases hv

/-- **C185 is false** for weighers: if a statement with `&`, `|` or `==` on a variable without key weighs points of several components,
then the weights only depend on the first components. -/
theorem C185_weights_false {s : Stmt K} (hs : ¬ s.Plain) : ∀ {rows : List (K × List K)} {vs : List (Value K)},
    weighRows s (rows.map fun r => r.1 :: r.2) = .ok vs → vs = rows.map fun r => .num (s.truth r.1)
  | [], vs, h => by
    simp only [List.map_nil, weighRows, Except.ok.injEq] at h
    exact h.symm
  | r :: rows, vs, h => by
    simp only [List.map_cons, weighRows] at h
    split at h
    · cases h
    · rename_i v hv
      split at h
      · cases h
      · rename_i ws hws
        cases h
        rw [C185_first_false hs hv, C185_weights_false hs hws]
        rfl

/-- A statement like `(x > 1) & ~(x > 3)`. -/
def between : Stmt ℚ := .and (.atom fun x => if x > 1 then 1 else 0) (.not (.atom fun x => if x > 3 then 1 else 0))

example : eval between (.num 2) = .ok (.num 1) := by
  rw [C185_number]
  exact congrArg _ (by decide +kernel)

example : eval (.not (.atom fun x : ℚ => x / 2)) (.arr [1, 0]) = .ok (.arr [1 / 2, 1]) := by
  rw [C185_plain_partial (by simp [Stmt.Plain])]
  norm_num [Stmt.truth]

/-- The truth values of 2, 0 and 5 are 1, 0 and 0; only the first of them is returned. -/
example : eval between (.arr [2, 0, 5]) = .ok (.num 1) ∧ [2, 0, 5].map between.truth = [1, 0, 0] := by decide +kernel

example : eval (.or between (.atom id)) (.arr [2, 0, 5]) = .error .valueError :=
  (C185_returns_exactly _ 2 0 [5]).2 (by simp [Stmt.Even, Stmt.Plain, between])

example : eval between (.arr [2]) = .ok (.num 1) ∧ eval between (.arr []) = .error .indexError := by decide +kernel

example : eval between (.arr []) = .error .indexError := (C185_empty_exactly between).2 (by simp [between, Stmt.Plain])

example : ¬ eval between (.arr [2, 0]) = .ok (.arr [1, 0]) := fun h =>
  absurd ((C185_exactly between 2 0 []).1 (h.trans (by decide +kernel))) (by simp [between, Stmt.Plain])

/-- The second components 2 and 9 do not matter. -/
example : weighRows between [[2, 2], [2, 9], [0, 2]] = .ok [.num 1, .num 1, .num 0] := by decide +kernel

end Verif.FuzzyArray
