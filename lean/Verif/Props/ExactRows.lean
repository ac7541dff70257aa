import Verif.Props.DataRows
import Verif.Props.FuzzyRepr
import Verif.Props.InfluenceData
import Verif.Props.Regressor

/-!
# Exact conditions for properties C96, C97, C98, C101 and C102
-/

set_option linter.unusedSectionVars false

namespace Verif.Rows

variable {κ V τ : Type} [DecidableEq κ] [DecidableEq τ] [HasType V τ]

/-- **C96**, exactly: with an iterator of column names `rows` yields the documented rows if and only if there is at most one
row or no column was asked for. -/
theorem C96_iterator_exactly {D : Data κ V τ} (h : Data.Reachable D) {ks : List κ} (hks : ∀ k ∈ ks, k ∈ D.keys) :
    listRows D (.once ks) = .ok ((List.range D.nRows.toNat).map (cells D ks)) ↔ D.nRows ≤ 1 ∨ ks = [] := by
  rw [C96_iterator_false h hks]
  constructor
  · intro e
    have e := Except.ok.inj e
    by_contra hc
    rw [not_or, not_le] at hc
    have := congrArg (fun l => l[1]?) e
    have h1 : 1 < D.nRows.toNat := by omega
    simp only [List.getElem?_map, List.getElem?_range h1, Option.map_some, Option.some.injEq] at this
    have := congrArg List.length this
    simp only [cells, List.length_map] at this
    exact hc.2 (List.length_eq_zero_iff.1 (by simpa using this.symm))
  · intro hc
    congr 1
    refine List.map_congr_left fun i hi => ?_
    have hi := List.mem_range.1 hi
    rcases hc with hc | rfl
    · have : i = 0 := by omega
      rw [if_pos this, this]
    · simp [cells]

/-- **C96**, exactly, for tuples: if the rows are collected first, they have the entries of their rows if and only if all rows
of the table are the same. -/
theorem C96_tuples_exactly {D : Data κ V τ} (h : Data.Reachable D) {ks : List κ} (hks : ∀ k ∈ ks, k ∈ D.keys) :
    tupleUses D ks ⟨0, []⟩ (List.replicate D.nRows.toNat .next ++ (List.range D.nRows.toNat).map .read) =
        (List.range D.nRows.toNat).map (fun j => .ok (cells D ks j)) ↔
      ∀ i j : Nat, (i : Int) < D.nRows → (j : Int) < D.nRows → cells D ks i = cells D ks j := by
  rw [C96_tuples_false h hks]
  constructor
  · intro e
    have key : ∀ i : Nat, (i : Int) < D.nRows → cells D ks i = cells D ks (D.nRows.toNat - 1) := by
      intro i hi
      have := congrArg (fun l => l[i]?) e
      have h1 : i < D.nRows.toNat := by omega
      simp only [List.getElem?_map, List.getElem?_range h1, Option.map_some, List.getElem?_replicate, if_pos h1,
        Option.some.injEq] at this
      exact (Except.ok.inj this).symm
    intro i j hi hj
    rw [key i hi, key j hj]
  · intro hc
    apply List.ext_getElem (by simp)
    intro i h1 h2
    simp only [List.length_replicate] at h1
    simp only [List.getElem_replicate, List.getElem_map, List.getElem_range]
    rw [hc (D.nRows.toNat - 1) i (by omega) (by omega)]

/-- **C96**, exactly, for tuples and any program: when the `j`-th row is read it shows the entries of row `j` if and only if it
is read for the first time and the row which was yielded last has the same entries (or no column was asked for). -/
theorem C96_read_exactly {D : Data κ V τ} (h : Data.Reachable D) {ks : List κ} (hks : ∀ k ∈ ks, k ∈ D.keys) {g : Gen} {j : Nat}
    (hj : j < g.yielded) (hg : (g.yielded : Int) ≤ D.nRows) :
    readTuple D ks g j = .ok (cells D ks j) ↔
      ks = [] ∨ (j ∉ g.used ∧ cells D ks (g.yielded - 1) = cells D ks j) := by
  unfold readTuple
  rw [if_pos hj]
  by_cases hu : j ∈ g.used
  · rw [if_pos hu]
    constructor
    · intro e
      have := congrArg List.length (Except.ok.inj e)
      simp only [cells, List.length_map] at this
      exact .inl (List.length_eq_zero_iff.1 (by simpa using this.symm))
    · rintro (rfl | hc)
      · rfl
      · exact absurd hu hc.1
  · rw [if_neg hu, cells_of h hks (i := g.yielded - 1) (by omega)]
    constructor
    · intro e
      exact .inr ⟨hu, Except.ok.inj e⟩
    · rintro (rfl | hc)
      · rfl
      · rw [hc.2]

example : listRows exTable (.once ["b"]) ≠ .ok ((List.range exTable.nRows.toNat).map (cells exTable ["b"])) := by
  intro h
  have := (C96_iterator_exactly exTable_reachable (ks := ["b"]) (by decide)).1 h
  exact absurd this (by decide)

example : readTuple exTable ["a", "b"] ⟨2, []⟩ 0 ≠ .ok (cells exTable ["a", "b"] 0) ∧
    readTuple exTable ["a", "b"] ⟨2, []⟩ 1 = .ok (cells exTable ["a", "b"] 1) :=
  ⟨fun h => absurd ((C96_read_exactly exTable_reachable (by decide) (by decide) (by decide)).1 h) (by decide +kernel),
    (C96_read_exactly exTable_reachable (by decide) (by decide) (by decide)).2 (.inr (by decide +kernel))⟩

/-- **C97**, exactly: a nonempty array like of strings chooses columns if and only if its first element is a string of python
(and not one of numpy); then the chosen columns are those of all names, whatever strings the other ones are. -/
theorem C97_strings_exactly (D : Data κ V τ) (p : κ × Bool) (ks : List (κ × Bool)) :
    (getItem D (.many ((p :: ks).map fun q => if q.2 then .numpyStr q.1 else .str q.1)) =
        .ok (.table (D.getItem (.keys ((p :: ks).map Prod.fst)))) ↔ p.2 = false) ∧
      (getItem D (.many ((p :: ks).map fun q => if q.2 then .numpyStr q.1 else .str q.1)) = .error .typeError ↔ p.2 = true) := by
  obtain ⟨k, b⟩ := p
  cases b with
  | false =>
    have := C97_mixed D k ks
    simp only [List.map_cons, Bool.false_eq_true, if_false, this]
    simp
  | true =>
    have : getItem D (.many ((.numpyStr k : Elem κ) :: ks.map fun q => if q.2 then .numpyStr q.1 else .str q.1)) =
        .error .typeError := rfl
    simp only [List.map_cons, if_true, this]
    simp

example : getItem exTable (.many [.numpyStr "a", .str "b"]) = .error .typeError :=
  (C97_strings_exactly exTable ("a", true) [("b", false)]).2.2 rfl

end Verif.Rows

namespace Verif.Regr

variable {K : Type} [OfNat K 0] [OfNat K 1]

/-- The errors for which another parameter is tried. -/
def Retry (r : Except PyErr (List K)) : Prop := r = .error .indexError ∨ r = .error .typeError

theorem determine_some {func : List (K × K) → List K → Except PyErr (List K)} :
    ∀ (fuel n : Nat) (r : Except PyErr (List K)), determine func fuel (List.replicate n 1) = some r ↔
      ∃ k, k < fuel ∧ (∀ j, j < k → Retry (func [(0, 0)] (List.replicate (n + j) 1))) ∧
        ¬ Retry (func [(0, 0)] (List.replicate (n + k) 1)) ∧
        r = (func [(0, 0)] (List.replicate (n + k) 1)).map fun _ => List.replicate (n + k) 1 := by
  intro fuel
  induction fuel with
  | zero => intro n r; simp [determine]
  | succ fuel ih =>
    intro n r
    have again : Retry (func [(0, 0)] (List.replicate n 1)) →
        determine func (fuel + 1) (List.replicate n 1) = determine func fuel (List.replicate (n + 1) 1) := by
      intro h
      have e : List.replicate n (1 : K) ++ [1] = List.replicate (n + 1) 1 := by
        rw [List.replicate_succ']
      rcases h with h | h <;> simp only [determine, h, e]
    have stop : ¬ Retry (func [(0, 0)] (List.replicate n 1)) → determine func (fuel + 1) (List.replicate n 1) =
        some ((func [(0, 0)] (List.replicate n 1)).map fun _ => List.replicate n 1) := by
      intro h
      unfold Retry at h
      cases hf : func [(0, 0)] (List.replicate n 1) with
      | ok v => simp only [determine, hf]; rfl
      | error e =>
        rw [hf] at h
        cases e <;> first | exact absurd (.inl rfl) h | exact absurd (.inr rfl) h | (simp only [determine, hf]; rfl)
    by_cases h : Retry (func [(0, 0)] (List.replicate n 1))
    · rw [again h, ih]
      constructor
      · rintro ⟨k, hk, h1, h2, h3⟩
        refine ⟨k + 1, by omega, ?_, ?_, ?_⟩
        · intro j hj
          cases j with
          | zero => exact h
          | succ j =>
            have := h1 j (by omega)
            rwa [show n + 1 + j = n + (j + 1) by omega] at this
        · rwa [show n + 1 + k = n + (k + 1) by omega] at h2
        · rwa [show n + 1 + k = n + (k + 1) by omega] at h3
      · rintro ⟨k, hk, h1, h2, h3⟩
        cases k with
        | zero => exact absurd h h2
        | succ k =>
          refine ⟨k, by omega, ?_, ?_, ?_⟩
          · intro j hj
            have := h1 (j + 1) (by omega)
            rwa [show n + (j + 1) = n + 1 + j by omega] at this
          · rwa [show n + (k + 1) = n + 1 + k by omega] at h2
          · rwa [show n + (k + 1) = n + 1 + k by omega] at h3
    · rw [stop h]
      constructor
      · intro e
        exact ⟨0, by omega, by simp, h, (Option.some.inj e).symm⟩
      · rintro ⟨k, hk, h1, h2, h3⟩
        cases k with
        | zero => rw [h3]; rfl
        | succ k => exact absurd (h1 0 (by omega)) h

/-- **C98**, exactly: for a function with at most two named parameters the constructor chooses `k` ones as initial values if and
only if `k` is the least number of ones for which the function raises neither `IndexError` nor `TypeError` when called with a
wind of zero, and then raises nothing. -/
theorem C98_exactly {f : Func K} (hnamed : f.named < 3) (p : List K) :
    (∃ fuel, initVals f none fuel = some (.ok p)) ↔
      ∃ k, p = List.replicate k 1 ∧ (∃ v, f.fitting [(0, 0)] (List.replicate k 1) = .ok v) ∧
        ∀ j, j < k → Retry (f.fitting [(0, 0)] (List.replicate j 1)) := by
  have e : ∀ fuel, initVals f none fuel = determine f.fitting fuel (List.replicate 0 1) := by
    intro fuel
    simp only [initVals, if_pos hnamed]
    rfl
  constructor
  · rintro ⟨fuel, h⟩
    rw [e, determine_some] at h
    obtain ⟨k, hk, h1, h2, h3⟩ := h
    simp only [Nat.zero_add] at h1 h2 h3
    cases hv : f.fitting [(0, 0)] (List.replicate k 1) with
    | error e => rw [hv] at h3; exact absurd h3 (by simp [Except.map])
    | ok v =>
      rw [hv] at h3
      exact ⟨k, Except.ok.inj h3, ⟨v, hv⟩, h1⟩
  · rintro ⟨k, rfl, ⟨v, hv⟩, h⟩
    refine ⟨k + 1, ?_⟩
    rw [e, determine_some]
    refine ⟨k, by omega, by simpa using h, ?_, ?_⟩
    · simp only [Nat.zero_add]
      rw [hv]
      rintro (h | h) <;> cases h
    · simp only [Nat.zero_add]
      rw [hv]
      rfl

/-- **C98**, exactly: the constructor returns or raises if and only if some number of ones leads to something else than an
`IndexError` or a `TypeError`. -/
theorem C98_terminates_exactly {f : Func K} (hnamed : f.named < 3) :
    (∃ fuel r, initVals f none fuel = some r) ↔ ∃ k, ¬ Retry (f.fitting [(0, 0)] (List.replicate k 1)) := by
  have e : ∀ fuel, initVals f none fuel = determine f.fitting fuel (List.replicate 0 1) := by
    intro fuel
    simp only [initVals, if_pos hnamed]
    rfl
  constructor
  · rintro ⟨fuel, r, h⟩
    rw [e, determine_some] at h
    obtain ⟨k, _, _, h2, _⟩ := h
    exact ⟨k, by simpa using h2⟩
  · rintro ⟨k, hk⟩
    classical
    have hex : ∃ k, ¬ Retry (f.fitting [(0, 0)] (List.replicate k 1)) := ⟨k, hk⟩
    refine ⟨Nat.find hex + 1, (f.fitting [(0, 0)] (List.replicate (0 + Nat.find hex) 1)).map fun _ =>
      List.replicate (0 + Nat.find hex) 1, ?_⟩
    rw [e, determine_some]
    refine ⟨Nat.find hex, by omega, ?_, by simpa using Nat.find_spec hex, rfl⟩
    intro j hj
    have := Nat.find_min hex hj
    simpa using not_not.1 this

/-- A model function with `*params` which reads two parameters. -/
def exTwo : Func ℚ := ⟨2, 2, true, false, fun ws _ p => if p.length < 2 then .error .indexError else .ok ws⟩

example : ∃ fuel, initVals exTwo none fuel = some (.ok [1, 1]) :=
  (C98_exactly (f := exTwo) (by decide) _).2 ⟨2, rfl, ⟨[0], rfl⟩, by
    intro j hj
    match j, hj with
    | 0, _ => exact .inl rfl
    | 1, _ => exact .inl rfl⟩

end Verif.Regr

namespace Verif.Fuzzy

theorem combine_scalar_or (op : ℝ → ℝ → ℝ) (a b : Arr) (l : List ℝ) : combine op a b ≠ .ok (.vector l) := by
  unfold combine
  split
  · simp
  · split <;> simp

/-- Statements with `&`, `|` or `==` never give an array. -/
theorem never_vector (val : Str → ℝ) {e : Expr} (h : e.Keyless) (hs : ¬ e.Single) (x : Arr) (l : List ℝ) :
    e.array val x ≠ .ok (.vector l) := by
  induction e generalizing l with
  | compare key op n s =>
    have : key = none := h
    subst this
    cases op with
    | lt => exact absurd ⟨rfl, by simp⟩ hs
    | gt => exact absurd ⟨rfl, by simp⟩ hs
    | eq => exact combine_scalar_or _ _ _ _
  | sigmoid c s σ => exact absurd trivial hs
  | and e f ihe ihf =>
    simp only [Expr.array, bind, Except.bind]
    split
    · simp
    · split
      · simp
      · exact combine_scalar_or _ _ _ _
  | or e f ihe ihf =>
    simp only [Expr.array, bind, Except.bind]
    split
    · simp
    · split
      · simp
      · exact combine_scalar_or _ _ _ _
  | not e ih =>
    have := ih h hs
    simp only [Expr.array, bind, Except.bind]
    split
    · simp
    · rename_i a ha
      cases a with
      | scalar r => simp [Arr.map, pure, Except.pure]
      | vector m => exact absurd ha (this m)
  | item e k => exact absurd h id

/-- **C101**, exactly: a statement about a variable without key gives for an array the truth values of its entries if and only
if it contains no `&`, `|` and `==`. -/
theorem C101_exactly (val : Str → ℝ) {e : Expr} (h : e.Keyless) (l : List ℝ) :
    e.array val (.vector l) = .ok (.vector (l.map fun r => e.truth val fun _ => r)) ↔ e.Single := by
  constructor
  · intro he
    by_contra hs
    exact never_vector val h hs _ _ he
  · intro hs
    exact C101_array_partial val hs l

example (val : Str → ℝ) (l : List ℝ) : (Expr.not (.and (.sigmoid ['1'] ['1'] ['1']) (.compare none .lt ['2'] 1))).array val
      (.vector l) ≠ .ok (.vector (l.map fun r =>
        (Expr.not (.and (.sigmoid ['1'] ['1'] ['1']) (.compare none .lt ['2'] 1))).truth val fun _ => r)) :=
  fun h => (C101_exactly val (e := .not (.and (.sigmoid ['1'] ['1'] ['1']) (.compare none .lt ['2'] 1))) ⟨trivial, rfl⟩ l).1 h

end Verif.Fuzzy

namespace Verif.InflData

variable {K : Type}

/-- **C102**, exactly, for arrays: the result has the measurements as rows if and only if there are three measurements and the
array of them is symmetric. -/
theorem C102_array_exactly (toTrue) {d : Dict String (Col K)} {a b c : List K} {key : String} (hs : Speed d key)
    (ha : d.get? "TWS" = some (.array a)) (hb : d.get? "TWA" = some (.array b)) (hc : d.get? key = some (.array c))
    (h1 : a.length = b.length) (h2 : b.length = c.length) :
    trueWindData toTrue d = .ok (.rows (rows3 a b c)) ↔
      ∃ x y z u v w, a = [x, y, z] ∧ b = [y, u, v] ∧ c = [z, v, w] := by
  rw [C102_array_false toTrue hs ha hb hc h1 h2]
  constructor
  · intro e
    have e := Out.rows.inj (Except.ok.inj e)
    rcases a with _ | ⟨x, _ | ⟨y, _ | ⟨z, _ | ⟨t, a⟩⟩⟩⟩ <;>
    rcases b with _ | ⟨x', _ | ⟨y', _ | ⟨z', _ | ⟨t', b⟩⟩⟩⟩ <;>
    simp only [List.length_cons, List.length_nil] at h1 <;> try omega
    all_goals
      rcases c with _ | ⟨x'', _ | ⟨y'', _ | ⟨z'', _ | ⟨t'', c⟩⟩⟩⟩ <;>
      simp only [List.length_cons, List.length_nil] at h2 <;> try omega
    all_goals simp [rows3] at e
    obtain ⟨⟨rfl, rfl⟩, ⟨_, rfl⟩, _⟩ := e
    exact ⟨_, _, _, _, _, _, rfl, rfl, rfl⟩
  · rintro ⟨x, y, z, u, v, w, rfl, rfl, rfl⟩
    rfl

example : trueWindData (K := ℚ) (fun r => .ok r) [("TWS", .array [10, 45, 6]), ("TWA", .array [45, 50, 7]),
    ("BSP", .array [6, 7, 8])] = .ok (.rows [[10, 45, 6], [45, 50, 7], [6, 7, 8]]) := by decide +kernel

end Verif.InflData
