import Verif.Model.Weigher
import Mathlib.Tactic.Linarith
import Mathlib.Tactic.Positivity
import Mathlib.Tactic.FieldSimp
import Mathlib.Tactic.Ring

/-!
# Properties C16 and C17: fuzzy logic
-/

namespace Verif.Weigher

open FuzzyBool

/-! ## C16 -/

/-- The fuzzy statements a user can build from comparisons with `&`, `|`, `~` and indexing
(`/repo/hrosailing/processing/weigher.py:619-640`, `:819-840`). -/
inductive Statement : {X : Type} → FuzzyBool X → Prop
  | sigmoid (center sharpness sigma : ℝ) : Statement (sigmoid center sharpness sigma)
  | and {X : Type} {f g : FuzzyBool X} : Statement f → Statement g → Statement (f.and g)
  | or {X : Type} {f g : FuzzyBool X} : Statement f → Statement g → Statement (f.or g)
  | not {X : Type} {f : FuzzyBool X} : Statement f → Statement f.not
  | item {X Y : Type} {f : FuzzyBool X} (get : Y → X) : Statement f → Statement (f.item get)

theorem sigmoid_pos (c s σ x : ℝ) : 0 < sigmoid c s σ x := by
  unfold sigmoid; positivity

theorem sigmoid_lt_one (c s σ x : ℝ) : sigmoid c s σ x < 1 := by
  unfold sigmoid
  rw [div_lt_one (by positivity)]
  have := Real.exp_pos (σ * s * (x - c))
  linarith

/-- **C16.** Every fuzzy statement has truth values in `[0, 1]` (in fact strictly between `0` and `1`). -/
theorem C16_range {X : Type} {f : FuzzyBool X} (h : Statement f) (x : X) : 0 < f x ∧ f x < 1 := by
  induction h with
  | sigmoid c s σ => exact ⟨sigmoid_pos c s σ x, sigmoid_lt_one c s σ x⟩
  | and _ _ ihf ihg => exact ⟨lt_min (ihf x).1 (ihg x).1, min_lt_of_left_lt (ihf x).2⟩
  | or _ _ ihf ihg => exact ⟨lt_max_of_lt_left (ihf x).1, max_lt (ihf x).2 (ihg x).2⟩
  | not _ ihf => have := ihf x; simp only [FuzzyBool.not]; constructor <;> linarith
  | item get _ ihf => exact ihf (get x)

/-- **C16.** `&` and `|` are commutative, associative, idempotent, absorptive and distribute over each other. -/
theorem C16_lattice {X : Type} (f g h : FuzzyBool X) :
    f.and g = g.and f ∧ f.or g = g.or f ∧
    (f.and g).and h = f.and (g.and h) ∧ (f.or g).or h = f.or (g.or h) ∧
    f.and f = f ∧ f.or f = f ∧
    f.and (f.or g) = f ∧ f.or (f.and g) = f ∧
    f.and (g.or h) = (f.and g).or (f.and h) ∧ f.or (g.and h) = (f.or g).and (f.or h) := by
  refine ⟨?_, ?_, ?_, ?_, ?_, ?_, ?_, ?_, ?_, ?_⟩ <;> funext x <;> simp only [FuzzyBool.and, FuzzyBool.or]
  · exact min_comm _ _
  · exact max_comm _ _
  · exact min_assoc _ _ _
  · exact max_assoc _ _ _
  · exact min_self _
  · exact max_self _
  · exact min_eq_left (le_max_left _ _)
  · exact max_eq_left (min_le_left _ _)
  · exact inf_sup_left (f x) (g x) (h x)
  · exact sup_inf_left (f x) (g x) (h x)

/-- **C16.** `~` is an involution satisfying de Morgan's laws. -/
theorem C16_de_morgan {X : Type} (f g : FuzzyBool X) :
    f.not.not = f ∧ (f.and g).not = f.not.or g.not ∧ (f.or g).not = f.not.and g.not := by
  refine ⟨?_, ?_, ?_⟩ <;> funext x <;> simp only [FuzzyBool.and, FuzzyBool.or, FuzzyBool.not]
  · ring
  · rcases le_total (f x) (g x) with h | h
    · rw [min_eq_left h, max_eq_left (by linarith)]
    · rw [min_eq_right h, max_eq_right (by linarith)]
  · rcases le_total (f x) (g x) with h | h
    · rw [max_eq_right h, min_eq_right (by linarith)]
    · rw [max_eq_left h, min_eq_left (by linarith)]

/-- **C16.** `~(x < a)` agrees with `x > a` (for a variable with any pending sharpness). -/
theorem C16_not_lt (v : FuzzyVar ℝ) (a : ℝ) : (v.compare 1 a).1.not = (v.compare (-1) a).1 := by
  funext x
  simp only [FuzzyVar.compare, FuzzyVar.take, FuzzyBool.not, sigmoid]
  have e : Real.exp (-1 * v.next * (x - a)) = (Real.exp (1 * v.next * (x - a)))⁻¹ := by
    rw [← Real.exp_neg]; ring_nf
  rw [e]
  have := Real.exp_pos (1 * v.next * (x - a))
  field_simp
  ring

/-- **C16.** Indexing is compatible with the logical operations. -/
theorem C16_item {X Y : Type} (f g : FuzzyBool X) (get : Y → X) :
    (f.and g).item get = (f.item get).and (g.item get) ∧ (f.or g).item get = (f.item get).or (g.item get) ∧
    f.not.item get = (f.item get).not := ⟨rfl, rfl, rfl⟩

/-- **C16.** With positive sharpness, `x < a` is the more true the smaller `x` is, it is above `1/2` exactly for
`x` below `a`, and `x > a` the other way round. -/
theorem C16_monotone {s a : ℝ} (hs : 0 < s) :
    StrictAnti (sigmoid a s 1) ∧ StrictMono (sigmoid a s (-1)) ∧
    (∀ x, 1 / 2 < sigmoid a s 1 x ↔ x < a) ∧ ∀ x, 1 / 2 < sigmoid a s (-1) x ↔ a < x := by
  refine ⟨?_, ?_, ?_, ?_⟩
  · intro x y hxy
    unfold sigmoid
    apply one_div_lt_one_div_of_lt (by positivity)
    have : Real.exp (1 * s * (x - a)) < Real.exp (1 * s * (y - a)) := by
      rw [Real.exp_lt_exp]; nlinarith
    linarith
  · intro x y hxy
    unfold sigmoid
    apply one_div_lt_one_div_of_lt (by positivity)
    have : Real.exp (-1 * s * (y - a)) < Real.exp (-1 * s * (x - a)) := by
      rw [Real.exp_lt_exp]; nlinarith
    linarith
  · intro x
    unfold sigmoid
    rw [one_div_lt_one_div (by norm_num) (by positivity)]
    have h1 : (1 : ℝ) + Real.exp (1 * s * (x - a)) < 2 ↔ Real.exp (1 * s * (x - a)) < Real.exp 0 := by
      rw [Real.exp_zero]; constructor <;> intro h <;> linarith
    rw [h1, Real.exp_lt_exp]
    constructor
    · intro h
      by_contra hx
      push Not at hx
      have : 0 ≤ 1 * s * (x - a) := by
        have : 0 ≤ x - a := by linarith
        positivity
      linarith
    · intro h; nlinarith
  · intro x
    unfold sigmoid
    rw [one_div_lt_one_div (by norm_num) (by positivity)]
    have h1 : (1 : ℝ) + Real.exp (-1 * s * (x - a)) < 2 ↔ Real.exp (-1 * s * (x - a)) < Real.exp 0 := by
      rw [Real.exp_zero]; constructor <;> intro h <;> linarith
    rw [h1, Real.exp_lt_exp]
    constructor
    · intro h
      by_contra hx
      push Not at hx
      have : 0 ≤ s * (a - x) := mul_nonneg hs.le (by linarith)
      nlinarith
    · intro h; nlinarith

example : Statement ((((sigmoid 2 10 1).item (fun p : ℝ × ℝ => p.1)).and
    ((sigmoid 3 10 (-1)).item (fun p : ℝ × ℝ => p.2))).not) :=
  .not (.and (.item _ (.sigmoid _ _ _)) (.item _ (.sigmoid _ _ _)))

/-! ## C17 -/

/-- The sharpness a user expects in a history: the one set by the operation immediately before, otherwise the
default. -/
def expected {S : Type} (default : S) : Option (VarOp S) → S
  | some (.call s) => s
  | _ => default

theorem run_from {S : Type} (v : FuzzyVar S) (prev : Option (VarOp S))
    (hv : v.next = expected v.sharpness prev) (h : List (VarOp S)) (i : Nat) (o : VarOp S)
    (hi : h[i]? = some o) :
    (v.run h)[i]? = some (match o with
      | .call _ => []
      | .compare => [expected v.sharpness (if i = 0 then prev else h[i - 1]?)]
      | .item => [expected v.sharpness (if i = 0 then prev else h[i - 1]?)]
      | .eq => [expected v.sharpness (if i = 0 then prev else h[i - 1]?), v.sharpness]) := by
  induction h generalizing v prev i with
  | nil => simp at hi
  | cons p h ih =>
    cases i with
    | zero =>
      simp only [List.getElem?_cons_zero, Option.some.injEq] at hi
      subst hi
      cases p <;> simp [FuzzyVar.run, FuzzyVar.step, FuzzyVar.take, hv]
    | succ i =>
      simp only [List.getElem?_cons_succ] at hi
      have hstep : (v.step p).2.sharpness = v.sharpness := by
        cases p <;> simp [FuzzyVar.step, FuzzyVar.call, FuzzyVar.take]
      have hnext : (v.step p).2.next = expected (v.step p).2.sharpness (some p) := by
        cases p <;> simp [FuzzyVar.step, FuzzyVar.call, FuzzyVar.take, expected]
      have := ih (v.step p).2 (some p) hnext i hi
      simp only [FuzzyVar.run, List.getElem?_cons_succ]
      rw [this, hstep]
      cases i with
      | zero => cases o <;> simp
      | succ i => cases o <;> simp

/-- **C17** (partial: comparisons other than `==`; see `C17_eq_false`). In every history of operations on a variable, a
comparison (or indexing) uses the sharpness set by the call immediately before it, and the default sharpness if
there is none. -/
theorem C17_one_shot_partial {S : Type} (default : S) (h : List (VarOp S)) (i : Nat)
    (hi : h[i]? = some .compare ∨ h[i]? = some .item) :
    ((FuzzyVar.init default).run h)[i]? =
      some [expected default (if i = 0 then none else h[i - 1]?)] := by
  rcases hi with hi | hi <;>
    exact run_from (FuzzyVar.init default) none rfl h i _ hi

/-- **C17.** What `==` does in every history: the sharpness set before is used for `<` only, `>` uses the default. -/
theorem C17_eq_actual {S : Type} (default : S) (h : List (VarOp S)) (i : Nat) (hi : h[i]? = some .eq) :
    ((FuzzyVar.init default).run h)[i]? =
      some [expected default (if i = 0 then none else h[i - 1]?), default] :=
  run_from (FuzzyVar.init default) none rfl h i _ hi

/-- **C17 is false** for `==`: `x(s) == a` is not the conjunction of `x(s) < a` and `x(s) > a` whenever the
sharpness `s` differs from the default. -/
theorem C17_eq_false {d s : ℝ} (hs : 0 < s) (hd : 0 < d) (hne : d < s) (a : ℝ) :
    (((FuzzyVar.init d).call s).eq a).1 ≠
      FuzzyBool.and (((FuzzyVar.init d).call s).compare 1 a).1 (((FuzzyVar.init d).call s).compare (-1) a).1 := by
  intro h
  have := congrFun h (a - 1)
  simp only [FuzzyVar.eq, FuzzyVar.compare, FuzzyVar.call, FuzzyVar.take, FuzzyVar.init, FuzzyBool.and, sigmoid] at this
  have e1 : a - 1 - a = -1 := by ring
  rw [e1] at this
  have h1 : Real.exp (1 * s * -1) < 1 := by rw [Real.exp_lt_one_iff]; linarith
  have h2 : (1 : ℝ) < Real.exp (-1 * d * -1) := by rw [Real.one_lt_exp_iff]; linarith
  have h3 : Real.exp (-1 * d * -1) < Real.exp (-1 * s * -1) := by rw [Real.exp_lt_exp]; linarith
  have p1 := Real.exp_pos (1 * s * -1)
  have l1 : 1 / (1 + Real.exp (-1 * d * -1)) < 1 / (1 + Real.exp (1 * s * -1)) :=
    one_div_lt_one_div_of_lt (by positivity) (by linarith)
  have l2 : 1 / (1 + Real.exp (-1 * s * -1)) < 1 / (1 + Real.exp (1 * s * -1)) :=
    one_div_lt_one_div_of_lt (by positivity) (by linarith)
  have l3 : 1 / (1 + Real.exp (-1 * s * -1)) < 1 / (1 + Real.exp (-1 * d * -1)) :=
    one_div_lt_one_div_of_lt (by positivity) (by linarith)
  rw [min_eq_right l1.le, min_eq_right l2.le] at this
  linarith

example : (FuzzyVar.init 10).run [.call 3, .compare, .compare, .call 4, .call 5, .eq] =
    [[], [3], [10], [], [], [5, 10]] := by decide

end Verif.Weigher
