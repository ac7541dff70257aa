import Mathlib.Analysis.Convex.SpecificFunctions.Basic
import Mathlib.Analysis.Convex.Mul
import Mathlib.Tactic.Linarith
import Mathlib.Tactic.Positivity
import Mathlib.Tactic.FieldSimp
import Verif.Model.Models2d

/-!
# Property C118: shapes of the model functions of one variable
-/

namespace Verif.Models2d

open Verif.Curve

theorem param_ok {params : List ℝ} {i : Nat} (h : i < params.length) : param params i = .ok params[i] := by
  simp [param, h]

theorem param_error {params : List ℝ} {i : Nat} (h : params.length ≤ i) : param params i = .error .indexError := by
  simp [param, h]

theorem polyLoop_ok (x : ℝ) (params : List ℝ) (l : List Nat) (val : ℝ) (h : ∀ i ∈ l, i < params.length) :
    polyLoop x params l val = .ok (val + (l.map fun i => params.getD i 0 * x ^ i).sum) := by
  induction l generalizing val with
  | nil => simp [polyLoop]
  | cons i l ih =>
    have hi := h i List.mem_cons_self
    simp only [polyLoop, param_ok hi, bind, Except.bind]
    rw [ih _ fun j hj => h j (List.mem_cons_of_mem _ hj)]
    simp [List.getD_eq_getElem?_getD, hi]
    ring

theorem polyLoop_error (x : ℝ) (params : List ℝ) (l : List Nat) (val : ℝ) (h : ∃ i ∈ l, params.length ≤ i) :
    polyLoop x params l val = .error .indexError := by
  induction l generalizing val with
  | nil => simp at h
  | cons i l ih =>
    by_cases hi : i < params.length
    · simp only [polyLoop, param_ok hi, bind, Except.bind]
      apply ih
      obtain ⟨j, hj, hl⟩ := h
      rcases List.mem_cons.1 hj with rfl | hj
      · omega
      · exact ⟨j, hj, hl⟩
    · simp only [polyLoop, param_error (Nat.le_of_not_lt hi), bind, Except.bind]

/-- **C118.** `polynomial_function` is the polynomial of the given degree with the parameters as coefficients; it needs one
parameter more than the degree. -/
theorem C118_polynomial (x : ℝ) (params : List ℝ) (deg : Nat) :
    (deg < params.length → polynomial x params deg = .ok (∑ i ∈ Finset.range (deg + 1), params.getD i 0 * x ^ i)) ∧
    (params.length ≤ deg → polynomial x params deg = .error .indexError) := by
  constructor
  · intro h
    unfold polynomial
    rw [polyLoop_ok]
    · rw [zero_add]
      rfl
    · intro i hi
      have := List.mem_range.1 hi
      omega
  · intro h
    exact polyLoop_error x params _ 0 ⟨deg, List.mem_range.2 (by omega), h⟩

example : polynomial 2 [1, 0, 3] 2 = .ok 13 ∧ polynomial 2 [1, 0] 2 = .error .indexError := by
  constructor
  · rw [(C118_polynomial 2 [1, 0, 3] 2).1 (by decide)]
    simp [Finset.sum_range_succ]
    norm_num
  · exact (C118_polynomial 2 [1, 0] 2).2 (by decide)

/-- **C118.** `inverted_parabola` is symmetric about its first parameter, where its value is the second one; it is the greatest
value exactly if the third parameter is not positive. -/
theorem C118_parabola (a0 a1 a2 : ℝ) (l : List ℝ) :
    ∃ f : ℝ → ℝ, (∀ x, invertedParabola x (a0 :: a1 :: a2 :: l) = .ok (f x)) ∧ f a0 = a1 ∧
      (∀ t, f (a0 + t) = f (a0 - t)) ∧ f (a0 + 1) = a1 + a2 ∧ (a2 ≤ 0 ↔ ∀ x, f x ≤ f a0) := by
  refine ⟨fun x => a1 + a2 * (x - a0) ^ 2, fun x => rfl, by simp, fun t => by ring, by ring, ?_⟩
  simp only [sub_self, ne_eq, OfNat.ofNat_ne_zero, not_false_eq_true, zero_pow, mul_zero, add_zero]
  constructor
  · intro h x
    nlinarith [mul_nonneg (neg_nonneg.2 h) (sq_nonneg (x - a0))]
  · intro h
    have := h (a0 + 1)
    simp only [add_sub_cancel_left] at this
    linarith

/-! ### concave functions -/

/-- The values of `concave_function`. -/
theorem concave_values (x a0 a1 a2 a3 : ℝ) :
    concave x [a0, a1, a2, a3] true true = .ok (a2 - a0 * Real.exp (a1 - x) - a3 * x ^ 2) ∧
    concave x [a0, a1, a2] false true = .ok (a2 - a0 * Real.exp (a1 - x)) ∧
    concave x [a0, a1, a2] true false = .ok (a0 + a1 * x - a2 * x ^ 2) := by
  refine ⟨rfl, rfl, ?_⟩
  have h := (C118_polynomial x [a0, a1, -a2] 2).1 (by simp)
  simp only [concave, param, Bool.and_true, Bool.false_eq_true, if_false, if_true, List.getElem?_cons_zero,
    List.getElem?_cons_succ, bind, Except.bind, h]
  simp [Finset.sum_range_succ]
  ring

theorem concaveOn_neg_exp {a0 : ℝ} (a1 a2 : ℝ) (h : 0 ≤ a0) :
    ConcaveOn ℝ Set.univ fun x => a2 - a0 * Real.exp (a1 - x) := by
  refine ⟨convex_univ, ?_⟩
  intro x _ y _ a b ha hb hab
  have hc := convexOn_exp.2 (Set.mem_univ (a1 - x)) (Set.mem_univ (a1 - y)) ha hb hab
  simp only [smul_eq_mul] at hc ⊢
  have e : a * (a1 - x) + b * (a1 - y) = a1 - (a * x + b * y) := by
    have : a1 = (a + b) * a1 := by rw [hab, one_mul]
    linear_combination -this
  rw [e] at hc
  have := mul_le_mul_of_nonneg_left hc h
  have h2 : a2 = (a + b) * a2 := by rw [hab, one_mul]
  nlinarith

theorem concaveOn_square {a : ℝ} (h : 0 ≤ a) : ConcaveOn ℝ Set.univ fun x => -(a * x ^ 2) := by
  refine ⟨convex_univ, ?_⟩
  intro x _ y _ s t hs ht hst
  simp only [smul_eq_mul]
  have : t = 1 - s := by linarith
  subst this
  nlinarith [mul_nonneg (mul_nonneg h (mul_nonneg hs ht)) (sq_nonneg (x - y))]

/-- **C118** (partial: if the coefficients are not negative). `concave_function` is concave in all three modes. -/
theorem C118_concave_partial {a0 a1 a2 a3 : ℝ} {f g h : ℝ → ℝ}
    (hf : ∀ x, concave x [a0, a1, a2, a3] true true = .ok (f x))
    (hg : ∀ x, concave x [a0, a1, a2] false true = .ok (g x))
    (hh : ∀ x, concave x [a0, a1, a2] true false = .ok (h x)) :
    (0 ≤ a0 → 0 ≤ a3 → ConcaveOn ℝ Set.univ f) ∧ (0 ≤ a0 → ConcaveOn ℝ Set.univ g) ∧
    (0 ≤ a2 → ConcaveOn ℝ Set.univ h) := by
  have ef : f = fun x => a2 - a0 * Real.exp (a1 - x) + -(a3 * x ^ 2) := by
    funext x
    have := (concave_values x a0 a1 a2 a3).1
    rw [hf] at this
    rw [Except.ok.inj this]
    ring
  have eg : g = fun x => a2 - a0 * Real.exp (a1 - x) := by
    funext x
    have := (concave_values x a0 a1 a2 a3).2.1
    rw [hg] at this
    exact Except.ok.inj this
  have eh : h = fun x => a0 + a1 * x + -(a2 * x ^ 2) := by
    funext x
    have := (concave_values x a0 a1 a2 a3).2.2
    rw [hh] at this
    rw [Except.ok.inj this]
    ring
  refine ⟨?_, ?_, ?_⟩
  · intro h0 h3
    rw [ef]
    exact (concaveOn_neg_exp a1 a2 h0).add (concaveOn_square h3)
  · intro h0
    rw [eg]
    exact concaveOn_neg_exp a1 a2 h0
  · intro h2
    rw [eh]
    refine ConcaveOn.add ⟨convex_univ, ?_⟩ (concaveOn_square h2)
    intro x _ y _ s t hs ht hst
    have : t = 1 - s := by linarith
    subst this
    simp only [smul_eq_mul]
    apply le_of_eq
    ring

example : ∃ f g h : ℝ → ℝ, (∀ x, concave x [1, 2, 3, 4] true true = .ok (f x)) ∧
    (∀ x, concave x [1, 2, 3] false true = .ok (g x)) ∧ ∀ x, concave x [1, 2, 3] true false = .ok (h x) :=
  ⟨_, _, _, fun x => (concave_values x 1 2 3 4).1, fun x => (concave_values x 1 2 3 4).2.1,
    fun x => (concave_values x 1 2 3 4).2.2⟩

/-- **C118 is false** for negative coefficients: with the default options `concave_function` is concave only if the third
parameter is not negative. -/
theorem C118_concave_false {a0 a1 a2 : ℝ} (h2 : a2 < 0) {h : ℝ → ℝ}
    (hh : ∀ x, concave x [a0, a1, a2] true false = .ok (h x)) : ¬ ConcaveOn ℝ Set.univ h := by
  intro hc
  have eh : ∀ x, h x = a0 + a1 * x - a2 * x ^ 2 := by
    intro x
    have := (concave_values x a0 a1 a2 0).2.2
    rw [hh] at this
    exact Except.ok.inj this
  have := hc.2 (Set.mem_univ (-1)) (Set.mem_univ 1) (show (0 : ℝ) ≤ 1 / 2 by norm_num)
    (show (0 : ℝ) ≤ 1 / 2 by norm_num) (by norm_num)
  simp only [eh, smul_eq_mul] at this
  linarith

/-- **C118.** At least one of `downturn` and `sat_limit` has to be set. -/
theorem C118_flags (x : ℝ) (params : List ℝ) : concave x params false false = .error .valueError := rfl

/-- **C118.** With `sat_limit` and without `downturn` the third parameter is the limit for large arguments; for a positive
first parameter the values increase and stay below it. -/
theorem C118_limit {a0 a1 a2 : ℝ} {g : ℝ → ℝ} (hg : ∀ x, concave x [a0, a1, a2] false true = .ok (g x)) :
    Filter.Tendsto g Filter.atTop (nhds a2) ∧ (0 < a0 → StrictMono g ∧ ∀ x, g x < a2) := by
  have eg : g = fun x => a2 - a0 * Real.exp (a1 - x) := by
    funext x
    have := (concave_values x a0 a1 a2 0).2.1
    rw [hg] at this
    exact Except.ok.inj this
  subst eg
  refine ⟨?_, fun h0 => ⟨?_, ?_⟩⟩
  · have h1 : Filter.Tendsto (fun x : ℝ => a1 - x) Filter.atTop Filter.atBot := by
      simpa [sub_eq_add_neg] using Filter.tendsto_atBot_add_const_left _ a1 Filter.tendsto_neg_atTop_atBot
    have h2 := (Real.tendsto_exp_atBot.comp h1).const_mul a0
    have h3 := h2.const_sub a2
    simpa [Function.comp_def] using h3
  · intro x y hxy
    have : Real.exp (a1 - y) < Real.exp (a1 - x) := Real.exp_lt_exp.2 (by linarith)
    have := mul_lt_mul_of_pos_left this h0
    simp only
    linarith
  · intro x
    have := mul_pos h0 (Real.exp_pos (a1 - x))
    simp only
    linarith

/-! ### s-shaped functions -/

/-- The values of `s_shaped`. -/
theorem sShaped_values (x a0 a1 a2 a3 : ℝ) (l : List ℝ) :
    sShaped x (a0 :: a1 :: a2 :: l) false = .ok (a2 / (1 + Real.exp (a0 - a1 * x))) ∧
    sShaped x [a0, a1, a2, a3] true = .ok (a2 / (1 + Real.exp (a0 - a1 * x)) - a3 * x ^ 2) := ⟨rfl, rfl⟩

/-- **C118.** Without `downturn`, `s_shaped` is strictly between 0 and its third parameter, increases strictly, tends to the
third parameter, and is symmetric about its inflection point, if the second and third parameter are positive. -/
theorem C118_s_shaped {a0 a1 a2 : ℝ} (h1 : 0 < a1) (h2 : 0 < a2) {l : List ℝ} {f : ℝ → ℝ}
    (hf : ∀ x, sShaped x (a0 :: a1 :: a2 :: l) false = .ok (f x)) :
    (∀ x, 0 < f x ∧ f x < a2) ∧ StrictMono f ∧ Filter.Tendsto f Filter.atTop (nhds a2) ∧
    (∀ x, f x + f (2 * (a0 / a1) - x) = a2) ∧ f (a0 / a1) = a2 / 2 := by
  have ef : f = fun x => a2 / (1 + Real.exp (a0 - a1 * x)) := by
    funext x
    have := (sShaped_values x a0 a1 a2 0 l).1
    rw [hf] at this
    exact Except.ok.inj this
  subst ef
  have hpos : ∀ x, 0 < 1 + Real.exp (a0 - a1 * x) := fun x => by positivity
  refine ⟨fun x => ⟨div_pos h2 (hpos x), ?_⟩, ?_, ?_, ?_, ?_⟩
  · rw [div_lt_iff₀ (hpos x)]
    nlinarith [Real.exp_pos (a0 - a1 * x)]
  · intro x y hxy
    have := mul_lt_mul_of_pos_left hxy h1
    have : Real.exp (a0 - a1 * y) < Real.exp (a0 - a1 * x) := Real.exp_lt_exp.2 (by linarith)
    exact div_lt_div_of_pos_left h2 (hpos y) (by linarith)
  · have h3 : Filter.Tendsto (fun x : ℝ => a0 - a1 * x) Filter.atTop Filter.atBot := by
      have := Filter.tendsto_neg_atTop_atBot.comp (Filter.Tendsto.const_mul_atTop h1 Filter.tendsto_id)
      simpa [sub_eq_add_neg, Function.comp_def] using Filter.tendsto_atBot_add_const_left _ a0 this
    have h4 := (Real.tendsto_exp_atBot.comp h3).const_add 1
    have h5 := (tendsto_const_nhds (x := a2)).div h4 (by norm_num)
    rw [add_zero, div_one] at h5
    exact h5
  · intro x
    have e : a0 - a1 * (2 * (a0 / a1) - x) = -(a0 - a1 * x) := by
      field_simp
      ring
    simp only [e, Real.exp_neg]
    have := Real.exp_pos (a0 - a1 * x)
    field_simp
    ring
  · have e : a0 - a1 * (a0 / a1) = 0 := by
      field_simp
      ring
    simp only [e, Real.exp_zero]
    norm_num

example : ∃ f : ℝ → ℝ, ∀ x, sShaped x [1, 2, 3] false = .ok (f x) := ⟨_, fun x => (sShaped_values x 1 2 3 0 []).1⟩

/-- **C118.** With `downturn` the fourth parameter times the square of the argument is subtracted; without it the fourth
parameter does not matter and may be left out. -/
theorem C118_downturn (x a0 a1 a2 a3 : ℝ) :
    (∃ v, sShaped x [a0, a1, a2] false = .ok v ∧ sShaped x [a0, a1, a2, a3] false = .ok v ∧
      sShaped x [a0, a1, a2, a3] true = .ok (v - a3 * x ^ 2)) ∧
    sShaped x [a0, a1, a2] true = .error .indexError :=
  ⟨⟨_, rfl, rfl, rfl⟩, rfl⟩

/-! ### gaussian functions -/

/-- **C118.** `gaussian_model` with positive first and third parameter is symmetric about the second parameter, largest
there, and the larger the nearer; with `offset` the fourth parameter is added. -/
theorem C118_gaussian {a0 a1 a2 a3 : ℝ} (h0 : 0 < a0) (h2 : 0 < a2) :
    ∃ f : ℝ → ℝ, (∀ x, gaussian x [a0, a1, a2] false = .ok (some (f x))) ∧
      (∀ x, gaussian x [a0, a1, a2, a3] true = .ok (some (f x + a3))) ∧ f a1 = a0 ∧ (∀ x, 0 < f x) ∧
      (∀ t, f (a1 + t) = f (a1 - t)) ∧ ∀ x y, |x - a1| < |y - a1| → f y < f x := by
  refine ⟨fun x => a0 * Real.exp (-(1 / 2) * (x - a1) ^ 2 / a2), ?_, ?_, ?_, ?_, ?_, ?_⟩
  · intro x
    simp [gaussian, param, bind, Except.bind, pure, Except.pure, bump, h2.ne']
  · intro x
    simp [gaussian, param, bind, Except.bind, pure, Except.pure, bump, h2.ne']
  · simp
  · intro x
    positivity
  · intro t
    simp
  · intro x y hxy
    apply mul_lt_mul_of_pos_left _ h0
    apply Real.exp_lt_exp.2
    apply div_lt_div_of_pos_right _ h2
    have := sq_lt_sq.2 hxy
    linarith

example : (0 : ℝ) < 3 ∧ (0 : ℝ) < 2 := by norm_num

/-- **C118 is false** for a negative third parameter: the values grow beyond all bounds. -/
theorem C118_gaussian_false {a0 a1 a2 : ℝ} (h0 : 0 < a0) (h2 : a2 < 0) (B : ℝ) :
    ∃ x v, gaussian x [a0, a1, a2] false = .ok (some v) ∧ B < v := by
  obtain ⟨n, hn⟩ := exists_nat_gt (max 0 (B / a0))
  obtain ⟨h1, h3⟩ := max_lt_iff.1 hn
  refine ⟨a1 + Real.sqrt (-2 * a2 * n), a0 * Real.exp n, ?_, ?_⟩
  · have hs : 0 ≤ -2 * a2 * n := by nlinarith
    have e : -(1 / 2) * (a1 + Real.sqrt (-2 * a2 * n) - a1) ^ 2 / a2 = n := by
      rw [add_sub_cancel_left, Real.sq_sqrt hs]
      have := h2.ne
      field_simp
    have e' : gaussian (a1 + Real.sqrt (-2 * a2 * n)) [a0, a1, a2] false = .ok (bump (a1 + Real.sqrt (-2 * a2 * n)) a0 a1 a2) :=
      rfl
    rw [e', bump, if_neg h2.ne, e]
  · have h4 : (n : ℝ) < Real.exp n := lt_of_lt_of_le (by linarith) (Real.add_one_le_exp _)
    rw [div_lt_iff₀ h0] at h3
    nlinarith

/-- **C118.** With third parameter 0 `gaussian_model` is `nan` at the second parameter and 0 everywhere else. -/
theorem C118_gaussian_zero (x a0 a1 a3 : ℝ) :
    (gaussian x [a0, a1, 0] false = .ok none ↔ x = a1) ∧ (x ≠ a1 → gaussian x [a0, a1, 0] false = .ok (some 0) ∧
      gaussian x [a0, a1, 0, a3] true = .ok (some a3)) := by
  by_cases h : x = a1 <;> simp [gaussian, param, bind, Except.bind, pure, Except.pure, bump, h]

example : gaussian 3 [2, 3, 0] false = .ok none ∧ gaussian 4 [2, 3, 0] false = .ok (some 0) :=
  ⟨(C118_gaussian_zero 3 2 3 0).1.mpr rfl, ((C118_gaussian_zero 4 2 3 0).2 (by norm_num)).1⟩

/-- **C118.** `gmm_model` is the sum of two gaussians and an offset. -/
theorem C118_gmm (x a0 a1 a2 a3 a4 a5 a6 : ℝ) (h2 : a2 ≠ 0) (h5 : a5 ≠ 0) :
    ∃ u v, gaussian x [a0, a1, a2] false = .ok (some u) ∧ gaussian x [a3, a4, a5] false = .ok (some v) ∧
      gmm x [a0, a1, a2, a3, a4, a5, a6] = .ok (some (u + v + a6)) := by
  refine ⟨a0 * Real.exp (-(1 / 2) * (x - a1) ^ 2 / a2), a3 * Real.exp (-(1 / 2) * (x - a4) ^ 2 / a5), ?_, ?_, ?_⟩ <;>
  simp [gaussian, gmm, param, bind, Except.bind, pure, Except.pure, bump, h2, h5]

/-! ### gompertz curves -/

/-- **C118.** `gompertz_model` with positive parameters, the second of them less than 1, is strictly between 0 and its third
parameter and increases strictly. -/
theorem C118_gompertz {a0 a1 a2 : ℝ} (h0 : 0 < a0) (h1 : 0 < a1) (h1' : a1 < 1) (h2 : 0 < a2) :
    ∃ f : ℝ → ℝ, (∀ x, gompertz x [a0, a1, a2] false = .ok (some (f x))) ∧ (∀ x, 0 < f x ∧ f x < a2) ∧ StrictMono f := by
  refine ⟨fun x => a2 * Real.exp (-a0 * a1 ^ x), ?_, ?_, ?_⟩
  · intro x
    simp [gompertz, param, bind, Except.bind, pure, Except.pure, power, h1]
  · intro x
    have := mul_pos h0 (Real.rpow_pos_of_pos h1 x)
    refine ⟨by positivity, ?_⟩
    have : Real.exp (-a0 * a1 ^ x) < 1 := by
      rw [← Real.exp_zero]
      apply Real.exp_lt_exp.2
      linarith
    nlinarith
  · intro x y hxy
    apply mul_lt_mul_of_pos_left _ h2
    apply Real.exp_lt_exp.2
    have := Real.rpow_lt_rpow_of_exponent_gt h1 h1' hxy
    nlinarith

/-- **C118 is false** for `gompertz_model` with `neg=True` and a positive second parameter: the power of a negative number
is not a number unless the argument is an integer. -/
theorem C118_gompertz_false {a0 a1 a2 x : ℝ} (h1 : 0 < a1) (hx : x ≠ ⌊x⌋) :
    gompertz x [a0, a1, a2] true = .ok none := by
  have h : ¬ a1 < 0 := by linarith
  simp [gompertz, param, bind, Except.bind, pure, Except.pure, power, h, h1.ne', hx]

example : (0 : ℝ) < 2 ∧ (1 / 2 : ℝ) ≠ ⌊(1 / 2 : ℝ)⌋ := by norm_num

/-- **C118.** `gompertz_model` with second parameter 0, either way, is a step: for positive arguments it has its third
parameter as value, at 0 it is smaller by the factor `exp (-a0)`, and for negative arguments the power of 0 is infinite. -/
theorem C118_gompertz_step (a0 a2 : ℝ) (neg : Bool) :
    (∀ x, 0 < x → gompertz x [a0, 0, a2] neg = .ok (some a2)) ∧
    gompertz 0 [a0, 0, a2] neg = .ok (some (a2 * Real.exp (-a0))) ∧
    ∀ x, x < 0 → gompertz x [a0, 0, a2] neg = .ok none := by
  refine ⟨fun x hx => ?_, ?_, fun x hx => ?_⟩
  · cases neg <;> simp [gompertz, param, bind, Except.bind, pure, Except.pure, power, hx.not_gt, hx.ne']
  · cases neg <;> simp [gompertz, param, bind, Except.bind, pure, Except.pure, power]
  · cases neg <;> simp [gompertz, param, bind, Except.bind, pure, Except.pure, power, hx]

/-- **C118.** The functions used by the model functions of wind speed and wind angle are these ones. -/
theorem C118_agree (x : ℝ) (params : List ℝ) :
    Curve.sShaped x params = sShaped x params true ∧
    (3 ≤ params.length → Curve.concaveFunction x params = concave x params true false) ∧
    (3 ≤ params.length → params[2]? ≠ some 0 → gaussian x params false = (Curve.gaussianModel x params).map some) := by
  refine ⟨rfl, ?_, ?_⟩
  · intro h
    match params, h with
    | a0 :: a1 :: a2 :: l, _ =>
      have e := (concave_values x a0 a1 a2 0).2.2
      have e' : concave x (a0 :: a1 :: a2 :: l) true false = concave x [a0, a1, a2] true false := rfl
      rw [e', e]
      simp only [Curve.concaveFunction, param, List.getElem?_cons_zero, List.getElem?_cons_succ, bind, Except.bind, pure,
        Except.pure]
      congr 1
      ring
  · intro h h2
    match params, h with
    | a0 :: a1 :: a2 :: l, _ =>
      have h2' : a2 ≠ 0 := by simpa using h2
      simp [gaussian, Curve.gaussianModel, param, bind, Except.bind, pure, Except.pure, bump, h2', Except.map]

end Verif.Models2d
