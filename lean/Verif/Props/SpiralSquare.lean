import Mathlib.LinearAlgebra.Matrix.ToLin
import Mathlib.MeasureTheory.Measure.Lebesgue.EqHaar
import Verif.Props.SpiralReturns

/-!
# Property C136: squares on which the samplers return

The tolerance of the smallest circle matters less the larger the figure is. For all but finitely many directions of a
square no two points of the spiral leave it at the same scale, hence all hypotheses on the samplers can be met.
-/

namespace Verif.Sampler

/-! ### Scaling the data -/

/-- The point scaled by a factor. -/
def scalePt (s : ℝ) (p : ℝ × ℝ) : ℝ × ℝ := (s * p.1, s * p.2)

/-- The circle scaled by a factor. -/
def scaleCircle (s : ℝ) (c : Circle) : Circle := (scalePt s c.1, s * c.2)

theorem norm2_scale {s : ℝ} (hs : 0 < s) (x y : ℝ) : norm2 (s * x, s * y) = s * norm2 (x, y) := by
  have : (s * x) ^ 2 + (s * y) ^ 2 = s ^ 2 * (x ^ 2 + y ^ 2) := by ring
  simp only [norm2]
  rw [this, Real.sqrt_mul (sq_nonneg s), Real.sqrt_sq hs.le]

theorem circle2_scale {s : ℝ} (hs : 0 < s) (p q : ℝ × ℝ) :
    circle2 (scalePt s p) (scalePt s q) = scaleCircle s (circle2 p q) := by
  simp only [circle2, scaleCircle, scalePt, ← mul_sub, norm2_scale hs, Prod.mk.injEq]
  refine ⟨⟨by ring, by ring⟩, by ring⟩

theorem fits_scale {s : ℝ} (hs : 0 < s) (p : ℝ × ℝ) (c : Circle) : fits (scalePt s p) (scaleCircle s c) ↔ fits p c := by
  simp only [fits, scaleCircle, scalePt, ← mul_sub, norm2_scale hs]
  exact mul_le_mul_iff_right₀ hs

theorem solveCircle_scale {s : ℝ} (hs : 0 < s) (p q r : ℝ × ℝ) :
    solveCircle (scalePt s p) (scalePt s q) (scalePt s r) =
      (solveCircle p q r).map fun x => (s ^ 2 * x.1, s * x.2.1, s * x.2.2) := by
  have hn : ∀ p : ℝ × ℝ, norm2 (scalePt s p) = s * norm2 p := fun p => norm2_scale hs p.1 p.2
  have hD : det3 1 (-(s * p.1)) (-(s * p.2)) 1 (-(s * q.1)) (-(s * q.2)) 1 (-(s * r.1)) (-(s * r.2)) =
      s ^ 2 * det3 1 (-p.1) (-p.2) 1 (-q.1) (-q.2) 1 (-r.1) (-r.2) := by
    simp only [det3]; ring
  simp only [solveCircle, hn]
  simp only [scalePt]
  simp only [hD]
  by_cases h : det3 1 (-p.1) (-p.2) 1 (-q.1) (-q.2) 1 (-r.1) (-r.2) = 0
  · rw [if_pos (by rw [h, mul_zero]), if_pos h, Option.map_none]
  · rw [if_neg (mul_ne_zero (pow_ne_zero 2 hs.ne') h), if_neg h, Option.map_some]
    have h2 : s ^ 2 * det3 1 (-p.1) (-p.2) 1 (-q.1) (-q.2) 1 (-r.1) (-r.2) ≠ 0 := mul_ne_zero (pow_ne_zero 2 hs.ne') h
    simp only [Option.some.injEq, Prod.mk.injEq]
    refine ⟨?_, ?_, ?_⟩ <;>
    · rw [← mul_div_assoc, div_eq_div_iff h2 h]
      simp only [det3]
      ring

theorem smallCircle_scale {s : ℝ} (hs : 0 < s) (l : List (ℝ × ℝ)) :
    smallCircle (l.map (scalePt s)) = (smallCircle l).map (scaleCircle s) := by
  match l with
  | [] => simp [smallCircle, scaleCircle, scalePt, Except.map]
  | [p] => simp [smallCircle, scaleCircle, scalePt, Except.map]
  | [p, q] => simp [smallCircle, circle2_scale hs, Except.map]
  | [p, q, r] =>
    simp only [List.map_cons, List.map_nil, smallCircle, solveCircle_scale hs]
    cases h : solveCircle p q r with
    | some x =>
      obtain ⟨a, b, c⟩ := x
      have : (s * b) ^ 2 / 4 + (s * c) ^ 2 / 4 - s ^ 2 * a = s ^ 2 * (b ^ 2 / 4 + c ^ 2 / 4 - a) := by ring
      simp only [Option.map_some, Except.map, scaleCircle, scalePt, this, Except.ok.injEq, Prod.mk.injEq]
      exact ⟨⟨by ring, by ring⟩, by rw [Real.sqrt_mul (sq_nonneg s), Real.sqrt_sq hs.le]⟩
    | none =>
      have hf : ∀ x y z, fits (scalePt s x) (circle2 (scalePt s y) (scalePt s z)) ↔ fits x (circle2 y z) :=
        fun x y z => by rw [circle2_scale hs, fits_scale hs]
      simp only [Option.map_none, circle2_scale hs]
      by_cases h1 : fits p (circle2 q r)
      · rw [if_pos ((hf _ _ _).2 h1), if_pos h1]; rfl
      rw [if_neg fun h => h1 ((hf _ _ _).1 h), if_neg h1]
      by_cases h2 : fits q (circle2 p r)
      · rw [if_pos ((hf _ _ _).2 h2), if_pos h2]; rfl
      rw [if_neg fun h => h2 ((hf _ _ _).1 h), if_neg h2]
      by_cases h3 : fits r (circle2 p q)
      · rw [if_pos ((hf _ _ _).2 h3), if_pos h3]; rfl
      rw [if_neg fun h => h3 ((hf _ _ _).1 h), if_neg h3]; rfl
  | p :: q :: r :: x :: l => simp [smallCircle, Except.map]

/-- **C136.** If the tolerance is small compared with the data, then a tolerance scaled by the same factor as the data is
small, too. -/
theorem C136_scale {pts : List (ℝ × ℝ)} {eps : ℝ} (h : Separated pts eps) {s : ℝ} (hs : 0 < s) :
    Separated (pts.map (scalePt s)) (s * eps) := by
  have hinv : ∀ p, scalePt s (scalePt s⁻¹ p) = p := fun p => by
    simp [scalePt, mul_inv_cancel_left₀ hs.ne']
  have hinv' : ∀ p, scalePt s⁻¹ (scalePt s p) = p := fun p => by
    simp [scalePt, inv_mul_cancel_left₀ hs.ne']
  intro l hl h3 c hc p hp hin
  obtain ⟨p, hp0, rfl⟩ := List.mem_map.1 hp
  have hl0 : (l.map (scalePt s⁻¹)).map (scalePt s) = l := by
    rw [List.map_map]
    exact (List.map_congr_left fun q _ => hinv q).trans (List.map_id l)
  rw [← hl0, smallCircle_scale hs] at hc
  cases hc0 : smallCircle (l.map (scalePt s⁻¹)) with
  | error e => rw [hc0] at hc; simp [Except.map] at hc
  | ok c0 =>
    rw [hc0] at hc
    simp only [Except.map, Except.ok.injEq] at hc
    subst hc
    have := h _ (by
      intro q hq
      obtain ⟨q1, hq1, rfl⟩ := List.mem_map.1 hq
      obtain ⟨q2, hq2, rfl⟩ := List.mem_map.1 (hl q1 hq1)
      rwa [hinv']) (by rwa [List.length_map]) c0 hc0 p hp0 (by
      simp only [isInCircle, scaleCircle, scalePt, ← mul_sub, norm2_scale hs, ← mul_add] at hin
      exact lt_of_mul_lt_mul_left hin hs.le)
    simp only [sqDist, scaleCircle, scalePt] at this ⊢
    have h2 := mul_le_mul_of_nonneg_left this (sq_nonneg s)
    nlinarith

/-! ### Squares -/

/-- The corners of a square about the origin. -/
def square (a b : ℝ) : List (ℝ × ℝ) := [(a - b, b + a), (a + b, b - a), (-a - b, a - b), (b - a, -a - b)]

/-- The sides of the square. -/
def squareSides (a b : ℝ) : List (Facet ℝ) :=
  [(a, b, -(a ^ 2 + b ^ 2)), (-a, -b, -(a ^ 2 + b ^ 2)), (-b, a, -(a ^ 2 + b ^ 2)), (b, -a, -(a ^ 2 + b ^ 2))]

theorem square_inside (a b : ℝ) (p : ℝ × ℝ) : Inside (squareSides a b) p ↔
    |a * p.1 + b * p.2| ≤ a ^ 2 + b ^ 2 ∧ |a * p.2 - b * p.1| ≤ a ^ 2 + b ^ 2 := by
  rw [abs_le, abs_le]
  constructor
  · intro h
    have h1 := h a b (-(a ^ 2 + b ^ 2)) (by simp [squareSides])
    have h2 := h (-a) (-b) (-(a ^ 2 + b ^ 2)) (by simp [squareSides])
    have h3 := h (-b) a (-(a ^ 2 + b ^ 2)) (by simp [squareSides])
    have h4 := h b (-a) (-(a ^ 2 + b ^ 2)) (by simp [squareSides])
    exact ⟨⟨by linarith, by linarith⟩, by linarith, by linarith⟩
  · rintro ⟨⟨h1, h2⟩, h3, h4⟩ x y z hm
    simp only [squareSides, List.mem_cons, Prod.mk.injEq, List.not_mem_nil, or_false] at hm
    rcases hm with ⟨rfl, rfl, rfl⟩ | ⟨rfl, rfl, rfl⟩ | ⟨rfl, rfl, rfl⟩ | ⟨rfl, rfl, rfl⟩ <;> linarith

/-- The square is the image of another one. -/
noncomputable def squareMap (a b : ℝ) : ℝ × ℝ →ₗ[ℝ] ℝ × ℝ :=
  Matrix.toLin (Module.Basis.finTwoProd ℝ) (Module.Basis.finTwoProd ℝ) !![a, -b; b, a]

theorem squareMap_apply (a b : ℝ) (p : ℝ × ℝ) : squareMap a b p = (a * p.1 - b * p.2, b * p.1 + a * p.2) := by
  rw [squareMap, Matrix.toLin_finTwoProd_apply]
  ext
  · simp only; ring
  · rfl

theorem square_image {a b : ℝ} (h : 0 < a ^ 2 + b ^ 2) :
    {p | Inside (squareSides a b) p} = squareMap a b '' (Set.Icc (-1) 1 ×ˢ Set.Icc (-1) 1) := by
  ext p
  simp only [Set.mem_setOf_eq, square_inside, Set.mem_image, Set.mem_prod, Set.mem_Icc, squareMap_apply, abs_le]
  constructor
  · rintro ⟨⟨h1, h2⟩, h3, h4⟩
    refine ⟨((a * p.1 + b * p.2) / (a ^ 2 + b ^ 2), (a * p.2 - b * p.1) / (a ^ 2 + b ^ 2)), ⟨⟨?_, ?_⟩, ?_, ?_⟩, ?_⟩
    · rw [le_div_iff₀ h]; linarith
    · rw [div_le_iff₀ h]; linarith
    · rw [le_div_iff₀ h]; linarith
    · rw [div_le_iff₀ h]; linarith
    · ext
      · simp only
        field_simp
        ring
      · simp only
        field_simp
        ring
  · rintro ⟨q, ⟨⟨h1, h2⟩, h3, h4⟩, rfl⟩
    simp only
    have e1 : a * (a * q.1 - b * q.2) + b * (b * q.1 + a * q.2) = (a ^ 2 + b ^ 2) * q.1 := by ring
    have e2 : a * (b * q.1 + a * q.2) - b * (a * q.1 - b * q.2) = (a ^ 2 + b ^ 2) * q.2 := by ring
    rw [e1, e2]
    refine ⟨⟨?_, ?_⟩, ?_, ?_⟩ <;> nlinarith

theorem square_isHull {a b : ℝ} (h : 0 < a ^ 2 + b ^ 2) : IsHull (square a b) (squareSides a b) := by
  intro p
  constructor
  · intro hp
    have : p ∈ {p | Inside (squareSides a b) p} := hp
    rw [square_image h] at this
    obtain ⟨⟨x, y⟩, ⟨⟨h1, h2⟩, h3, h4⟩, rfl⟩ := this
    rw [squareMap_apply]
    simp only at h1 h2 h3 h4 ⊢
    have hmem : ∀ q ∈ square a b, q ∈ convexHull ℝ {q | q ∈ square a b} := fun q hq => subset_convexHull ℝ _ hq
    have := (convex_convexHull ℝ {q | q ∈ square a b}).sum_mem (t := Finset.univ)
      (w := ![(1 + x) * (1 + y) / 4, (1 + x) * (1 - y) / 4, (1 - x) * (1 + y) / 4, (1 - x) * (1 - y) / 4])
      (z := ![((a - b, b + a) : ℝ × ℝ), (a + b, b - a), (-a - b, a - b), (b - a, -a - b)]) (by
        intro i _
        fin_cases i <;> simp <;> nlinarith) (by
        simp [Fin.sum_univ_four]; ring) (by
        intro i _
        fin_cases i
        · exact hmem _ (by simp [square])
        · exact hmem _ (by simp [square])
        · exact hmem _ (by simp [square])
        · exact hmem _ (by simp [square]))
    convert this using 1
    simp only [Fin.sum_univ_four]
    ext
    · simp; ring
    · simp; ring
  · intro hp
    have hconv : Convex ℝ {p : ℝ × ℝ | Inside (squareSides a b) p} := by
      rw [square_image h]
      exact ((convex_Icc _ _).prod (convex_Icc _ _)).linear_image _
    refine convexHull_min ?_ hconv hp
    intro q hq
    simp only [square, Set.mem_setOf_eq, List.mem_cons, List.not_mem_nil, or_false] at hq
    simp only [Set.mem_setOf_eq, square_inside, abs_le]
    rcases hq with rfl | rfl | rfl | rfl <;> refine ⟨⟨?_, ?_⟩, ?_, ?_⟩ <;> simp only <;> nlinarith

open MeasureTheory in
theorem square_area {a b : ℝ} (h : 0 < a ^ 2 + b ^ 2) :
    (volume (convexHull ℝ {q | q ∈ square a b})).toReal = 4 * (a ^ 2 + b ^ 2) := by
  have he : convexHull ℝ {q | q ∈ square a b} = {p | Inside (squareSides a b) p} :=
    Set.ext fun p => (square_isHull h p).symm
  rw [he, square_image h, Measure.addHaar_image_linearMap, squareMap, LinearMap.det_toLin, Matrix.det_fin_two_of,
    Measure.volume_eq_prod, Measure.prod_prod, Real.volume_Icc, ENNReal.toReal_mul, ENNReal.toReal_mul,
    ENNReal.toReal_ofReal (abs_nonneg _), ENNReal.toReal_ofReal (by norm_num)]
  have e1 : a * a - -b * b = a ^ 2 + b ^ 2 := by ring
  rw [e1, abs_of_pos h]
  norm_num
  ring

theorem square_least (a b : ℝ) : Least (square a b) [] ((0, 0), Real.sqrt (2 * (a ^ 2 + b ^ 2))) := by
  have h0 : 0 ≤ 2 * (a ^ 2 + b ^ 2) := by positivity
  refine ⟨⟨Real.sqrt_nonneg _, fun p hp => ?_, by simp⟩, fun e he => ?_⟩
  · simp only [Real.sq_sqrt h0]
    simp only [square, List.mem_cons, List.not_mem_nil, or_false] at hp
    rcases hp with rfl | rfl | rfl | rfl <;> simp only [sqDist] <;> nlinarith
  · have h1 := he.inside (a - b, b + a) (by simp [square])
    have h2 := he.inside (b - a, -a - b) (by simp [square])
    simp only [sqDist] at h1 h2
    rw [show (((0 : ℝ), (0 : ℝ)), Real.sqrt (2 * (a ^ 2 + b ^ 2))).2 = Real.sqrt (2 * (a ^ 2 + b ^ 2)) from rfl,
      Real.sqrt_le_left he.nonneg]
    nlinarith [sq_nonneg e.1.1, sq_nonneg e.1.2]

theorem square_scale (a b s : ℝ) : (square a b).map (scalePt s) = square (s * a) (s * b) := by
  simp only [square, List.map_cons, List.map_nil, scalePt, List.cons.injEq, Prod.mk.injEq, and_true]
  refine ⟨⟨by ring, by ring⟩, ⟨by ring, by ring⟩, ⟨by ring, by ring⟩, by ring, by ring⟩

/-- How far a point lies from the origin, measured by the square. -/
noncomputable def gauge (a b : ℝ) (p : ℝ × ℝ) : ℝ := max |a * p.1 + b * p.2| |a * p.2 - b * p.1|

theorem square_gauge (a b : ℝ) (p : ℝ × ℝ) {t : ℝ} (ht : 0 < t) :
    Inside (squareSides a b) (0 + t * p.1, 0 + t * p.2) ↔ t * gauge a b p ≤ a ^ 2 + b ^ 2 := by
  have e1 : a * (t * p.1) + b * (t * p.2) = t * (a * p.1 + b * p.2) := by ring
  have e2 : a * (t * p.2) - b * (t * p.1) = t * (a * p.2 - b * p.1) := by ring
  rw [square_inside, gauge, mul_max_of_nonneg _ _ ht.le, max_le_iff]
  simp only [zero_add, e1, e2, abs_mul, abs_of_pos ht]

theorem gauge_of_tie {a b : ℝ} {p : ℝ × ℝ} {T : ℝ} (hT : 0 < T)
    (h : ∀ t, 0 < t → (Inside (squareSides a b) (0 + t * p.1, 0 + t * p.2) ↔ t ≤ T)) :
    T * gauge a b p = a ^ 2 + b ^ 2 := by
  refine le_antisymm ((square_gauge a b p hT).1 ((h T hT).2 le_rfl)) ?_
  by_contra hlt
  push Not at hlt
  have g0 : 0 ≤ gauge a b p := le_max_of_le_left (abs_nonneg _)
  set d := a ^ 2 + b ^ 2 - T * gauge a b p with hd
  have d0 : 0 < d := by linarith
  have e0 : 0 < d / (gauge a b p + 1) := by positivity
  have := (h (T + d / (gauge a b p + 1)) (by linarith)).1 ((square_gauge a b p (by linarith)).2 (by
    have : d / (gauge a b p + 1) * gauge a b p ≤ d := by
      rw [div_mul_eq_mul_div, div_le_iff₀ (by linarith)]
      nlinarith
    nlinarith))
  linarith

theorem linear_finite {A B : ℝ} (h : A ≠ 0 ∨ B ≠ 0) : {x : ℝ | A + x * B = 0}.Finite := by
  refine Set.Subsingleton.finite fun x hx y hy => ?_
  simp only [Set.mem_setOf_eq] at hx hy
  by_contra hne
  have hB : B = 0 := by
    have : (x - y) * B = 0 := by linarith
    exact (mul_eq_zero.1 this).resolve_left (sub_ne_zero.2 hne)
  rw [hB, mul_zero, add_zero] at hx
  exact h.elim (fun h => h hx) fun h => h hB

/-- For all but finitely many directions two points are at different distances. -/
theorem gauge_finite {p q : ℝ × ℝ} (h : p.1 ^ 2 + p.2 ^ 2 ≠ q.1 ^ 2 + q.2 ^ 2) :
    {x : ℝ | gauge 1 x p = gauge 1 x q}.Finite := by
  have key : ∀ A B C D : ℝ, A ^ 2 + B ^ 2 ≠ C ^ 2 + D ^ 2 → {x : ℝ | |A + x * B| = |C + x * D|}.Finite := by
    intro A B C D hne
    refine ((linear_finite (A := A - C) (B := B - D) ?_).union (linear_finite (A := A + C) (B := B + D) ?_)).subset ?_
    · by_contra hn
      push Not at hn
      exact hne (by rw [sub_eq_zero.1 hn.1, sub_eq_zero.1 hn.2])
    · by_contra hn
      push Not at hn
      exact hne (by rw [eq_neg_of_add_eq_zero_left hn.1, eq_neg_of_add_eq_zero_left hn.2]; ring)
    · intro x hx
      rcases abs_eq_abs.1 hx with h | h
      · left; simp only [Set.mem_setOf_eq]; linarith
      · right; simp only [Set.mem_setOf_eq]; linarith
  refine ((((key p.1 p.2 q.1 q.2 h).union (key p.1 p.2 q.2 (-q.1) (by rwa [neg_sq, add_comm (q.2 ^ 2)]))).union
    (key p.2 (-p.1) q.1 q.2 (by rwa [neg_sq, add_comm (p.2 ^ 2)]))).union
    (key p.2 (-p.1) q.2 (-q.1) (by rwa [neg_sq, neg_sq, add_comm (p.2 ^ 2), add_comm (q.2 ^ 2)]))).subset ?_
  intro x hx
  simp only [Set.mem_setOf_eq, gauge, one_mul] at hx
  simp only [Set.mem_union, Set.mem_setOf_eq, mul_neg, ← sub_eq_add_neg]
  rcases max_choice |p.1 + x * p.2| |p.2 - x * p.1| with h1 | h1 <;>
    rcases max_choice |q.1 + x * q.2| |q.2 - x * q.1| with h2 | h2 <;> rw [h1, h2] at hx <;> tauto

theorem gauge_list_finite : ∀ base : List (ℝ × ℝ),
    base.Pairwise (fun p q => p.1 ^ 2 + p.2 ^ 2 ≠ q.1 ^ 2 + q.2 ^ 2) →
    {x : ℝ | ¬ base.Pairwise fun p q => gauge 1 x p ≠ gauge 1 x q}.Finite
  | [], _ => by simp
  | p :: base, h => by
    rw [List.pairwise_cons] at h
    have h1 : (⋃ q ∈ {q | q ∈ base}, {x : ℝ | gauge 1 x p = gauge 1 x q}).Finite :=
      (List.finite_toSet base).biUnion fun q hq => gauge_finite (h.1 q hq)
    refine (h1.union (gauge_list_finite base h.2)).subset ?_
    intro x hx
    simp only [Set.mem_setOf_eq, List.pairwise_cons, not_and_or] at hx
    rcases hx with hx | hx
    · left
      push Not at hx
      simpa using hx
    · exact Or.inr hx

/-- **C136.** If the points of a spiral have different distances from its midpoint, then no two of them leave a square at
the same scale, for all but finitely many slopes of its sides. -/
theorem C136_slopes {base : List (ℝ × ℝ)} (h : base.Pairwise fun p q => p.1 ^ 2 + p.2 ^ 2 ≠ q.1 ^ 2 + q.2 ^ 2) :
    {x : ℝ | ∃ s, 0 < s ∧ ¬ NoTies base (0, 0) (squareSides (s * 1) (s * x))}.Finite := by
  refine (gauge_list_finite base h).subset ?_
  rintro x ⟨s, hs, hx⟩ hp
  refine hx (hp.imp fun {p q} hne => ?_)
  rintro ⟨T, hT, h1, h2⟩
  have e1 := gauge_of_tie hT h1
  have e2 := gauge_of_tie hT h2
  have hg : ∀ p, gauge (s * 1) (s * x) p = s * gauge 1 x p := by
    intro p
    rw [gauge, gauge, mul_max_of_nonneg _ _ hs.le, ← abs_of_pos hs, ← abs_mul, ← abs_mul, abs_of_pos hs]
    congr 2 <;> ring
  rw [← e2, hg, hg] at e1
  exact hne (mul_left_cancel₀ hs.ne' (mul_left_cancel₀ hT.ne' e1))

theorem fibonacci_radii_ne (ub : Nat) :
    (fibonacciBase ub).Pairwise fun p q => p.1 ^ 2 + p.2 ^ 2 ≠ q.1 ^ 2 + q.2 ^ 2 := by
  rw [List.pairwise_iff_getElem]
  intro i j hi hj hij
  have hl : (fibonacciBase ub).length = ub - 1 := by rw [fibonacciBase, List.length_map, List.length_range]
  obtain ⟨p, hp, h1, -⟩ := C87_fibonacci_radii ub i (by omega)
  obtain ⟨q, hq, h2, -⟩ := C87_fibonacci_radii ub j (by omega)
  rw [List.getElem?_eq_getElem hi, Option.some.injEq] at hp
  rw [List.getElem?_eq_getElem hj, Option.some.injEq] at hq
  rw [hp, hq, h1, h2]
  have hu : (0 : ℝ) < ub := by exact_mod_cast (by omega : 0 < ub)
  intro he
  rw [div_left_inj' hu.ne'] at he
  have : (i : ℝ) < j := by exact_mod_cast hij
  linarith

theorem archimedean_radii_ne (ub : Nat) :
    (archimedeanBase ub).Pairwise fun p q => p.1 ^ 2 + p.2 ^ 2 ≠ q.1 ^ 2 + q.2 ^ 2 := by
  rw [archimedeanBase, List.pairwise_map]
  refine List.pairwise_lt_range.imp fun {i j} hij he => ?_
  have hr : ∀ b : ℝ, (b * Real.cos b) ^ 2 + (b * Real.sin b) ^ 2 = b ^ 2 := fun b => by
    calc _ = b ^ 2 * (Real.sin b ^ 2 + Real.cos b ^ 2) := by ring
      _ = _ := by rw [Real.sin_sq_add_cos_sq, mul_one]
  simp only [hr] at he
  exact hij.ne (archimedeanBeta_strictMono.injective
    ((sq_eq_sq₀ (archimedeanBeta_nonneg i) (archimedeanBeta_nonneg j)).1 he))

theorem square_upperBound {a b : ℝ} (h : 0 < a ^ 2 + b ^ 2) (n : Nat) :
    upperBound (Real.sqrt (2 * (a ^ 2 + b ^ 2))) (4 * (a ^ 2 + b ^ 2)) n = ⌊Real.pi * n / 2⌋.toNat + 10 := by
  rw [upperBound, Real.sq_sqrt (by positivity)]
  have : Real.pi * (2 * (a ^ 2 + b ^ 2)) * n / (4 * (a ^ 2 + b ^ 2)) = Real.pi * n / 2 := by
    rw [div_eq_div_iff (by positivity) two_ne_zero]
    ring
  rw [this]

/-- **C136.** For all but finitely many slopes, if the square is large enough, then both samplers return the requested
number of points, however the points are shuffled. -/
theorem C136_square {n : Nat} (hn : 0 < n) : ∃ bad : Set ℝ, bad.Finite ∧ ∀ x, x ∉ bad → ∃ s0, 0 < s0 ∧ ∀ s, s0 ≤ s →
    ∀ (hull : Hull), hull (square s (s * x)) = .ok (4 * (s ^ 2 + (s * x) ^ 2), squareSides s (s * x)) →
    ∀ shuffle : List (ℝ × ℝ) → List (ℝ × ℝ), (∀ l, (shuffle l).Perm l) → ∃ m, ∀ fuel, m ≤ fuel →
      (∃ out, fibonacci hull shuffle n fuel (rowsOf (square s (s * x))) = some (.ok out) ∧ out.length = n) ∧
      ∃ out, archimedean hull shuffle n fuel (rowsOf (square s (s * x))) = some (.ok out) ∧ out.length = n := by
  set U := ⌊Real.pi * n / 2⌋.toNat + 10 with hU
  refine ⟨_, (C136_slopes (fibonacci_radii_ne U)).union (C136_slopes (archimedean_radii_ne U)), fun x hx => ?_⟩
  simp only [Set.mem_union, Set.mem_setOf_eq, not_or, not_exists, not_and, not_not, mul_one] at hx
  obtain ⟨eps, heps, hsep⟩ := C135_tolerance (square 1 x)
  refine ⟨1 / 10000 / eps, by positivity, fun s hs hull hh shuffle hsh => ?_⟩
  have s0 : 0 < s := lt_of_lt_of_le (by positivity) hs
  have hN : 0 < s ^ 2 + (s * x) ^ 2 := by positivity
  have hsep' : Separated (square s (s * x)) (1 / 10000) := by
    have h1 : 1 / 10000 / s ≤ eps := by
      rw [div_le_iff₀ s0, mul_comm, ← div_le_iff₀ heps]
      exact hs
    have := C136_scale (hsep _ h1) s0
    rwa [square_scale, mul_one, mul_div_cancel₀ _ s0.ne'] at this
  have hint : ∀ a b c, (a, b, c) ∈ squareSides s (s * x) → a * ((0 : ℝ), (0 : ℝ)).1 + b * ((0 : ℝ), (0 : ℝ)).2 < -c := by
    intro a b c hm
    simp only [squareSides, List.mem_cons, Prod.mk.injEq, List.not_mem_nil, or_false] at hm
    rcases hm with ⟨-, -, rfl⟩ | ⟨-, -, rfl⟩ | ⟨-, -, rfl⟩ | ⟨-, -, rfl⟩ <;> simp only [mul_zero, add_zero, neg_neg, hN]
  have hub := square_upperBound hN n
  obtain ⟨m1, h1⟩ := C136_fibonacci hsh hn hh (square_isHull hN) (square_area hN).symm (by positivity) hsep'
    (square_least s (s * x)) hint (by rw [hub]; exact hx.1 s s0)
  obtain ⟨m2, h2⟩ := C136_archimedean hsh hn (by simp [square]) hh (square_isHull hN) (square_area hN).symm
    (by positivity) hsep' (square_least s (s * x)) hint (by rw [hub]; exact hx.2 s s0)
  exact ⟨max m1 m2, fun fuel hf => ⟨h1 fuel ((le_max_left _ _).trans hf), h2 fuel ((le_max_right _ _).trans hf)⟩⟩

example : ∃ x s : ℝ, 0 < s ∧ ∃ m, ∀ fuel, m ≤ fuel → ∃ out,
    fibonacci (fun _ => .ok (4 * (s ^ 2 + (s * x) ^ 2), squareSides s (s * x))) List.reverse 3 fuel
      (rowsOf (square s (s * x))) = some (.ok out) ∧ out.length = 3 := by
  obtain ⟨bad, hbad, h⟩ := C136_square (n := 3) (by norm_num)
  obtain ⟨x, hx⟩ := hbad.infinite_compl.nonempty
  obtain ⟨s, hs, h⟩ := h x hx
  obtain ⟨m, hm⟩ := h s le_rfl (fun _ => .ok (4 * (s ^ 2 + (s * x) ^ 2), squareSides s (s * x))) rfl
    List.reverse fun l => l.reverse_perm
  exact ⟨x, s, hs, m, fun fuel hf => (hm fuel hf).1⟩

example : ((0, 0) : ℝ × ℝ) ∈ convexHull ℝ {q | q ∈ square 1 2} :=
  C136_midpoint (by simp [square]) (square_isHull (by norm_num)) (square_least 1 2)

end Verif.Sampler
