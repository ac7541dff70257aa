import Verif.Props.Weigher
import Mathlib.Tactic.FieldSimp

/-!
# Property C121: weights do not depend on order and units
-/

set_option linter.unusedSectionVars false

namespace Verif.Weigher

variable {K : Type} [Field K] [LinearOrder K] [IsStrictOrderedRing K] {P : Type}

/-! ### Order of the points -/

/-- The divisor in `normalize`. -/
def divisor (w : List K) : K := match w with
  | [] => 1
  | a :: l => if maxOf a l = 0 then 1 else maxOf a l

theorem normalize_div (w : List K) : normalize w = w.map (· / divisor w) := by
  cases w with
  | nil => rfl
  | cons a l =>
    simp only [normalize, divisor]
    split
    · simp
    · rfl

theorem divisor_perm {w w' : List K} (h : w.Perm w') : divisor w = divisor w' := by
  cases w with
  | nil => rw [h.nil_eq]
  | cons a l =>
    cases w' with
    | nil => exact absurd h.eq_nil (by simp)
    | cons b m =>
      have e : maxOf a l = maxOf b m :=
        le_antisymm (le_maxOf b m _ (h.mem_iff.1 (maxOf_mem a l))) (le_maxOf a l _ (h.mem_iff.2 (maxOf_mem b m)))
      simp only [divisor, e]

theorem zip_map_self {α β : Type} (l : List α) (f : α → β) : l.zip (l.map f) = l.map fun x => (x, f x) := by
  induction l with
  | nil => rfl
  | cons a l ih => simp [ih]

variable [Sub P]

/-- **C121.** `CylindricMemberWeigher`: reordering the points reorders the weights. -/
theorem C121_order_member (norm : P → K) (radius length : K) {points points' : List (P × K)} (h : points.Perm points') :
    (points.zip (memberWeigh norm radius length points)).Perm (points'.zip (memberWeigh norm radius length points')) := by
  have hc : ∀ p, countInCylinder norm radius length points p = countInCylinder norm radius length points' p :=
    fun p => (h.filter _).length_eq
  unfold memberWeigh
  simp only [hc, normalize_div, List.map_map]
  rw [divisor_perm (h.map fun p => (countInCylinder norm radius length points' p : K) - 1), zip_map_self, zip_map_self]
  exact h.map _

theorem meanRaw_perm (norm : P → ℝ) (radius : ℝ) {points points' : List (P × ℝ)} (h : points.Perm points')
    (p : P × ℝ) : meanRaw norm radius points p = meanRaw norm radius points' p := by
  have hp : (cylinderSpeeds norm radius points p.1).Perm (cylinderSpeeds norm radius points' p.1) := (h.filter _).map _
  have hm : meanOf (cylinderSpeeds norm radius points p.1) = meanOf (cylinderSpeeds norm radius points' p.1) := by
    unfold meanOf
    rw [hp.sum_eq, hp.length_eq]
    by_cases h0 : cylinderSpeeds norm radius points p.1 = []
    · have h0' := h0
      rw [h0] at hp
      rw [if_pos h0, if_pos hp.nil_eq.symm]
    · rw [if_neg h0, if_neg fun h0' => h0 (by rw [h0'] at hp; exact hp.eq_nil)]
  have hs : stdOr1 (cylinderSpeeds norm radius points p.1) = stdOr1 (cylinderSpeeds norm radius points' p.1) := by
    unfold stdOr1
    rw [hm]
    cases meanOf (cylinderSpeeds norm radius points' p.1) with
    | none => rfl
    | some m => simp only [(hp.map fun x => (x - m) ^ 2).sum_eq, hp.length_eq]
  unfold meanRaw
  rw [hm, hs]

/-- The weights of `CylindricMeanWeigher` point by point. -/
theorem meanWeigh_map {norm : P → ℝ} {radius : ℝ} {points : List (P × ℝ)}
    (hn : ∀ p ∈ points, norm (p.1 - p.1) ≤ radius) :
    meanWeigh norm radius points = some (points.map fun p => 1 - (meanRaw norm radius points p).getD 0 /
      divisor (points.map fun p => (meanRaw norm radius points p).getD 0)) := by
  have e : points.mapM (meanRaw norm radius points) = some (points.map fun p => (meanRaw norm radius points p).getD 0) := by
    obtain ⟨r, h1, h2, -, h3⟩ := mapM_some (f := meanRaw norm radius points) (Q := fun x => 0 ≤ x) (l := points)
      fun p hp => meanRaw_some hp (hn p hp)
    rw [h1]
    congr 1
    refine List.ext_getElem (by simp [h2]) fun i hi hi' => ?_
    have hp : i < points.length := by omega
    have := h3 i points[i] (List.getElem?_eq_getElem hp)
    rw [List.getElem?_eq_getElem hi] at this
    simp [← this]
  unfold meanWeigh
  rw [e]
  simp [normalize_div]

/-- **C121.** `CylindricMeanWeigher`: reordering the points reorders the weights. -/
theorem C121_order_mean {norm : P → ℝ} {radius : ℝ} {points points' : List (P × ℝ)} (h : points.Perm points')
    (hn : ∀ p ∈ points, norm (p.1 - p.1) ≤ radius) :
    ∃ w w', meanWeigh norm radius points = some w ∧ meanWeigh norm radius points' = some w' ∧
      (points.zip w).Perm (points'.zip w') := by
  refine ⟨_, _, meanWeigh_map hn, meanWeigh_map fun p hp => hn p (h.mem_iff.2 hp), ?_⟩
  simp only [meanRaw_perm norm radius h]
  rw [divisor_perm (h.map fun p => (meanRaw norm radius points' p).getD 0), zip_map_self, zip_map_self]
  exact h.map _

example : [((1 : ℝ), (5 : ℝ)), (2, 6)].Perm [(2, 6), (1, 5)] ∧ ∀ p ∈ [((1 : ℝ), (5 : ℝ)), (2, 6)], |p.1 - p.1| ≤ 1 :=
  ⟨List.Perm.swap .., by simp⟩

/-! ### Units -/

/-- **C121.** `CylindricMemberWeigher`: boat speeds and the height of the cylinders in other units, or boat speeds measured
from another origin, give the same weights. -/
theorem C121_units_member (norm : P → K) (radius length : K) (points : List (P × K)) {a : K} (ha : 0 < a) (b : K) :
    memberWeigh norm radius (a * length) (points.map fun p => (p.1, a * p.2 + b)) = memberWeigh norm radius length points := by
  have hc : ∀ p : P × K, countInCylinder norm radius (a * length) (points.map fun p => (p.1, a * p.2 + b)) (p.1, a * p.2 + b) =
      countInCylinder norm radius length points p := by
    intro p
    unfold countInCylinder
    rw [List.filter_map, List.length_map]
    congr 2
    funext q
    simp only [Function.comp]
    have e : |a * q.2 + b - (a * p.2 + b)| ≤ a * length ↔ |q.2 - p.2| ≤ length := by
      rw [add_sub_add_right_eq_sub, ← mul_sub, abs_mul, abs_of_pos ha]
      exact mul_le_mul_iff_of_pos_left ha
    rw [decide_eq_decide.2 e]
  unfold memberWeigh
  rw [List.map_map]
  simp only [Function.comp_def, hc]

theorem cylinderSpeeds_map (norm : P → ℝ) (radius : ℝ) (points : List (P × ℝ)) (p : P) (f : ℝ → ℝ) :
    cylinderSpeeds norm radius (points.map fun q => (q.1, f q.2)) p = (cylinderSpeeds norm radius points p).map f := by
  unfold cylinderSpeeds
  rw [List.filter_map, List.map_map, List.map_map]
  rfl

theorem meanOf_affine (l : List ℝ) (a b : ℝ) : meanOf (l.map fun x => a * x + b) = (meanOf l).map fun x => a * x + b := by
  unfold meanOf
  by_cases h : l = []
  · simp [h]
  · have hl : (l.length : ℝ) ≠ 0 := by
      have := List.length_pos_iff.2 h
      positivity
    rw [if_neg (by simpa using h), if_neg h, Option.map_some]
    congr 1
    have e : (l.map fun x => a * x + b).sum = a * l.sum + l.length * b := by
      clear h hl
      induction l with
      | nil => simp
      | cons x l ih =>
        simp only [List.map_cons, List.sum_cons, ih, List.length_cons]
        push_cast
        ring
    rw [e, List.length_map]
    field_simp

theorem eq_mean_of_sq {l : List ℝ} {m : ℝ} (hl : l ≠ []) (h : Real.sqrt ((l.map fun x => (x - m) ^ 2).sum / l.length) = 0) :
    ∀ x ∈ l, x = m := by
  have hlen : (0 : ℝ) < l.length := by exact_mod_cast List.length_pos_iff.2 hl
  have hnn : 0 ≤ (l.map fun x => (x - m) ^ 2).sum := by
    apply List.sum_nonneg
    intro y hy
    obtain ⟨x, -, rfl⟩ := List.mem_map.1 hy
    positivity
  rw [Real.sqrt_eq_zero (by positivity), div_eq_zero_iff] at h
  have h0 : (l.map fun x => (x - m) ^ 2).sum = 0 := h.resolve_right hlen.ne'
  intro x hx
  have hle : (x - m) ^ 2 ≤ (l.map fun x => (x - m) ^ 2).sum :=
    List.single_le_sum (fun y hy => by
      obtain ⟨z, -, rfl⟩ := List.mem_map.1 hy
      positivity) _ (List.mem_map_of_mem hx)
  have : (x - m) ^ 2 = 0 := le_antisymm (h0 ▸ hle) (sq_nonneg _)
  have := pow_eq_zero_iff (n := 2) (by norm_num) |>.1 this
  linarith

/-- The deviation of a point from its surroundings does not depend on the unit. -/
theorem meanRaw_affine {norm : P → ℝ} {radius : ℝ} {points : List (P × ℝ)} {p : P × ℝ} (hp : p ∈ points)
    (hn : norm (p.1 - p.1) ≤ radius) {a : ℝ} (ha : 0 < a) (b : ℝ) :
    meanRaw norm radius (points.map fun q => (q.1, a * q.2 + b)) (p.1, a * p.2 + b) = meanRaw norm radius points p := by
  have hne := cylinderSpeeds_ne hp hn
  have hmem : p.2 ∈ cylinderSpeeds norm radius points p.1 := by
    simp only [cylinderSpeeds, List.mem_map, List.mem_filter, decide_eq_true_eq]
    exact ⟨p, ⟨hp, hn⟩, rfl⟩
  have hl : ((cylinderSpeeds norm radius points p.1).length : ℝ) ≠ 0 := by
    have := List.length_pos_iff.2 hne
    positivity
  set l := cylinderSpeeds norm radius points p.1 with hldef
  have hm : meanOf l = some (l.sum / l.length) := by simp [meanOf, hne]
  set m := l.sum / l.length
  have hm' : meanOf (l.map fun x => a * x + b) = some (a * m + b) := by rw [meanOf_affine, hm]; rfl
  have hsd : Real.sqrt (((l.map fun x => a * x + b).map fun x => (x - (a * m + b)) ^ 2).sum / (l.map fun x => a * x + b).length) =
      a * Real.sqrt ((l.map fun x => (x - m) ^ 2).sum / l.length) := by
    have e : ((l.map fun x => a * x + b).map fun x => (x - (a * m + b)) ^ 2).sum = a ^ 2 * (l.map fun x => (x - m) ^ 2).sum := by
      rw [List.map_map, ← List.sum_map_mul_left]
      congr 1
      apply List.map_congr_left
      intro x _
      simp only [Function.comp]
      ring
    rw [e, List.length_map, mul_div_assoc, Real.sqrt_mul (by positivity), Real.sqrt_sq ha.le]
  unfold meanRaw
  simp only [cylinderSpeeds_map norm radius points p.1 (fun x => a * x + b), ← hldef]
  unfold stdOr1
  rw [hm, hm']
  simp only [hsd]
  by_cases h0 : Real.sqrt ((l.map fun x => (x - m) ^ 2).sum / l.length) = 0
  · have hpm := eq_mean_of_sq hne h0 p.2 hmem
    simp only [h0, mul_zero, if_true, hpm, sub_self]
  · have h1 : ¬ a * Real.sqrt ((l.map fun x => (x - m) ^ 2).sum / l.length) = 0 := mul_ne_zero ha.ne' h0
    simp only [h0, h1, if_false]
    congr 1
    rw [add_sub_add_right_eq_sub, ← mul_sub, abs_mul, abs_of_pos ha, mul_div_mul_left _ _ ha.ne']

/-- **C121.** `CylindricMeanWeigher`: boat speeds in other units or measured from another origin give the same weights. -/
theorem C121_units_mean {norm : P → ℝ} {radius : ℝ} {points : List (P × ℝ)} (hn : ∀ p ∈ points, norm (p.1 - p.1) ≤ radius)
    {a : ℝ} (ha : 0 < a) (b : ℝ) :
    meanWeigh norm radius (points.map fun p => (p.1, a * p.2 + b)) = meanWeigh norm radius points := by
  have hn' : ∀ p ∈ points.map fun p => (p.1, a * p.2 + b), norm (p.1 - p.1) ≤ radius := by
    intro p hp
    obtain ⟨q, hq, rfl⟩ := List.mem_map.1 hp
    exact hn q hq
  rw [meanWeigh_map hn, meanWeigh_map hn']
  simp only [List.map_map, Function.comp_def]
  have e : (points.map fun p => (meanRaw norm radius (points.map fun p => (p.1, a * p.2 + b)) (p.1, a * p.2 + b)).getD 0) =
      points.map fun p => (meanRaw norm radius points p).getD 0 := by
    apply List.map_congr_left
    intro p hp
    rw [meanRaw_affine hp (hn p hp) ha b]
  rw [e]
  congr 1
  apply List.map_congr_left
  intro p hp
  rw [meanRaw_affine hp (hn p hp) ha b]

example : (0 : ℝ) < 2 ∧ ∀ p ∈ [((1 : ℝ), (5 : ℝ)), (2, 6)], |p.1 - p.1| ≤ 1 := by simp

/-- **C121.** Measurements can be moved: if all first components are changed by a function that does not change distances
then the weights stay the same. -/
theorem C121_isometry (norm : P → K) (radius length : K) (points : List (P × K)) {f : P → P}
    (hf : ∀ p q, norm (f p - f q) = norm (p - q)) :
    memberWeigh norm radius length (points.map fun p => (f p.1, p.2)) = memberWeigh norm radius length points := by
  have hc : ∀ p : P × K, countInCylinder norm radius length (points.map fun p => (f p.1, p.2)) (f p.1, p.2) =
      countInCylinder norm radius length points p := by
    intro p
    unfold countInCylinder
    rw [List.filter_map, List.length_map]
    congr 2
    funext q
    simp only [Function.comp, hf]
  unfold memberWeigh
  rw [List.map_map]
  simp only [Function.comp_def, hc]

end Verif.Weigher
