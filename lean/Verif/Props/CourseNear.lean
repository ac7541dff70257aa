import Verif.Props.Course

/-!
# Property C74: the course to destinations nearby
-/

namespace Verif.Course

open Filter Topology

/-- The variable `denominator` of `_right_handing_course` for destinations nearby. -/
theorem near_denominator {lat : ℝ} (h0 : 0 < lat) (h1 : lat < Real.pi / 4) :
    1 < Real.cos lat * (Real.cos lat + Real.sin lat) := by
  have hs : 0 < Real.sin lat := Real.sin_pos_of_pos_of_lt_pi h0 (by linarith [Real.pi_pos])
  have hc : Real.sin lat < Real.cos lat := by
    rw [← Real.cos_pi_div_two_sub]
    exact Real.cos_lt_cos_of_nonneg_of_le_pi_div_two h0.le (by linarith) (by linarith)
  nlinarith [Real.sin_sq_add_cos_sq lat]

theorem near_denominator_south {lat : ℝ} (h0 : -(Real.pi / 2) ≤ lat) (h1 : lat < 0) :
    |Real.cos lat * (Real.cos lat + Real.sin lat)| < 1 := by
  have hs : Real.sin lat < 0 := Real.sin_neg_of_neg_of_neg_pi_lt h1 (by linarith [Real.pi_pos])
  have hc : 0 ≤ Real.cos lat := Real.cos_nonneg_of_mem_Icc ⟨by linarith, by linarith [Real.pi_pos]⟩
  have h2 := Real.sin_sq_add_cos_sq lat
  rw [abs_lt]
  constructor
  · nlinarith [sq_nonneg (Real.cos lat + Real.sin lat)]
  · nlinarith [sq_nonneg (Real.cos lat + Real.sin lat), mul_nonneg hc (neg_nonneg.2 hs.le)]

theorem near_denominator_north {lat : ℝ} (h0 : Real.pi / 4 < lat) (h1 : lat ≤ Real.pi / 2) :
    |Real.cos lat * (Real.cos lat + Real.sin lat)| < 1 := by
  have hs : 0 < Real.sin lat := Real.sin_pos_of_pos_of_lt_pi (by linarith [Real.pi_pos]) (by linarith [Real.pi_pos])
  have hc0 : 0 ≤ Real.cos lat := Real.cos_nonneg_of_mem_Icc ⟨by linarith [Real.pi_pos], by linarith [Real.pi_pos]⟩
  have hc : Real.cos lat < Real.sin lat := by
    rw [← Real.cos_pi_div_two_sub]
    exact Real.cos_lt_cos_of_nonneg_of_le_pi_div_two (by linarith) h1 (by linarith)
  rw [abs_lt]
  constructor
  · nlinarith
  · nlinarith [Real.sin_sq_add_cos_sq lat]

/-- `denominator` is continuous in the destination. -/
theorem tendsto_denominator (a : ℝ × ℝ) : Tendsto
    (fun b : ℝ × ℝ => Real.cos (a.1 - b.1) * Real.cos a.2 * Real.cos b.2 + Real.sin a.2 * Real.cos b.2) (𝓝 a)
    (𝓝 (Real.cos a.2 * (Real.cos a.2 + Real.sin a.2))) := by
  have hc : Continuous fun b : ℝ × ℝ =>
      Real.cos (a.1 - b.1) * Real.cos a.2 * Real.cos b.2 + Real.sin a.2 * Real.cos b.2 := by fun_prop
  have := hc.tendsto a
  simp only [sub_self, Real.cos_zero, one_mul] at this
  convert this using 2
  ring

theorem tendsto_numerator (a : ℝ × ℝ) : Tendsto
    (fun b : ℝ × ℝ => Real.cos a.2 * Real.sin b.2 - Real.cos (a.1 - b.1) * Real.cos b.2 * Real.sin a.2) (𝓝 a) (𝓝 0) := by
  have hc : Continuous fun b : ℝ × ℝ =>
      Real.cos a.2 * Real.sin b.2 - Real.cos (a.1 - b.1) * Real.cos b.2 * Real.sin a.2 := by fun_prop
  have := hc.tendsto a
  simp only [sub_self, Real.cos_zero, one_mul] at this
  convert this using 2

/-- **C74 is false** between the equator and 45 degrees north: the course to all destinations nearby is nan. -/
theorem C74_near_nan_false (a : ℝ × ℝ) (h0 : 0 < a.2) (h1 : a.2 < Real.pi / 4) :
    ∃ δ > 0, ∀ b : ℝ × ℝ, |b.1 - a.1| < δ → |b.2 - a.2| < δ → rightHandingCourse a b = none := by
  have hk := near_denominator h0 h1
  have he := (tendsto_denominator a).eventually (lt_mem_nhds hk)
  obtain ⟨δ, hδ, h⟩ := Metric.eventually_nhds_iff.1 he
  refine ⟨δ, hδ, fun b h1 h2 => ?_⟩
  have hd : dist b a < δ := by
    rw [Prod.dist_eq, max_lt_iff, Real.dist_eq, Real.dist_eq]
    exact ⟨h1, h2⟩
  have := h hd
  unfold rightHandingCourse
  simp only
  rw [if_pos]
  nlinarith

/-- **C74 is false** on the southern hemisphere and north of 45 degrees: the course to destinations nearby is near to east,
in whatever direction they are. -/
theorem C74_near_east_false (a : ℝ × ℝ)
    (ha : -(Real.pi / 2) ≤ a.2 ∧ a.2 < 0 ∨ Real.pi / 4 < a.2 ∧ a.2 ≤ Real.pi / 2) {ε : ℝ} (hε : 0 < ε) :
    ∃ δ > 0, ∀ b : ℝ × ℝ, |b.1 - a.1| < δ → |b.2 - a.2| < δ →
      ∃ c, rightHandingCourse a b = some c ∧ |c - Real.pi / 2| < ε := by
  have hk : |Real.cos a.2 * (Real.cos a.2 + Real.sin a.2)| < 1 := by
    rcases ha with h | h
    · exact near_denominator_south h.1 h.2
    · exact near_denominator_north h.1 h.2
  have hk2 : 0 < 1 - (Real.cos a.2 * (Real.cos a.2 + Real.sin a.2)) ^ 2 := by
    have := (sq_lt_one_iff_abs_lt_one _).2 hk
    linarith
  have hd : Tendsto (fun b : ℝ × ℝ => 1 -
      (Real.cos (a.1 - b.1) * Real.cos a.2 * Real.cos b.2 + Real.sin a.2 * Real.cos b.2) ^ 2) (𝓝 a)
      (𝓝 (1 - (Real.cos a.2 * (Real.cos a.2 + Real.sin a.2)) ^ 2)) :=
    tendsto_const_nhds.sub ((tendsto_denominator a).pow 2)
  have hq : Tendsto (fun b : ℝ × ℝ =>
      (Real.cos a.2 * Real.sin b.2 - Real.cos (a.1 - b.1) * Real.cos b.2 * Real.sin a.2) /
        Real.sqrt (1 - (Real.cos (a.1 - b.1) * Real.cos a.2 * Real.cos b.2 + Real.sin a.2 * Real.cos b.2) ^ 2)) (𝓝 a)
      (𝓝 0) := by
    have := (tendsto_numerator a).div ((Real.continuous_sqrt.tendsto _).comp hd) (Real.sqrt_pos.2 hk2).ne'
    rw [zero_div] at this
    exact this
  have hacos := (Real.continuous_arccos.tendsto 0).comp hq
  rw [Real.arccos_zero] at hacos
  have h1 := hd.eventually (lt_mem_nhds hk2)
  have h2 := hq.eventually (lt_mem_nhds (show (-1 : ℝ) < 0 by norm_num))
  have h3 := hq.eventually (gt_mem_nhds (show (0 : ℝ) < 1 by norm_num))
  have h4 := hacos.eventually (Metric.ball_mem_nhds (Real.pi / 2) hε)
  obtain ⟨δ, hδ, h⟩ := Metric.eventually_nhds_iff.1 (h1.and (h2.and (h3.and h4)))
  refine ⟨δ, hδ, fun b hb1 hb2 => ?_⟩
  have hdist : dist b a < δ := by
    rw [Prod.dist_eq, max_lt_iff, Real.dist_eq, Real.dist_eq]
    exact ⟨hb1, hb2⟩
  obtain ⟨e1, e2, e3, e4⟩ := h hdist
  refine ⟨_, ?_, e4⟩
  unfold rightHandingCourse
  simp only
  rw [if_neg (not_le.2 e1), if_neg (by rw [not_or, not_lt, not_lt]; exact ⟨e2.le, e3.le⟩)]
  rfl

/-- The true course to destinations nearby may be any: exactly north here. -/
theorem trueCourse_north (x : ℝ) {lat d : ℝ} (h0 : 0 < d) (h1 : d < Real.pi) : trueCourse (x, lat) (x, lat + d) = 0 := by
  have hs := Real.sin_pos_of_pos_of_lt_pi h0 h1
  unfold trueCourse
  simp only [sub_self, Real.sin_zero, zero_mul, Real.cos_zero, mul_one]
  have : (⟨Real.cos lat * Real.sin (lat + d) - Real.sin lat * Real.cos (lat + d), 0⟩ : ℂ) =
      ((Real.cos lat * Real.sin (lat + d) - Real.sin lat * Real.cos (lat + d) : ℝ) : ℂ) := rfl
  rw [this, Complex.arg_ofReal_of_nonneg]
  have e : Real.cos lat * Real.sin (lat + d) - Real.sin lat * Real.cos (lat + d) = Real.sin d := by
    rw [show d = (lat + d) - lat by ring, Real.sin_sub (lat + d) lat]
    ring_nf
  rw [e]
  exact hs.le

example : ∃ δ > 0, ∀ b : ℝ × ℝ, |b.1 - 0| < δ → |b.2 - Real.pi / 8| < δ → rightHandingCourse (0, Real.pi / 8) b = none :=
  C74_near_nan_false (0, Real.pi / 8) (by simp [Real.pi_pos]) (by simp only; linarith [Real.pi_pos])

end Verif.Course
