import Mathlib.MeasureTheory.Measure.Portmanteau
import Mathlib.MeasureTheory.Measure.Haar.NormedSpace
import Verif.Lemmas.Equidistribution

/-!
# Counting the points of a spiral in a set

If the angles are equidistributed and the radii are close to `t √((k + 1) / N)`, then the share of the points in a set
with a negligible boundary converges to the share of the set in the disc of radius `t`.
-/

namespace Verif.Equi

open Finset Filter Topology MeasureTheory

/-- The empirical measure of finitely many points. -/
noncomputable def emp (N : ℕ) (x : ℕ → ℂ) : Measure ℂ := (N : ENNReal)⁻¹ • ∑ k ∈ range N, Measure.dirac (x k)

theorem emp_apply (N : ℕ) (x : ℕ → ℂ) (E : Set ℂ) [DecidablePred (· ∈ E)] :
    emp N x E = (N : ENNReal)⁻¹ * ((range N).filter fun k => x k ∈ E).card := by
  rw [emp, Measure.smul_apply, smul_eq_mul, Measure.coe_finsetSum, Finset.sum_apply]
  congr 1
  rw [Finset.card_filter, Nat.cast_sum]
  refine Finset.sum_congr rfl fun k _ => ?_
  rw [Measure.dirac_apply, Set.indicator_apply]
  split_ifs <;> simp

theorem emp_prob {N : ℕ} (hN : 0 < N) (x : ℕ → ℂ) : IsProbabilityMeasure (emp N x) := by
  classical
  refine ⟨?_⟩
  rw [emp_apply]
  simp only [Set.mem_univ, Finset.filter_true, Finset.card_range]
  exact ENNReal.inv_mul_cancel (by exact_mod_cast hN.ne') (ENNReal.natCast_ne_top N)

theorem emp_integral (N : ℕ) (x : ℕ → ℂ) (f : ℂ → ℝ) : ∫ z, f z ∂(emp N x) = (∑ k ∈ range N, f (x k)) / N := by
  rw [emp, integral_smul_measure, integral_finsetSum_measure]
  · simp only [integral_dirac, ENNReal.toReal_inv, ENNReal.toReal_natCast, smul_eq_mul]
    rw [div_eq_inv_mul]
  · intro k _
    exact integrable_dirac (by simp)

/-- The uniform distribution on a disc. -/
noncomputable def unif (t : ℝ) : Measure ℂ := ENNReal.ofReal (Real.pi * t ^ 2)⁻¹ • volume.restrict (Metric.closedBall 0 t)

theorem unif_apply {t : ℝ} (ht : 0 < t) (E : Set ℂ) :
    (unif t E).toReal = volume.real (E ∩ Metric.closedBall 0 t) / (Real.pi * t ^ 2) := by
  rw [unif, Measure.smul_apply, smul_eq_mul, Measure.restrict_apply' Metric.isClosed_closedBall.measurableSet,
    ENNReal.toReal_mul, ENNReal.toReal_ofReal (by positivity), div_eq_inv_mul]
  rfl

theorem unif_prob {t : ℝ} (ht : 0 < t) : IsProbabilityMeasure (unif t) := by
  refine ⟨?_⟩
  rw [unif, Measure.smul_apply, smul_eq_mul, Measure.restrict_apply_univ, Complex.volume_closedBall,
    ← ENNReal.ofReal_pow ht.le]
  have : (NNReal.pi : ENNReal) = ENNReal.ofReal Real.pi := by
    rw [← NNReal.coe_real_pi, ENNReal.ofReal_coe_nnreal]
  rw [this, ← ENNReal.ofReal_mul (by positivity), ← ENNReal.ofReal_mul (by positivity),
    show (Real.pi * t ^ 2)⁻¹ * (t ^ 2 * Real.pi) = 1 by have := Real.pi_pos; field_simp, ENNReal.ofReal_one]

theorem unif_integral {t : ℝ} (ht : 0 < t) (f : ℂ → ℝ) :
    ((∫ z, f z ∂(unif t) : ℝ) : ℂ) = (Real.pi : ℂ)⁻¹ * ∫ z in Metric.closedBall (0 : ℂ) 1, (f (t * z) : ℂ) := by
  have h := Measure.setIntegral_comp_smul (μ := (volume : Measure ℂ)) (fun z => (f z : ℂ)) (s := Metric.closedBall 0 1)
    (R := t) ht.ne'
  rw [smul_closedBall t (0 : ℂ) zero_le_one, smul_zero, mul_one, Real.norm_of_nonneg ht.le] at h
  have hd : Module.finrank ℝ ℂ = 2 := Complex.finrank_real_complex
  rw [hd, abs_of_pos (by positivity)] at h
  have h' : ∫ z in Metric.closedBall (0 : ℂ) 1, (f (t * z) : ℂ) =
      (t ^ 2)⁻¹ • ∫ z in Metric.closedBall (0 : ℂ) t, (f z : ℂ) := by
    rw [← h]
    simp only [Complex.real_smul]
  rw [h', unif, integral_smul_measure, ENNReal.toReal_ofReal (by positivity), integral_complex_ofReal, smul_eq_mul,
    Complex.real_smul]
  push_cast
  rw [mul_inv, mul_assoc]

/-- The share of the points in a set converges to the share of the set in the disc. -/
theorem count_complex {β : ℕ → ℝ} (hβ : Weyl β) {ι : Type*} {l : Filter ι} {N : ι → ℕ} (hN : Tendsto N l atTop)
    (hpos : ∀ i, 0 < N i) {R : ι → ℕ → ℝ} {t : ℝ} (ht : 0 < t)
    (hR : ∀ ε, 0 < ε → ∀ᶠ i in l, ∀ k < N i, |R i k - t * rad (N i) k| ≤ ε) {E : Set ℂ} [DecidablePred (· ∈ E)]
    (hE : volume (frontier E) = 0) :
    Tendsto (fun i => (((range (N i)).filter fun k => (R i k : ℂ) * Complex.exp (β k * Complex.I) ∈ E).card : ℝ) / N i) l
      (𝓝 (volume.real (E ∩ Metric.closedBall 0 t) / (Real.pi * t ^ 2))) := by
  set x : ι → ℕ → ℂ := fun i k => (R i k : ℂ) * Complex.exp (β k * Complex.I) with hx
  have hprob := unif_prob ht
  have hprob' : ∀ i, IsProbabilityMeasure (emp (N i) (x i)) := fun i => emp_prob (hpos i) _
  let μ : ProbabilityMeasure ℂ := ⟨unif t, hprob⟩
  let μs : ι → ProbabilityMeasure ℂ := fun i => ⟨emp (N i) (x i), hprob' i⟩
  have hlim : Tendsto μs l (𝓝 μ) := by
    rw [ProbabilityMeasure.tendsto_iff_forall_integral_tendsto]
    intro f
    change Tendsto (fun i => ∫ z, f z ∂(emp (N i) (x i))) l (𝓝 (∫ z, f z ∂(unif t)))
    have hcont : Continuous fun z : ℂ => (f (t * z) : ℂ) := by fun_prop
    have h1 := (avg_tendsto hβ hcont).comp hN
    rw [← unif_integral ht] at h1
    have h2 : Tendsto (fun i => (∑ k ∈ range (N i), f (t * pt β (N i) k)) / N i) l (𝓝 (∫ z, f z ∂(unif t))) := by
      have := (Complex.continuous_re.tendsto _).comp h1
      simp only [Complex.ofReal_re] at this
      refine this.congr fun i => ?_
      simp only [Function.comp, avg]
      rw [← Complex.ofReal_sum, ← Complex.ofReal_natCast, ← Complex.ofReal_div, Complex.ofReal_re]
    have h3 : Tendsto (fun i => ∫ z, f z ∂(emp (N i) (x i)) - (∑ k ∈ range (N i), f (t * pt β (N i) k)) / N i) l
        (𝓝 0) := by
      rw [Metric.tendsto_nhds]
      intro ε hε
      obtain ⟨δ, hδ, huc⟩ := Metric.uniformContinuousOn_iff.1
        ((isCompact_closedBall (0 : ℂ) (t + 1)).uniformContinuousOn_of_continuous f.continuous.continuousOn) (ε / 2)
        (by positivity)
      filter_upwards [hR (min (δ / 2) 1) (by positivity)] with i hi
      rw [emp_integral, ← sub_div, ← Finset.sum_sub_distrib, dist_zero_right, norm_div, Real.norm_natCast]
      have hNi : (0 : ℝ) < N i := by exact_mod_cast hpos i
      rw [div_lt_iff₀ hNi]
      have hb : ∀ k ∈ range (N i), ‖f (x i k) - f (t * pt β (N i) k)‖ ≤ ε / 2 := by
        intro k hk
        have hk' := hi k (Finset.mem_range.1 hk)
        have hd : dist (x i k) (t * pt β (N i) k) ≤ min (δ / 2) 1 := by
          rw [dist_eq_norm]
          have : x i k - t * pt β (N i) k = ((R i k - t * rad (N i) k : ℝ) : ℂ) * Complex.exp (β k * Complex.I) := by
            simp only [hx, pt]
            push_cast
            ring
          rw [this, norm_mul, Complex.norm_exp_ofReal_mul_I, mul_one, Complex.norm_real]
          exact hk'
        have hp : t * pt β (N i) k ∈ Metric.closedBall (0 : ℂ) (t + 1) := by
          have := pt_mem β (N i) k
          rw [mem_closedBall_zero_iff] at this ⊢
          rw [norm_mul, Complex.norm_real, Real.norm_of_nonneg ht.le]
          nlinarith
        have hq : x i k ∈ Metric.closedBall (0 : ℂ) (t + 1) := by
          have h4 := pt_mem β (N i) k
          rw [mem_closedBall_zero_iff] at h4
          rw [Metric.mem_closedBall]
          refine (dist_triangle _ (t * pt β (N i) k) _).trans ?_
          rw [dist_zero_right, norm_mul, Complex.norm_real, Real.norm_of_nonneg ht.le]
          have := hd.trans (min_le_right _ _)
          nlinarith
        have := huc _ hq _ hp (lt_of_le_of_lt (hd.trans (min_le_left _ _)) (by linarith))
        rw [dist_eq_norm] at this
        exact this.le
      refine lt_of_le_of_lt (norm_sum_le _ _) (lt_of_le_of_lt (Finset.sum_le_card_nsmul _ _ _ hb) ?_)
      rw [Finset.card_range, nsmul_eq_mul]
      nlinarith
    have := h3.add h2
    simpa using this
  have hfr : (μ : Measure ℂ) (frontier E) = 0 := by
    change unif t (frontier E) = 0
    rw [unif, Measure.smul_apply, smul_eq_mul]
    have : volume.restrict (Metric.closedBall (0 : ℂ) t) (frontier E) = 0 :=
      le_antisymm ((Measure.restrict_le_self _).trans hE.le) zero_le
    rw [this, mul_zero]
  have hmain := ProbabilityMeasure.tendsto_measure_of_null_frontier_of_tendsto' hlim hfr
  have h5 := (ENNReal.tendsto_toReal (measure_ne_top (μ : Measure ℂ) E)).comp hmain
  change Tendsto _ l (𝓝 (unif t E).toReal) at h5
  rw [unif_apply ht] at h5
  refine h5.congr fun i => ?_
  change (emp (N i) (x i) E).toReal = _
  rw [emp_apply, ENNReal.toReal_mul, ENNReal.toReal_inv, ENNReal.toReal_natCast, ENNReal.toReal_natCast, div_eq_inv_mul]

/-- A disc in the plane. -/
def disc (mid : ℝ × ℝ) (t : ℝ) : Set (ℝ × ℝ) := {p | (p.1 - mid.1) ^ 2 + (p.2 - mid.2) ^ 2 ≤ t ^ 2}

/-- The same in the plane, for points around an arbitrary midpoint. -/
theorem count_plane {β : ℕ → ℝ} (hβ : Weyl β) {ι : Type*} {l : Filter ι} {N : ι → ℕ} (hN : Tendsto N l atTop)
    (hpos : ∀ i, 0 < N i) {R : ι → ℕ → ℝ} {t : ℝ} (ht : 0 < t)
    (hR : ∀ ε, 0 < ε → ∀ᶠ i in l, ∀ k < N i, |R i k - t * rad (N i) k| ≤ ε) (mid : ℝ × ℝ) {E : Set (ℝ × ℝ)}
    [DecidablePred (· ∈ E)] (hE : volume (frontier E) = 0) :
    Tendsto (fun i => (((range (N i)).filter fun k =>
        (mid.1 + R i k * Real.cos (β k), mid.2 + R i k * Real.sin (β k)) ∈ E).card : ℝ) / N i) l
      (𝓝 (volume.real (E ∩ disc mid t) / (Real.pi * t ^ 2))) := by
  classical
  let φ : ℂ ≃ₜ ℝ × ℝ := Complex.equivRealProdCLM.toHomeomorph.trans (Homeomorph.addLeft mid)
  have hφ : ∀ z, φ z = (mid.1 + z.re, mid.2 + z.im) := fun z => rfl
  have hmp : MeasurePreserving φ volume volume :=
    (measurePreserving_add_left volume mid).comp Complex.volume_preserving_equiv_real_prod
  have hpre : ∀ S : Set (ℝ × ℝ), volume (φ ⁻¹' S) = volume S := fun S =>
    hmp.measure_preimage_equiv (f := φ.toMeasurableEquiv) S
  have hfr : volume (frontier (φ ⁻¹' E)) = 0 := by
    rw [← φ.preimage_frontier, hpre, hE]
  have h := count_complex hβ hN hpos ht hR (E := φ ⁻¹' E) hfr
  have hball : φ ⁻¹' (E ∩ disc mid t) = φ ⁻¹' E ∩ Metric.closedBall 0 t := by
    ext z
    simp only [Set.mem_preimage, Set.mem_inter_iff, disc, Set.mem_ofPred_eq, hφ, add_sub_cancel_left]
    rw [mem_closedBall_zero_iff, Complex.norm_eq_sqrt_sq_add_sq, Real.sqrt_le_left ht.le]
  rw [← hball, Measure.real, hpre] at h
  refine h.congr fun i => ?_
  congr 2
  refine congrArg _ (Finset.filter_congr fun k _ => ?_)
  rw [Set.mem_preimage, hφ, Complex.re_ofReal_mul, Complex.im_ofReal_mul, Complex.exp_ofReal_mul_I_re,
    Complex.exp_ofReal_mul_I_im]

end Verif.Equi
