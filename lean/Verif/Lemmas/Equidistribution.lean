import Mathlib.Analysis.SpecialFunctions.PolarCoord
import Mathlib.Analysis.SumIntegralComparisons
import Mathlib.Algebra.BigOperators.Module
import Mathlib.Topology.ContinuousMap.StoneWeierstrass
import Mathlib.MeasureTheory.Measure.Lebesgue.VolumeOfBalls
import Mathlib.Analysis.SpecialFunctions.Integrals.Basic

/-!
# Spirals fill discs evenly

For a sequence of angles that is equidistributed in the sense of Weyl, the points with these angles and the radii
`√((k + 1) / N)`, `k < N`, are equidistributed in the unit disc: averages of continuous functions over them converge to the
averages over the disc.
-/

namespace Verif.Equi

open Finset Filter Topology MeasureTheory

/-- Summation by parts with increasing weights. -/
theorem norm_sum_mul_le {e : ℕ → ℂ} {w : ℕ → ℝ} (hw : Monotone w) (h0 : ∀ k, 0 ≤ w k) {C : ℝ} {n : ℕ}
    (hC : ∀ k ≤ n, ‖∑ j ∈ range k, e j‖ ≤ C) : ‖∑ k ∈ range n, (w k : ℂ) * e k‖ ≤ 2 * C * w (n - 1) := by
  have hC0 : 0 ≤ C := (norm_nonneg _).trans (hC 0 (Nat.zero_le _))
  have h := Finset.sum_range_by_parts (fun k => (w k : ℂ)) e n
  simp only [smul_eq_mul] at h
  rw [h]
  have h1 : ‖(w (n - 1) : ℂ) * ∑ j ∈ range n, e j‖ ≤ w (n - 1) * C := by
    rw [norm_mul, Complex.norm_real, Real.norm_of_nonneg (h0 _)]
    exact mul_le_mul_of_nonneg_left (hC n le_rfl) (h0 _)
  have h2 : ‖∑ i ∈ range (n - 1), ((w (i + 1) : ℂ) - w i) * ∑ j ∈ range (i + 1), e j‖ ≤ (w (n - 1) - w 0) * C := by
    refine (norm_sum_le _ _).trans ?_
    rw [← Finset.sum_range_sub w (n - 1), Finset.sum_mul]
    refine Finset.sum_le_sum fun i hi => ?_
    have hi' : i < n - 1 := Finset.mem_range.1 hi
    have hd : 0 ≤ w (i + 1) - w i := sub_nonneg.2 (hw (Nat.le_succ i))
    rw [norm_mul, ← Complex.ofReal_sub, Complex.norm_real, Real.norm_of_nonneg hd]
    exact mul_le_mul_of_nonneg_left (hC (i + 1) (by omega)) hd
  refine (norm_sub_le _ _).trans ((add_le_add h1 h2).trans ?_)
  nlinarith [mul_nonneg (h0 0) hC0]

/-- If `a k` is small compared to `k`, then all `a k` with `k ≤ N` are small compared to `N`. -/
theorem max_small {a : ℕ → ℝ} (h : Tendsto (fun k : ℕ => a k / k) atTop (𝓝 0)) {ε : ℝ} (hε : 0 < ε) :
    ∀ᶠ N : ℕ in atTop, ∀ k ≤ N, a k ≤ ε * N := by
  obtain ⟨K, hK⟩ := eventually_atTop.1 (h.eventually (gt_mem_nhds hε))
  have h1 : ∀ k : ℕ, ∀ᶠ N : ℕ in atTop, a k ≤ ε * N := by
    intro k
    have : Tendsto (fun N : ℕ => ε * (N : ℝ)) atTop atTop := tendsto_natCast_atTop_atTop.const_mul_atTop hε
    exact this.eventually_ge_atTop _
  have h2 : ∀ᶠ N : ℕ in atTop, ∀ k ∈ range (K + 1), a k ≤ ε * N :=
    (Finset.eventually_all _).2 fun k _ => h1 k
  filter_upwards [h2] with N hN k hk
  by_cases hkK : k < K + 1
  · exact hN k (Finset.mem_range.2 hkK)
  · have hk0 : (0 : ℝ) < k := by exact_mod_cast (by omega : 0 < k)
    have := hK k (by omega)
    rw [div_lt_iff₀ hk0] at this
    have hkN : (k : ℝ) ≤ N := by exact_mod_cast hk
    nlinarith

/-- The angles are equidistributed (Weyl's criterion). -/
def Weyl (β : ℕ → ℝ) : Prop :=
  ∀ m : ℤ, m ≠ 0 → Tendsto (fun n : ℕ => ‖∑ k ∈ range n, Complex.exp (m * β k * Complex.I)‖ / n) atTop (𝓝 0)

/-- The radii in the unit disc. -/
noncomputable def rad (N k : ℕ) : ℝ := Real.sqrt (min 1 (((k : ℝ) + 1) / N))

/-- The points of a spiral in the unit disc. -/
noncomputable def pt (β : ℕ → ℝ) (N k : ℕ) : ℂ := rad N k * Complex.exp (β k * Complex.I)

theorem rad_nonneg (N k : ℕ) : 0 ≤ rad N k := Real.sqrt_nonneg _

theorem rad_le_one (N k : ℕ) : rad N k ≤ 1 := by
  rw [rad, Real.sqrt_le_iff]
  exact ⟨zero_le_one, by simp⟩

theorem rad_mono (N : ℕ) : Monotone (rad N) := by
  intro k l h
  refine Real.sqrt_le_sqrt (min_le_min le_rfl ?_)
  have : (k : ℝ) ≤ l := by exact_mod_cast h
  gcongr

theorem norm_pt (β : ℕ → ℝ) (N k : ℕ) : ‖pt β N k‖ = rad N k := by
  rw [pt, norm_mul, Complex.norm_exp_ofReal_mul_I, mul_one, Complex.norm_real, Real.norm_of_nonneg (rad_nonneg _ _)]

theorem pt_mem (β : ℕ → ℝ) (N k : ℕ) : pt β N k ∈ Metric.closedBall (0 : ℂ) 1 := by
  rw [mem_closedBall_zero_iff, norm_pt]
  exact rad_le_one _ _

theorem pt_monomial (β : ℕ → ℝ) (N k a b : ℕ) :
    pt β N k ^ a * (starRingEnd ℂ) (pt β N k) ^ b =
      ((rad N k ^ (a + b) : ℝ) : ℂ) * Complex.exp (((a : ℤ) - b : ℤ) * β k * Complex.I) := by
  have h : (starRingEnd ℂ) (Complex.exp (β k * Complex.I)) = Complex.exp (-(β k * Complex.I)) := by
    rw [← Complex.exp_conj]
    congr 1
    simp
  rw [pt, map_mul, h, Complex.conj_ofReal, mul_pow, mul_pow, ← Complex.exp_nat_mul, ← Complex.exp_nat_mul]
  rw [mul_mul_mul_comm, ← pow_add, ← Complex.exp_add]
  push_cast
  congr 2
  ring

/-- Averages over the points of the spiral. -/
noncomputable def avg (β : ℕ → ℝ) (f : ℂ → ℂ) (N : ℕ) : ℂ := (∑ k ∈ range N, f (pt β N k)) / N

theorem norm_avg_le {β : ℕ → ℝ} {f : ℂ → ℂ} {C : ℝ} (hC : 0 ≤ C) (h : ∀ z ∈ Metric.closedBall (0 : ℂ) 1, ‖f z‖ ≤ C) (N : ℕ) :
    ‖avg β f N‖ ≤ C := by
  rw [avg, norm_div, Complex.norm_natCast]
  rcases Nat.eq_zero_or_pos N with rfl | hN
  · simpa using hC
  · have hN' : (0 : ℝ) < N := by exact_mod_cast hN
    rw [div_le_iff₀ hN']
    refine (norm_sum_le _ _).trans ?_
    refine (Finset.sum_le_sum fun k _ => h _ (pt_mem β N k)).trans ?_
    simp [mul_comm]

/-- Monomials which are not invariant under rotations. -/
theorem avg_off_diag {β : ℕ → ℝ} (hβ : Weyl β) {a b : ℕ} (hab : a ≠ b) :
    Tendsto (avg β fun z => z ^ a * (starRingEnd ℂ) z ^ b) atTop (𝓝 0) := by
  have hm : (a : ℤ) - b ≠ 0 := by omega
  have h := hβ _ hm
  rw [Metric.tendsto_atTop]
  intro ε hε
  obtain ⟨N0, hN0⟩ := eventually_atTop.1 (max_small h (show (0 : ℝ) < ε / 4 by positivity))
  refine ⟨N0 + 1, fun N hN => ?_⟩
  have hN' : (0 : ℝ) < N := by exact_mod_cast (by omega : 0 < N)
  rw [dist_zero_right, avg, norm_div, Complex.norm_natCast, div_lt_iff₀ hN']
  simp only [pt_monomial]
  refine lt_of_le_of_lt (norm_sum_mul_le (w := fun k => rad N k ^ (a + b)) (C := ε / 4 * N)
    (fun k l hkl => pow_le_pow_left₀ (rad_nonneg _ _) (rad_mono N hkl) _) (fun k => pow_nonneg (rad_nonneg _ _) _)
    (fun k hk => hN0 N (by omega) k hk)) ?_
  have : rad N (N - 1) ^ (a + b) ≤ 1 := pow_le_one₀ (rad_nonneg _ _) (rad_le_one _ _)
  have hp : 0 ≤ rad N (N - 1) ^ (a + b) := pow_nonneg (rad_nonneg _ _) _
  have : 2 * (ε / 4 * N) * rad N (N - 1) ^ (a + b) ≤ 2 * (ε / 4 * N) * 1 := by gcongr
  nlinarith

/-- Monomials which are invariant under rotations. -/
theorem avg_diag (β : ℕ → ℝ) (a : ℕ) :
    Tendsto (avg β fun z => z ^ a * (starRingEnd ℂ) z ^ a) atTop (𝓝 (1 / ((a : ℂ) + 1))) := by
  have hmono : ∀ N : ℕ, MonotoneOn (fun x : ℝ => x ^ a) (Set.Icc 0 (0 + (N : ℝ))) := fun N x hx y _ hxy =>
    pow_le_pow_left₀ hx.1 hxy a
  have key : ∀ N : ℕ, 0 < N → avg β (fun z => z ^ a * (starRingEnd ℂ) z ^ a) N =
      (((∑ k ∈ range N, ((k : ℝ) + 1) ^ a) / N ^ (a + 1) : ℝ) : ℂ) := by
    intro N hN
    have hN' : (0 : ℝ) < N := by exact_mod_cast hN
    rw [avg]
    simp only [pt_monomial]
    have : ∀ k ∈ range N, (((rad N k ^ (a + a) : ℝ)) : ℂ) * Complex.exp ((((a : ℤ) - a : ℤ) : ℂ) * β k * Complex.I) =
        (((((k : ℝ) + 1) / N) ^ a : ℝ) : ℂ) := by
      intro k hk
      have hk' : ((k : ℝ) + 1) ≤ N := by exact_mod_cast (Finset.mem_range.1 hk)
      have h1 : ((k : ℝ) + 1) / N ≤ 1 := by rw [div_le_one hN']; exact hk'
      rw [sub_self, Int.cast_zero, zero_mul, zero_mul, Complex.exp_zero, mul_one, rad, min_eq_right h1, ← two_mul, pow_mul,
        Real.sq_sqrt (by positivity)]
    rw [Finset.sum_congr rfl this, ← Complex.ofReal_sum]
    push_cast
    rw [Finset.sum_div, Finset.sum_div]
    refine Finset.sum_congr rfl fun k _ => ?_
    rw [div_pow, pow_succ, div_div]
  have hint : ∀ N : ℕ, ∫ x in (0 : ℝ)..(0 + (N : ℝ)), x ^ a = N ^ (a + 1) / (a + 1) := by
    intro N
    rw [zero_add, integral_pow]
    simp
  have hlow : ∀ N : ℕ, 0 < N → 1 / ((a : ℝ) + 1) ≤ (∑ k ∈ range N, ((k : ℝ) + 1) ^ a) / N ^ (a + 1) := by
    intro N hN
    have hN' : (0 : ℝ) < N := by exact_mod_cast hN
    have h := (hmono N).integral_le_sum
    rw [hint] at h
    rw [le_div_iff₀ (by positivity)]
    simp only [zero_add, Nat.cast_add, Nat.cast_one] at h
    refine le_trans (le_of_eq ?_) h
    ring
  have hupp : ∀ N : ℕ, 0 < N → (∑ k ∈ range N, ((k : ℝ) + 1) ^ a) / N ^ (a + 1) ≤ 1 / ((a : ℝ) + 1) + 1 / N := by
    intro N hN
    have hN' : (0 : ℝ) < N := by exact_mod_cast hN
    have h := (hmono N).sum_le_integral
    rw [hint] at h
    simp only [zero_add] at h
    have hs : ∑ k ∈ range N, ((k : ℝ) + 1) ^ a ≤ ∑ k ∈ range N, (k : ℝ) ^ a + (N : ℝ) ^ a := by
      have h1 := Finset.sum_range_succ (fun k : ℕ => (k : ℝ) ^ a) N
      have h2 := Finset.sum_range_succ' (fun k : ℕ => (k : ℝ) ^ a) N
      rw [← h1, h2]
      push_cast
      have : (0 : ℝ) ≤ (0 : ℝ) ^ a := by positivity
      linarith
    rw [div_le_iff₀ (by positivity)]
    have e : (1 / ((a : ℝ) + 1) + 1 / N) * N ^ (a + 1) = N ^ (a + 1) / (a + 1) + N ^ a := by
      field_simp
      ring
    rw [e]
    linarith
  have hlim : Tendsto (fun N : ℕ => (∑ k ∈ range N, ((k : ℝ) + 1) ^ a) / (N : ℝ) ^ (a + 1)) atTop (𝓝 (1 / ((a : ℝ) + 1))) := by
    have h1 : Tendsto (fun N : ℕ => 1 / ((a : ℝ) + 1) + 1 / (N : ℝ)) atTop (𝓝 (1 / ((a : ℝ) + 1) + 0)) :=
      tendsto_const_nhds.add tendsto_one_div_atTop_nhds_zero_nat
    rw [add_zero] at h1
    refine tendsto_of_tendsto_of_tendsto_of_le_of_le' tendsto_const_nhds h1 ?_ ?_
    · filter_upwards [eventually_gt_atTop 0] with N hN using hlow N hN
    · filter_upwards [eventually_gt_atTop 0] with N hN using hupp N hN
  have hlim' := (Complex.continuous_ofReal.tendsto _).comp hlim
  have e : ((1 / ((a : ℝ) + 1) : ℝ) : ℂ) = 1 / ((a : ℂ) + 1) := by push_cast; rfl
  rw [e] at hlim'
  refine hlim'.congr' ?_
  filter_upwards [eventually_gt_atTop 0] with N hN
  rw [key N hN]
  rfl

/-- The integral of a monomial over the unit disc. -/
theorem integral_monomial (a b : ℕ) :
    ∫ z in Metric.closedBall (0 : ℂ) 1, z ^ a * (starRingEnd ℂ) z ^ b =
      if a = b then (Real.pi : ℂ) * (1 / ((a : ℂ) + 1)) else 0 := by
  rw [← integral_indicator Metric.isClosed_closedBall.measurableSet, ← Complex.integral_comp_polarCoord_symm]
  have e : ∀ p ∈ Set.Ioi (0 : ℝ) ×ˢ Set.Ioo (-Real.pi) Real.pi,
      p.1 • (Metric.closedBall (0 : ℂ) 1).indicator (fun z => z ^ a * (starRingEnd ℂ) z ^ b) (Complex.polarCoord.symm p) =
      (Set.Ioc (0 : ℝ) 1 ×ˢ Set.Ioo (-Real.pi) Real.pi).indicator
        (fun p : ℝ × ℝ => ((p.1 : ℂ) ^ (a + b + 1)) * Complex.exp ((((a : ℤ) - b : ℤ) : ℂ) * Complex.I * p.2)) p := by
    rintro ⟨ρ, θ⟩ ⟨hρ, hθ⟩
    simp only [Set.mem_Ioi] at hρ
    have hsymm : Complex.polarCoord.symm (ρ, θ) = ρ * Complex.exp (θ * Complex.I) := by
      rw [Complex.polarCoord_symm_apply, Complex.exp_mul_I]
      push_cast
      rfl
    have hnorm : ‖Complex.polarCoord.symm (ρ, θ)‖ = ρ := by
      rw [Complex.norm_polarCoord_symm, abs_of_pos hρ]
    by_cases h1 : ρ ≤ 1
    · rw [Set.indicator_of_mem (by rw [mem_closedBall_zero_iff, hnorm]; exact h1),
        Set.indicator_of_mem (show (ρ, θ) ∈ Set.Ioc (0 : ℝ) 1 ×ˢ Set.Ioo (-Real.pi) Real.pi from ⟨⟨hρ, h1⟩, hθ⟩), hsymm]
      have h : (starRingEnd ℂ) (Complex.exp (θ * Complex.I)) = Complex.exp (-(θ * Complex.I)) := by
        rw [← Complex.exp_conj]
        congr 1
        simp
      rw [map_mul, h, Complex.conj_ofReal, mul_pow, mul_pow, ← Complex.exp_nat_mul, ← Complex.exp_nat_mul,
        mul_mul_mul_comm, ← pow_add, ← Complex.exp_add, Complex.real_smul, ← mul_assoc, ← pow_succ']
      push_cast
      congr 2
      ring
    · rw [Set.indicator_of_notMem (by rw [mem_closedBall_zero_iff, hnorm]; exact h1),
        Set.indicator_of_notMem (fun h => h1 h.1.2), smul_zero]
  have hms : MeasurableSet (Set.Ioi (0 : ℝ) ×ˢ Set.Ioo (-Real.pi) Real.pi) := measurableSet_Ioi.prod measurableSet_Ioo
  have hms' : MeasurableSet (Set.Ioc (0 : ℝ) 1 ×ˢ Set.Ioo (-Real.pi) Real.pi) := measurableSet_Ioc.prod measurableSet_Ioo
  have ht : polarCoord.target = Set.Ioi (0 : ℝ) ×ˢ Set.Ioo (-Real.pi) Real.pi := rfl
  rw [ht, setIntegral_congr_fun hms e, setIntegral_indicator hms', Set.inter_eq_right.2
    (Set.prod_mono Set.Ioc_subset_Ioi_self le_rfl), Measure.volume_eq_prod,
    setIntegral_prod_mul (fun x : ℝ => (x : ℂ) ^ (a + b + 1))
      (fun θ : ℝ => Complex.exp ((((a : ℤ) - b : ℤ) : ℂ) * Complex.I * θ))]
  have h1 : ∫ x in Set.Ioc (0 : ℝ) 1, (x : ℂ) ^ (a + b + 1) = 1 / ((a : ℂ) + b + 2) := by
    rw [← intervalIntegral.integral_of_le zero_le_one]
    have : ∀ x : ℝ, (x : ℂ) ^ (a + b + 1) = ((x ^ (a + b + 1) : ℝ) : ℂ) := fun x => by push_cast; rfl
    simp only [this]
    rw [intervalIntegral.integral_ofReal, integral_pow]
    push_cast
    simp
    ring
  rw [h1, ← integral_Ioc_eq_integral_Ioo, ← intervalIntegral.integral_of_le (by linarith [Real.pi_pos])]
  by_cases hab : a = b
  · subst hab
    rw [if_pos rfl]
    simp
    have : ((a : ℂ) + 1) ≠ 0 := by exact_mod_cast Nat.succ_ne_zero a
    rw [show (a : ℂ) + a + 2 = 2 * (a + 1) by ring]
    field_simp
    ring
  · rw [if_neg hab]
    have hm : ((((a : ℤ) - b : ℤ) : ℂ) * Complex.I) ≠ 0 := by
      refine mul_ne_zero ?_ Complex.I_ne_zero
      exact_mod_cast (by omega : (a : ℤ) - b ≠ 0)
    rw [integral_exp_mul_complex hm]
    have : Complex.exp ((((a : ℤ) - b : ℤ) : ℂ) * Complex.I * (Real.pi : ℝ)) =
        Complex.exp ((((a : ℤ) - b : ℤ) : ℂ) * Complex.I * ((-Real.pi : ℝ) : ℂ)) := by
      rw [Complex.exp_eq_exp_iff_exists_int]
      refine ⟨(a : ℤ) - b, ?_⟩
      push_cast
      ring
    rw [this, sub_self, zero_div, mul_zero]

theorem avg_monomial {β : ℕ → ℝ} (hβ : Weyl β) (a b : ℕ) :
    Tendsto (avg β fun z => z ^ a * (starRingEnd ℂ) z ^ b) atTop
      (𝓝 ((Real.pi : ℂ)⁻¹ * ∫ z in Metric.closedBall (0 : ℂ) 1, z ^ a * (starRingEnd ℂ) z ^ b)) := by
  have hpi : (Real.pi : ℂ) ≠ 0 := by exact_mod_cast Real.pi_ne_zero
  rw [integral_monomial]
  by_cases hab : a = b
  · subst hab
    rw [if_pos rfl, ← mul_assoc, inv_mul_cancel₀ hpi, one_mul]
    exact avg_diag β a
  · rw [if_neg hab, mul_zero]
    exact avg_off_diag hβ hab

/-- The averages of the function converge to its mean over the unit disc. -/
def Good (β : ℕ → ℝ) (f : ℂ → ℂ) : Prop :=
  Continuous f ∧ Tendsto (avg β f) atTop (𝓝 ((Real.pi : ℂ)⁻¹ * ∫ z in Metric.closedBall (0 : ℂ) 1, f z))

theorem integrable_disc {f : ℂ → ℂ} (hf : Continuous f) : IntegrableOn f (Metric.closedBall (0 : ℂ) 1) :=
  hf.continuousOn.integrableOn_compact (isCompact_closedBall _ _)

theorem Good.add {β : ℕ → ℝ} {f g : ℂ → ℂ} (hf : Good β f) (hg : Good β g) : Good β fun z => f z + g z := by
  refine ⟨hf.1.add hg.1, ?_⟩
  rw [integral_add (integrable_disc hf.1) (integrable_disc hg.1), mul_add]
  refine (hf.2.add hg.2).congr fun N => ?_
  rw [avg, avg, avg, Finset.sum_add_distrib, add_div]

theorem Good.const_mul {β : ℕ → ℝ} {f : ℂ → ℂ} (hf : Good β f) (c : ℂ) : Good β fun z => c * f z := by
  refine ⟨continuous_const.mul hf.1, ?_⟩
  rw [integral_const_mul, mul_left_comm]
  refine (hf.2.const_mul c).congr fun N => ?_
  rw [avg, avg, ← Finset.mul_sum, mul_div_assoc]

theorem norm_mean_le {f : ℂ → ℂ} {C : ℝ} (h : ∀ z ∈ Metric.closedBall (0 : ℂ) 1, ‖f z‖ ≤ C) :
    ‖(Real.pi : ℂ)⁻¹ * ∫ z in Metric.closedBall (0 : ℂ) 1, f z‖ ≤ C := by
  have hv : volume.real (Metric.closedBall (0 : ℂ) 1) = Real.pi := by
    rw [Measure.real, Complex.volume_closedBall]
    simp
  have h1 := norm_setIntegral_le_of_norm_le_const (μ := volume) (s := Metric.closedBall (0 : ℂ) 1) (f := f) (C := C)
    (isCompact_closedBall _ _).measure_lt_top h
  rw [hv] at h1
  rw [norm_mul, norm_inv, Complex.norm_real, Real.norm_of_nonneg Real.pi_pos.le]
  rw [inv_mul_le_iff₀ Real.pi_pos]
  linarith

/-- Averages over the points of a spiral with equidistributed angles converge to means over the disc. -/
theorem avg_tendsto {β : ℕ → ℝ} (hβ : Weyl β) {f : ℂ → ℂ} (hf : Continuous f) :
    Tendsto (avg β f) atTop (𝓝 ((Real.pi : ℂ)⁻¹ * ∫ z in Metric.closedBall (0 : ℂ) 1, f z)) := by
  set D := Metric.closedBall (0 : ℂ) 1 with hD
  have hcomp : CompactSpace D := isCompact_iff_compactSpace.1 (isCompact_closedBall _ _)
  set X : C(D, ℂ) := Polynomial.toContinuousMapOnAlgHom D Polynomial.X with hX
  have hXz : ∀ z : D, X z = z := fun z => by simp [hX]
  -- polynomials in `z` and its conjugate
  have hspan : ∀ g : C(D, ℂ), g ∈ (polynomialFunctions D).starClosure → ∃ p, Good β p ∧ ∀ z : D, g z = p z := by
    intro g hg
    rw [polynomialFunctions.starClosure_eq_adjoin_X, ← StarSubalgebra.mem_toSubalgebra, StarAlgebra.adjoin_toSubalgebra,
      ← Subalgebra.mem_toSubmodule, Algebra.adjoin_eq_span, Set.star_singleton, Set.singleton_union] at hg
    induction hg using Submodule.span_induction with
    | mem x hx =>
      obtain ⟨a, b, rfl⟩ := (Submonoid.mem_closure_pair _ _ _).1 hx
      refine ⟨fun z => z ^ a * (starRingEnd ℂ) z ^ b, ⟨by fun_prop, avg_monomial hβ a b⟩, fun z => ?_⟩
      rw [ContinuousMap.mul_apply, ContinuousMap.pow_apply, ContinuousMap.pow_apply, ContinuousMap.star_apply]
      change X z ^ a * star (X z) ^ b = _
      rw [hXz]
      rfl
    | zero =>
      refine ⟨fun _ => 0 * (fun z => z ^ 0 * (starRingEnd ℂ) z ^ 0 : ℂ → ℂ) 0, ?_, fun z => by simp⟩
      have h0 : Good β fun z => z ^ 0 * (starRingEnd ℂ) z ^ 0 := ⟨by fun_prop, avg_monomial hβ 0 0⟩
      simpa using h0.const_mul 0
    | add x y _ _ hx hy =>
      obtain ⟨p, hp, hpx⟩ := hx
      obtain ⟨q, hq, hqy⟩ := hy
      exact ⟨_, hp.add hq, fun z => by rw [ContinuousMap.add_apply, hpx, hqy]⟩
    | smul c x _ hx =>
      obtain ⟨p, hp, hpx⟩ := hx
      exact ⟨_, hp.const_mul c, fun z => by rw [ContinuousMap.smul_apply, hpx, smul_eq_mul]⟩
  rw [Metric.tendsto_atTop]
  intro ε hε
  set F : C(D, ℂ) := ⟨fun z => f z, by fun_prop⟩ with hF
  have hmem : F ∈ (polynomialFunctions D).starClosure.topologicalClosure := by
    rw [polynomialFunctions.starClosure_topologicalClosure]
    trivial
  obtain ⟨g, hg, hdist⟩ := Metric.mem_closure_iff.1 hmem (ε / 4) (by positivity)
  obtain ⟨p, hp, hpg⟩ := hspan g hg
  have hfp : ∀ z ∈ D, ‖f z - p z‖ ≤ ε / 4 := by
    intro z hz
    have := (ContinuousMap.dist_apply_le_dist (f := F) (g := g) (⟨z, hz⟩ : D)).trans hdist.le
    rw [dist_eq_norm, hpg] at this
    exact this
  obtain ⟨N0, hN0⟩ := Metric.tendsto_atTop.1 hp.2 (ε / 4) (by positivity)
  refine ⟨N0, fun N hN => ?_⟩
  have h1 : ‖avg β f N - avg β p N‖ ≤ ε / 4 := by
    have : avg β f N - avg β p N = avg β (fun z => f z - p z) N := by
      rw [avg, avg, avg, Finset.sum_sub_distrib, sub_div]
    rw [this]
    exact norm_avg_le (by positivity) hfp N
  have h2 := hN0 N hN
  have h3 : ‖(Real.pi : ℂ)⁻¹ * (∫ z in D, f z) - (Real.pi : ℂ)⁻¹ * ∫ z in D, p z‖ ≤ ε / 4 := by
    rw [← mul_sub, ← integral_sub (integrable_disc hf) (integrable_disc hp.1)]
    exact norm_mean_le hfp
  rw [dist_eq_norm] at h2 ⊢
  have e : avg β f N - (Real.pi : ℂ)⁻¹ * (∫ z in D, f z) = (avg β f N - avg β p N) +
      (avg β p N - (Real.pi : ℂ)⁻¹ * ∫ z in D, p z) -
      ((Real.pi : ℂ)⁻¹ * (∫ z in D, f z) - (Real.pi : ℂ)⁻¹ * ∫ z in D, p z) := by ring
  rw [e]
  refine lt_of_le_of_lt ((norm_sub_le _ _).trans (add_le_add (norm_add_le _ _) le_rfl)) ?_
  linarith

end Verif.Equi
