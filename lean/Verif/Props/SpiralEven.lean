import Mathlib.NumberTheory.Real.GoldenRatio
import Mathlib.Analysis.Asymptotics.SpecificAsymptotics
import Mathlib.Analysis.SpecialFunctions.Sqrt
import Mathlib.MeasureTheory.Measure.Lebesgue.EqHaar
import Mathlib.Analysis.Convex.Measure
import Mathlib.Topology.Algebra.Module.Cardinality
import Verif.Lemmas.SpiralCount
import Verif.Props.SpiralSquare

/-!
# Properties C141 and C142: the spiral samplers fill the convex hull evenly

The more samples are requested, the closer is the share of the samples that fall into a region of the convex hull to the
share of the region in the area of the hull.
-/

namespace Verif.Sampler

open Filter Topology MeasureTheory Verif.Equi

/-! ### The angles of the spirals are equidistributed -/

/-- The angles of the Fibonacci spiral. -/
noncomputable def fibonacciAngle (k : ℕ) : ℝ := 2 * Real.pi * ((k : ℝ) + 1) * ((1 + Real.sqrt 5) / 2)⁻¹

theorem weyl_fibonacci : Weyl fibonacciAngle := by
  intro m hm
  set w : ℂ := Complex.exp (m * (2 * Real.pi * ((1 + Real.sqrt 5) / 2)⁻¹ : ℝ) * Complex.I) with hw
  have hg : Irrational ((1 + Real.sqrt 5) / 2) := Real.goldenRatio_irrational
  have hw1 : w ≠ 1 := by
    intro h
    rw [hw, Complex.exp_eq_one_iff] at h
    obtain ⟨j, hj⟩ := h
    have hpi : (Real.pi : ℂ) ≠ 0 := by exact_mod_cast Real.pi_ne_zero
    have h2 : ((m * (2 * Real.pi * ((1 + Real.sqrt 5) / 2)⁻¹) : ℝ) : ℂ) = ((j * (2 * Real.pi) : ℝ) : ℂ) := by
      have := mul_right_cancel₀ Complex.I_ne_zero (hj.trans (by ring : _ = (j * (2 * Real.pi)) * Complex.I))
      push_cast at this ⊢
      exact this
    have h3 : (m * (2 * Real.pi * ((1 + Real.sqrt 5) / 2)⁻¹) : ℝ) = j * (2 * Real.pi) := by exact_mod_cast h2
    have h4 : (m : ℝ) * ((1 + Real.sqrt 5) / 2)⁻¹ = j := by
      have hp := Real.pi_pos
      have : (2 * Real.pi) * ((m : ℝ) * ((1 + Real.sqrt 5) / 2)⁻¹) = (2 * Real.pi) * j := by linarith
      exact mul_left_cancel₀ (by positivity) this
    have h5 : Irrational ((m : ℝ) * ((1 + Real.sqrt 5) / 2)⁻¹) := hg.inv.intCast_mul hm
    exact h5 ⟨j, by rw [h4]; simp⟩
  have hterm : ∀ k : ℕ, Complex.exp (m * fibonacciAngle k * Complex.I) = w * w ^ k := by
    intro k
    rw [hw, ← Complex.exp_nat_mul, ← Complex.exp_add, fibonacciAngle]
    congr 1
    push_cast
    ring
  have hnorm : ‖w‖ = 1 := by
    rw [hw, show (m : ℂ) * ((2 * Real.pi * ((1 + Real.sqrt 5) / 2)⁻¹ : ℝ) : ℂ) * Complex.I =
      ((m * (2 * Real.pi * ((1 + Real.sqrt 5) / 2)⁻¹) : ℝ) : ℂ) * Complex.I by push_cast; ring,
      Complex.norm_exp_ofReal_mul_I]
  have hb : ∀ n : ℕ, ‖∑ k ∈ Finset.range n, Complex.exp (m * fibonacciAngle k * Complex.I)‖ ≤ 2 / ‖w - 1‖ := by
    intro n
    simp only [hterm]
    rw [← Finset.mul_sum, geom_sum_eq hw1, norm_mul, hnorm, one_mul, norm_div]
    refine div_le_div_of_nonneg_right ((norm_sub_le _ _).trans ?_) (norm_nonneg _)
    rw [norm_pow, hnorm]
    norm_num
  have hlim : Tendsto (fun n : ℕ => (2 / ‖w - 1‖) / (n : ℝ)) atTop (𝓝 0) :=
    tendsto_const_nhds.div_atTop tendsto_natCast_atTop_atTop
  refine squeeze_zero (fun n => by positivity) (fun n => ?_) hlim
  exact div_le_div_of_nonneg_right (hb n) (Nat.cast_nonneg n)

theorem norm_exp_sub_le (x : ℝ) : ‖Complex.exp (x * Complex.I) - 1 - x * Complex.I‖ ≤ 3 * x ^ 2 := by
  have hn : ‖(x : ℂ) * Complex.I‖ = |x| := by rw [norm_mul, Complex.norm_I, mul_one, Complex.norm_real, Real.norm_eq_abs]
  by_cases h : |x| ≤ 1
  · have := Complex.norm_exp_sub_one_sub_id_le (x := x * Complex.I) (by rw [hn]; exact h)
    rw [hn, sq_abs] at this
    nlinarith [sq_nonneg x]
  · push Not at h
    refine (norm_sub_le _ _).trans ?_
    rw [hn]
    have h1 : ‖Complex.exp (x * Complex.I) - 1‖ ≤ 2 := by
      refine (norm_sub_le _ _).trans ?_
      rw [Complex.norm_exp_ofReal_mul_I, norm_one]
      norm_num
    have h2 : x ^ 2 = |x| ^ 2 := (sq_abs x).symm
    rw [h2]
    nlinarith

theorem archimedeanBeta_sum (n : ℕ) :
    ∑ k ∈ Finset.range n, 8 / (archimedeanBeta k + 2) = archimedeanBeta n := by
  induction n with
  | zero => rfl
  | succ n ih => rw [Finset.sum_range_succ, ih, archimedeanBeta]

theorem archimedeanBeta_div : Tendsto (fun n : ℕ => archimedeanBeta n / n) atTop (𝓝 0) := by
  have h1 : ∀ n : ℕ, 0 < n → archimedeanBeta n / n ≤ 8 / Real.sqrt n := by
    intro n hn
    have hn' : (1 : ℝ) ≤ n := by exact_mod_cast hn
    have hb := (C87_archimedean_growth n).1
    have hs : 0 < Real.sqrt n := Real.sqrt_pos.2 (by linarith)
    have hss : Real.sqrt n * Real.sqrt n = n := Real.mul_self_sqrt (by linarith)
    have h2 : archimedeanBeta n ≤ 8 * Real.sqrt n := by
      refine abs_le_of_sq_le_sq' ?_ (by positivity) |>.2
      nlinarith
    rw [div_le_div_iff₀ (by linarith) hs]
    nlinarith
  have h2 : Tendsto (fun n : ℕ => 8 / Real.sqrt n) atTop (𝓝 0) :=
    tendsto_const_nhds.div_atTop (Real.tendsto_sqrt_atTop.comp tendsto_natCast_atTop_atTop)
  refine squeeze_zero' (.of_forall fun n => div_nonneg (archimedeanBeta_nonneg n) (Nat.cast_nonneg n)) ?_ h2
  filter_upwards [eventually_gt_atTop 0] with n hn using h1 n hn

theorem weyl_archimedean : Weyl archimedeanBeta := by
  intro m hm
  set b := archimedeanBeta with hb
  have hm' : (m : ℂ) ≠ 0 := by exact_mod_cast hm
  have hmI : (m : ℂ) * Complex.I ≠ 0 := mul_ne_zero hm' Complex.I_ne_zero
  have hb0 := archimedeanBeta_nonneg
  set e : ℕ → ℂ := fun k => Complex.exp (m * b k * Complex.I) with he
  set w : ℕ → ℝ := fun k => (b k + 2) / 8 with hw
  have hen : ∀ k, ‖e k‖ = 1 := by
    intro k
    rw [he]
    simp only
    rw [show (m : ℂ) * (b k : ℂ) * Complex.I = ((m * b k : ℝ) : ℂ) * Complex.I by push_cast; ring,
      Complex.norm_exp_ofReal_mul_I]
  have hwm : Monotone w := fun i j h => by
    have := archimedeanBeta_strictMono.monotone h
    simp only [hw]
    linarith
  have hw0 : ∀ k, 0 < w k := fun k => by simp only [hw]; have := hb0 k; positivity
  -- an increment of `e` is almost a multiple of `e`
  have hstep : ∀ k, ‖e k - (m * Complex.I)⁻¹ * ((w k : ℂ) * (e (k + 1) - e k))‖ ≤ 3 * |(m : ℝ)| * (8 / (b k + 2)) := by
    intro k
    set d : ℝ := 8 / (b k + 2) with hd
    have hd0 : 0 < d := by have := hb0 k; positivity
    have hwd : w k * d = 1 := by
      simp only [hw, hd]
      have := hb0 k
      have : b k + 2 ≠ 0 := by positivity
      field_simp
    have hnext : e (k + 1) = e k * Complex.exp (((m * d : ℝ) : ℂ) * Complex.I) := by
      simp only [he, hb]
      rw [← Complex.exp_add, archimedeanBeta]
      congr 1
      rw [hd]
      push_cast
      ring
    have hwdc : (w k : ℂ) * (d : ℂ) = 1 := by exact_mod_cast hwd
    have hI : e k - (m * Complex.I)⁻¹ * ((w k : ℂ) * (e (k + 1) - e k)) =
        -((m * Complex.I)⁻¹ * ((w k : ℂ) * (e k * (Complex.exp (((m * d : ℝ) : ℂ) * Complex.I) - 1 -
          ((m * d : ℝ) : ℂ) * Complex.I)))) := by
      rw [hnext]
      push_cast
      have : (m * Complex.I)⁻¹ * ((w k : ℂ) * (e k * (m * d * Complex.I))) = e k := by
        calc _ = (m * Complex.I)⁻¹ * (m * Complex.I) * ((w k : ℂ) * d) * e k := by ring
          _ = e k := by rw [inv_mul_cancel₀ hmI, hwdc, one_mul, one_mul]
      linear_combination (-1 : ℂ) * this
    rw [hI, norm_neg, norm_mul, norm_mul, norm_mul, hen, one_mul, norm_inv, norm_mul, Complex.norm_I, mul_one,
      Complex.norm_real, Real.norm_of_nonneg (hw0 k).le, Complex.norm_intCast]
    have h1 := norm_exp_sub_le (m * d)
    have hm0 : 0 < |(m : ℝ)| := abs_pos.2 (by exact_mod_cast hm)
    rw [inv_mul_le_iff₀ hm0]
    calc w k * _ ≤ w k * (3 * (m * d) ^ 2) := mul_le_mul_of_nonneg_left h1 (hw0 k).le
      _ = 3 * (m : ℝ) ^ 2 * (w k * d) * d := by ring
      _ = |(m : ℝ)| * (3 * |(m : ℝ)| * d) := by rw [hwd, ← sq_abs (m : ℝ)]; ring
  -- telescoping
  have htel : ∀ k, ‖∑ j ∈ Finset.range k, (e (j + 1) - e j)‖ ≤ 2 := by
    intro k
    rw [Finset.sum_range_sub]
    refine (norm_sub_le _ _).trans ?_
    rw [hen, hen]
    norm_num
  have hm0 : 0 < |(m : ℝ)| := abs_pos.2 (by exact_mod_cast hm)
  have hsum : ∀ n : ℕ, ‖∑ k ∈ Finset.range n, e k‖ ≤
      |(m : ℝ)|⁻¹ * (4 * ((b n + 2) / 8)) + 3 * |(m : ℝ)| * b n := by
    intro n
    have h1 : ∑ k ∈ Finset.range n, e k = (m * Complex.I)⁻¹ * ∑ k ∈ Finset.range n, (w k : ℂ) * (e (k + 1) - e k) +
        ∑ k ∈ Finset.range n, (e k - (m * Complex.I)⁻¹ * ((w k : ℂ) * (e (k + 1) - e k))) := by
      rw [Finset.sum_sub_distrib, ← Finset.mul_sum]
      ring
    rw [h1]
    refine (norm_add_le _ _).trans (add_le_add ?_ ?_)
    · rw [norm_mul, norm_inv, norm_mul, Complex.norm_I, mul_one, Complex.norm_intCast]
      refine mul_le_mul_of_nonneg_left ?_ (by positivity)
      refine (norm_sum_mul_le hwm (fun k => (hw0 k).le) (C := 2) (n := n) fun k _ => htel k).trans ?_
      have : w (n - 1) ≤ w n := hwm (Nat.sub_le n 1)
      simp only [hw] at this ⊢
      linarith
    · refine (norm_sum_le _ _).trans ((Finset.sum_le_sum fun k _ => hstep k).trans (le_of_eq ?_))
      rw [← Finset.mul_sum, archimedeanBeta_sum]
  have hlim : Tendsto (fun n : ℕ => (|(m : ℝ)|⁻¹ * (1 / 2) + 3 * |(m : ℝ)|) * (archimedeanBeta n / n) +
      |(m : ℝ)|⁻¹ / (n : ℝ)) atTop (𝓝 0) := by
    have h1 := archimedeanBeta_div.const_mul (|(m : ℝ)|⁻¹ * (1 / 2) + 3 * |(m : ℝ)|)
    have h2 : Tendsto (fun n : ℕ => |(m : ℝ)|⁻¹ / (n : ℝ)) atTop (𝓝 0) :=
      tendsto_const_nhds.div_atTop tendsto_natCast_atTop_atTop
    simpa using h1.add h2
  refine squeeze_zero (fun n => by positivity) (fun n => ?_) hlim
  refine (div_le_div_of_nonneg_right (hsum n) (Nat.cast_nonneg n)).trans (le_of_eq ?_)
  rw [hb]
  ring

/-! ### The radii of the spirals -/

theorem archimedeanBeta_atTop : Tendsto archimedeanBeta atTop atTop := by
  refine tendsto_atTop.2 fun b => ?_
  obtain ⟨K, hK⟩ := exists_nat_gt ((|b| + 1) ^ 2)
  filter_upwards [eventually_ge_atTop K] with k hk
  have h1 := (C87_archimedean_growth k).2
  have hk' : (K : ℝ) ≤ k := by exact_mod_cast hk
  by_contra h
  push Not at h
  have h0 := archimedeanBeta_nonneg k
  have hb : archimedeanBeta k ≤ |b| := h.le.trans (le_abs_self b)
  nlinarith [abs_nonneg b]

theorem archimedeanBeta_sq : Tendsto (fun n : ℕ => archimedeanBeta n ^ 2 / n) atTop (𝓝 16) := by
  have hinc : Tendsto (fun k : ℕ => archimedeanBeta (k + 1) ^ 2 - archimedeanBeta k ^ 2) atTop (𝓝 16) := by
    have h1 : Tendsto (fun k : ℕ => archimedeanBeta k + 2) atTop atTop :=
      tendsto_atTop_add_const_right _ 2 archimedeanBeta_atTop
    have h2 : Tendsto (fun k : ℕ => (archimedeanBeta k + 2)⁻¹) atTop (𝓝 0) := h1.inv_tendsto_atTop
    have h3 : Tendsto (fun k : ℕ => 16 - 32 * (archimedeanBeta k + 2)⁻¹ + 64 * (archimedeanBeta k + 2)⁻¹ ^ 2) atTop
        (𝓝 16) := by
      simpa using (((h2.const_mul 32).const_sub 16).add ((h2.pow 2).const_mul 64))
    refine h3.congr fun k => ?_
    have := archimedeanBeta_nonneg k
    have hne : archimedeanBeta k + 2 ≠ 0 := by positivity
    rw [archimedeanBeta]
    field_simp
    ring
  refine hinc.cesaro.congr fun n => ?_
  rw [Finset.sum_range_sub (fun k => archimedeanBeta k ^ 2)]
  simp [archimedeanBeta, div_eq_inv_mul]

theorem archimedeanBeta_gap : Tendsto (fun k : ℕ => |archimedeanBeta k ^ 2 / 16 - (k + 1)| / (k : ℝ)) atTop (𝓝 0) := by
  have h1 : Tendsto (fun k : ℕ => archimedeanBeta k ^ 2 / k / 16 - 1 - 1 / (k : ℝ)) atTop (𝓝 0) := by
    have h2 : Tendsto (fun n : ℕ => 1 / (n : ℝ)) atTop (𝓝 0) := tendsto_const_nhds.div_atTop tendsto_natCast_atTop_atTop
    have := ((archimedeanBeta_sq.div_const 16).sub_const 1).sub h2
    simpa using this
  have h2 := h1.abs
  rw [abs_zero] at h2
  refine h2.congr' ?_
  filter_upwards [eventually_gt_atTop 0] with k hk
  have hk' : (0 : ℝ) < k := by exact_mod_cast hk
  rw [← abs_of_pos hk', ← abs_div, abs_of_pos hk']
  congr 1
  field_simp
  ring

theorem abs_sqrt_sub_sqrt_le {x y : ℝ} (hx : 0 ≤ x) (hy : 0 ≤ y) : |Real.sqrt x - Real.sqrt y| ≤ Real.sqrt |x - y| := by
  refine Real.le_sqrt_of_sq_le ?_
  have hsx := Real.sq_sqrt hx
  have hsy := Real.sq_sqrt hy
  have h0 := Real.sqrt_nonneg x
  have h1 := Real.sqrt_nonneg y
  rw [sq_abs]
  rcases le_total x y with h | h
  · rw [abs_of_nonpos (by linarith)]
    have := Real.sqrt_le_sqrt h
    nlinarith
  · rw [abs_of_nonneg (by linarith)]
    have := Real.sqrt_le_sqrt h
    nlinarith

/-- A family of spirals with equidistributed angles, whose radii are, up to a factor, almost `√((k + 1) / c)` for the
`c` points of the spiral. -/
structure IsSpiral (base : ℕ → List (ℝ × ℝ)) (β : ℕ → ℝ) (R : ℕ → ℕ → ℝ) (s : ℕ → ℝ) (c : ℕ → ℕ) : Prop where
  weyl : Weyl β
  points : ∀ M, base M = (List.range (c M)).map fun k => (R M k * Real.cos (β k), R M k * Real.sin (β k))
  count : ∀ M, M ≤ c M + 1 ∧ c M ≤ M + 1
  factor : ∀ M, 0 < s M
  radii : ∀ ε, 0 < ε → ∀ᶠ M in atTop, ∀ k < c M, |s M * R M k - rad (c M) k| ≤ ε

theorem rad_eq {N k : ℕ} (h : k < N) : rad N k = Real.sqrt (((k : ℝ) + 1) / N) := by
  have hN : (0 : ℝ) < N := by exact_mod_cast (by omega : 0 < N)
  rw [rad, min_eq_right]
  rw [div_le_one hN]
  exact_mod_cast h

theorem spiral_fibonacci : IsSpiral fibonacciBase fibonacciAngle (fun M k => Real.sqrt (((k : ℝ) + 1) / M)) (fun _ => 1)
    (fun M => M - 1) := by
  refine ⟨weyl_fibonacci, fun M => rfl, fun M => by omega, fun _ => one_pos, fun ε hε => ?_⟩
  obtain ⟨K, hK⟩ := exists_nat_gt (1 / ε ^ 2)
  filter_upwards [eventually_ge_atTop (K + 2)] with M hM k hk
  have hM' : (K : ℝ) + 2 ≤ M := by exact_mod_cast hM
  have hK0 : (0 : ℝ) ≤ K := Nat.cast_nonneg K
  have hk' : (k : ℝ) + 1 ≤ (M : ℝ) - 1 := by
    have : k + 2 ≤ M := by omega
    have : (k : ℝ) + 2 ≤ M := by exact_mod_cast this
    linarith
  have hk0 : (0 : ℝ) ≤ k := Nat.cast_nonneg k
  rw [one_mul, rad_eq hk, Nat.cast_sub (by omega), Nat.cast_one]
  refine (abs_sqrt_sub_sqrt_le (by positivity) (div_nonneg (by linarith) (by linarith))).trans ?_
  rw [Real.sqrt_le_left hε.le]
  have e : ((k : ℝ) + 1) / M - (k + 1) / (M - 1) = -((k + 1) / ((M - 1) * M)) := by
    have h1 : (M : ℝ) - 1 ≠ 0 := by linarith
    have h2 : (M : ℝ) ≠ 0 := by linarith
    field_simp
    ring
  have hp : 0 < ((M : ℝ) - 1) * M := mul_pos (by linarith) (by linarith)
  rw [e, abs_neg, abs_of_nonneg (by positivity), div_le_iff₀ hp]
  rw [div_lt_iff₀ (by positivity)] at hK
  have hMe : 1 ≤ ε ^ 2 * M := by nlinarith [sq_nonneg ε]
  nlinarith

theorem spiral_archimedean : IsSpiral archimedeanBase archimedeanBeta (fun _ k => archimedeanBeta k)
    (fun M => (4 * Real.sqrt (M + 1 : ℕ))⁻¹) (fun M => M + 1) := by
  refine ⟨weyl_archimedean, fun M => rfl, fun M => by omega, fun M => ?_, fun ε hε => ?_⟩
  · have : (0 : ℝ) < (M + 1 : ℕ) := by positivity
    have := Real.sqrt_pos.2 this
    positivity
  · have h := (tendsto_add_atTop_nat 1).eventually (max_small archimedeanBeta_gap (ε := ε ^ 2) (by positivity))
    filter_upwards [h] with M hM k hk
    have hN : (0 : ℝ) < (M + 1 : ℕ) := by positivity
    have hs := Real.sqrt_pos.2 hN
    have h0 := archimedeanBeta_nonneg k
    have e : (4 * Real.sqrt (M + 1 : ℕ))⁻¹ * archimedeanBeta k = Real.sqrt (archimedeanBeta k ^ 2 / 16 / (M + 1 : ℕ)) := by
      rw [Real.sqrt_div (by positivity), show archimedeanBeta k ^ 2 / 16 = (archimedeanBeta k / 4) ^ 2 by ring,
        Real.sqrt_sq (by positivity), mul_inv]
      field_simp
    rw [e, rad_eq hk]
    refine (abs_sqrt_sub_sqrt_le (by positivity) (by positivity)).trans ?_
    rw [Real.sqrt_le_left hε.le, ← sub_div, abs_div, abs_of_pos hN, div_le_iff₀ hN]
    exact hM k hk.le

/-! ### The hull in smaller discs -/

/-- The convex hull of the points. -/
abbrev hullOf (pts : List (ℝ × ℝ)) : Set (ℝ × ℝ) := convexHull ℝ {q | q ∈ pts}

theorem hullOf_compact (pts : List (ℝ × ℝ)) : IsCompact (hullOf pts) := (List.finite_toSet pts).isCompact_convexHull (𝕜 := ℝ)

theorem line_null {mid v : ℝ × ℝ} (h : v ≠ mid) :
    volume {x : ℝ × ℝ | (x.1 - mid.1) * (v.2 - mid.2) - (x.2 - mid.2) * (v.1 - mid.1) = 0} = 0 := by
  let f : ℝ × ℝ →ₗ[ℝ] ℝ := (v.2 - mid.2) • LinearMap.fst ℝ ℝ ℝ - (v.1 - mid.1) • LinearMap.snd ℝ ℝ ℝ
  have hf : ∀ x, f x = (v.2 - mid.2) * x.1 - (v.1 - mid.1) * x.2 := fun x => rfl
  have hne : LinearMap.ker f ≠ ⊤ := by
    intro htop
    have h0 : ∀ x, f x = 0 := fun x => LinearMap.mem_ker.1 (htop ▸ Submodule.mem_top)
    have h1 := h0 (1, 0)
    have h2 := h0 (0, 1)
    rw [hf] at h1 h2
    simp only at h1 h2
    exact h (Prod.ext (by linarith) (by linarith))
  have hz := Measure.addHaar_submodule volume (LinearMap.ker f) hne
  have hp := measure_preimage_add_right (volume : Measure (ℝ × ℝ)) (-mid) (LinearMap.ker f : Set (ℝ × ℝ))
  rw [hz] at hp
  refine measure_mono_null (fun x hx => ?_) hp
  simp only [Set.mem_ofPred_eq] at hx
  rw [Set.mem_preimage, SetLike.mem_coe, LinearMap.mem_ker, hf]
  simp only [Prod.fst_add, Prod.snd_add, Prod.fst_neg, Prod.snd_neg]
  linarith

/-- Points of the hull on the enclosing circle are among the given points. -/
theorem on_circle_mem {pts : List (ℝ × ℝ)} {mid : ℝ × ℝ} {r : ℝ} (hin : ∀ p ∈ pts, sqDist (mid, r) p ≤ r ^ 2)
    {q : ℝ × ℝ} (hq : q ∈ hullOf pts) (hr : r ^ 2 ≤ sqDist (mid, r) q) : q ∈ pts := by
  by_contra hn
  set d := sqDist (mid, r) q with hd
  let f : ℝ × ℝ →ₗ[ℝ] ℝ := (q.1 - mid.1) • LinearMap.fst ℝ ℝ ℝ + (q.2 - mid.2) • LinearMap.snd ℝ ℝ ℝ
  have hf : ∀ x, f x = (q.1 - mid.1) * x.1 + (q.2 - mid.2) * x.2 := fun x => rfl
  have hsub : hullOf pts ⊆ {x | f x < f q} := by
    refine convexHull_min (fun v hv => ?_) (convex_halfSpace_lt f.isLinear _)
    simp only [Set.mem_ofPred_eq] at hv ⊢
    have h1 := hin v hv
    have hne : v ≠ q := fun h => hn (h ▸ hv)
    have h2 : 0 < (v.1 - q.1) ^ 2 + (v.2 - q.2) ^ 2 := by
      by_contra h
      have e1 : v.1 - q.1 = 0 := by nlinarith [sq_nonneg (v.1 - q.1), sq_nonneg (v.2 - q.2)]
      have e2 : v.2 - q.2 = 0 := by nlinarith [sq_nonneg (v.1 - q.1), sq_nonneg (v.2 - q.2)]
      exact hne (Prod.ext (by linarith) (by linarith))
    rw [hf, hf]
    simp only [hd, sqDist] at h1 hr
    nlinarith
  exact lt_irrefl (f q) (show f q < f q from hsub hq)

theorem least_pos {pts : List (ℝ × ℝ)} (hpos : 0 < volume.real (hullOf pts)) {mid : ℝ × ℝ} {r : ℝ}
    (hL : Least pts [] (mid, r)) : pts ≠ [] ∧ 0 < r := by
  refine ⟨?_, ?_⟩
  · rintro rfl
    have h0 : hullOf [] = ∅ := by simp [hullOf]
    rw [h0] at hpos
    simp at hpos
  · rcases hL.around.nonneg.lt_or_eq with h | h
    · exact h
    · have := area_le (S := hullOf pts) (m := mid) (r := r) hL.around.nonneg fun p hp =>
        convexHull_min (fun q hq => hL.around.inside q hq) (convex_disc mid (r ^ 2)) hp
      simp only at h
      rw [← h] at this
      simp only [ne_eq, OfNat.ofNat_ne_zero, not_false_eq_true, zero_pow, mul_zero] at this
      rw [Measure.real] at hpos
      linarith

/-- The hull takes up a larger part of smaller discs around the midpoint of its enclosing circle. -/
theorem area_strict {pts : List (ℝ × ℝ)} {ineqs : List (Facet ℝ)} (hhull : IsHull pts ineqs)
    (hpos : 0 < volume.real (hullOf pts)) {mid : ℝ × ℝ} {r : ℝ} (hL : Least pts [] (mid, r)) {t : ℝ} (ht : 0 < t)
    (htr : t < r) : volume.real (hullOf pts) * t ^ 2 < volume.real (hullOf pts ∩ disc mid t) * r ^ 2 := by
  obtain ⟨hne, hr⟩ := least_pos hpos hL
  set H := hullOf pts with hH
  have hconv : Convex ℝ H := convex_convexHull ℝ _
  have hcomp : IsCompact H := hullOf_compact pts
  have hmid : mid ∈ H := C136_midpoint hne hhull hL
  have hdisc : ∀ p ∈ H, (p.1 - mid.1) ^ 2 + (p.2 - mid.2) ^ 2 ≤ r ^ 2 := fun p hp =>
    convexHull_min (fun q hq => hL.around.inside q hq) (convex_disc mid (r ^ 2)) hp
  set c := t / r with hc
  have hc0 : 0 < c := by positivity
  have hc1 : c < 1 := (div_lt_one hr).2 htr
  have hcr : c * r = t := div_mul_cancel₀ _ hr.ne'
  -- a point of the interior that lies on no line through the midpoint and one of the points
  obtain ⟨x, hxint, hxoff⟩ : ∃ x ∈ interior H, ∀ v ∈ pts, v ≠ mid →
      (x.1 - mid.1) * (v.2 - mid.2) - (x.2 - mid.2) * (v.1 - mid.1) ≠ 0 := by
    by_contra hcon
    push Not at hcon
    have hsub : H ⊆ frontier H ∪ ⋃ v ∈ {v | v ∈ pts ∧ v ≠ mid},
        {x : ℝ × ℝ | (x.1 - mid.1) * (v.2 - mid.2) - (x.2 - mid.2) * (v.1 - mid.1) = 0} := by
      intro y hy
      by_cases hyi : y ∈ interior H
      · obtain ⟨v, hv, hvm, h0⟩ := hcon y hyi
        exact Or.inr (Set.mem_biUnion (show v ∈ {v | v ∈ pts ∧ v ≠ mid} from ⟨hv, hvm⟩) h0)
      · exact Or.inl ⟨subset_closure hy, hyi⟩
    have hnull : volume H = 0 := by
      refine measure_mono_null hsub (measure_union_null (hconv.addHaar_frontier volume) ?_)
      refine (measure_biUnion_null_iff ?_).2 fun v hv => line_null hv.2
      exact ((List.finite_toSet pts).subset fun v hv => hv.1).countable
    rw [Measure.real, hnull] at hpos
    simp at hpos
  have hxH : x ∈ H := interior_subset hxint
  have hxm : x ≠ mid := by
    rintro rfl
    obtain ⟨v, hv, hvm⟩ : ∃ v ∈ pts, v ≠ x := by
      by_contra hall
      push Not at hall
      have := hL.least (x, 0) ⟨le_rfl, fun p hp => by rw [hall p hp]; simp [sqDist], by simp⟩
      simp only at this
      linarith
    exact hxoff v hv hvm (by ring)
  set g : ℝ → ℝ × ℝ := fun l => (mid.1 + l * (x.1 - mid.1), mid.2 + l * (x.2 - mid.2)) with hg
  set D := (x.1 - mid.1) ^ 2 + (x.2 - mid.2) ^ 2 with hD
  have hD0 : 0 < D := by
    by_contra h
    have e1 : x.1 - mid.1 = 0 := by nlinarith [sq_nonneg (x.1 - mid.1), sq_nonneg (x.2 - mid.2)]
    have e2 : x.2 - mid.2 = 0 := by nlinarith [sq_nonneg (x.1 - mid.1), sq_nonneg (x.2 - mid.2)]
    exact hxm (Prod.ext (by linarith) (by linarith))
  have hgd : ∀ l, ((g l).1 - mid.1) ^ 2 + ((g l).2 - mid.2) ^ 2 = l ^ 2 * D := fun l => by
    simp only [hg, hD]
    ring
  have hg1 : g 1 = x := Prod.ext (by simp [hg]) (by simp [hg])
  -- where the ray leaves the hull
  obtain ⟨T, hT0, hT⟩ : ∃ T, 0 < T ∧ ∀ l, 0 < l → (g l ∈ H ↔ l ≤ T) := by
    have hiff : ∀ l, Inside ineqs (mid.1 + l * (x.1 - mid.1), mid.2 + l * (x.2 - mid.2)) ↔ g l ∈ H := fun l => hhull (g l)
    rcases ray_cases mid (x.1 - mid.1, x.2 - mid.2) ineqs ((hhull mid).2 hmid) with h | h | ⟨T, hT0, h⟩
    · exfalso
      have h1 := hdisc _ ((hiff (r / D * r + 1 + 1 / D)).1 (h _ (by positivity)))
      rw [hgd] at h1
      have h2 : 0 < 1 / D := by positivity
      have h3 : 0 < r / D := by positivity
      have h4 : r / D * D = r := div_mul_cancel₀ _ hD0.ne'
      have h5 : 1 / D * D = 1 := div_mul_cancel₀ _ hD0.ne'
      have h6 : (r / D * r + 1 + 1 / D) * D = r ^ 2 + D + 1 := by linear_combination r * h4 + h5
      have h7 : (r / D * r + 1 + 1 / D) ^ 2 * D = (r / D * r + 1 + 1 / D) * (r ^ 2 + D + 1) := by rw [sq, mul_assoc, h6]
      rw [h7] at h1
      have h8 : 0 ≤ r / D * r + 1 / D := by positivity
      nlinarith [mul_nonneg h8 (by positivity : 0 ≤ r ^ 2 + D + 1)]
    · exact absurd ((hiff 1).2 (by rw [hg1]; exact hxH)) (h 1 one_pos)
    · exact ⟨T, hT0, fun l hl => (hiff l).symm.trans (h l hl)⟩
  have hT1 : 1 ≤ T := (hT 1 one_pos).1 (by rw [hg1]; exact hxH)
  have hqH : g T ∈ H := (hT T hT0).2 le_rfl
  -- it leaves it before it reaches the circle
  have hlt : T ^ 2 * D < r ^ 2 := by
    rcases (hgd T ▸ hdisc _ hqH).lt_or_eq with h | h
    · exact h
    · exfalso
      have hmem := on_circle_mem (fun p hp => hL.around.inside p hp) hqH (by
        simp only [sqDist]
        rw [hgd, h])
      refine hxoff _ hmem (fun he => ?_) ?_
      · have := hgd T
        rw [he] at this
        simp only [sub_self, ne_eq, OfNat.ofNat_ne_zero, not_false_eq_true, zero_pow, add_zero] at this
        nlinarith [mul_pos (mul_pos hT0 hT0) hD0]
      · simp only [hg]
        ring
  obtain ⟨S, hS1, hS2⟩ : ∃ S, T < S ∧ S < min (T / c) (r / Real.sqrt D) := by
    refine exists_between (lt_min ((lt_div_iff₀ hc0).2 (by nlinarith)) ?_)
    rw [lt_div_iff₀ (Real.sqrt_pos.2 hD0)]
    refine abs_lt_of_sq_lt_sq' ?_ hr.le |>.2
    rw [mul_pow, Real.sq_sqrt hD0.le]
    exact hlt
  have hS0 : 0 < S := hT0.trans hS1
  have hSc : c * S < T := by
    have := hS2.trans_le (min_le_left _ _)
    rw [lt_div_iff₀ hc0] at this
    linarith
  have hSr : S ^ 2 * D < r ^ 2 := by
    have := hS2.trans_le (min_le_right _ _)
    rw [lt_div_iff₀ (Real.sqrt_pos.2 hD0)] at this
    have h2 := pow_lt_pow_left₀ this (by positivity) two_ne_zero
    rwa [mul_pow, Real.sq_sqrt hD0.le] at h2
  -- the open set of points of the hull in the small disc that are not in the contracted hull
  set H' := AffineMap.homothety mid c '' H with hH'
  have hH'c : IsCompact H' := hcomp.image (AffineMap.homothety_continuous mid c)
  have hhom : ∀ p, AffineMap.homothety mid c p = (mid.1 + c * (p.1 - mid.1), mid.2 + c * (p.2 - mid.2)) := by
    intro p
    rw [AffineMap.homothety_apply, vsub_eq_sub, vadd_eq_add]
    refine Prod.ext ?_ ?_
    · simp only [Prod.fst_add, Prod.smul_fst, Prod.fst_sub, smul_eq_mul]
      ring
    · simp only [Prod.snd_add, Prod.smul_snd, Prod.snd_sub, smul_eq_mul]
      ring
  set U := (interior H ∩ {p | (p.1 - mid.1) ^ 2 + (p.2 - mid.2) ^ 2 < t ^ 2}) ∩ H'ᶜ with hU
  have hUo : IsOpen U := (isOpen_interior.inter (isOpen_lt (by fun_prop) continuous_const)).inter hH'c.isClosed.isOpen_compl
  have hUn : (g (c * S)) ∈ U := by
    refine ⟨⟨?_, ?_⟩, ?_⟩
    · rcases lt_trichotomy (c * S) 1 with h | h | h
      · refine hconv.openSegment_interior_self_subset_interior hxint hmid ⟨c * S, 1 - c * S, by positivity, by linarith,
          by ring, Prod.ext ?_ ?_⟩
        · simp only [hg, Prod.fst_add, Prod.smul_fst, smul_eq_mul]
          ring
        · simp only [hg, Prod.snd_add, Prod.smul_snd, smul_eq_mul]
          ring
      · rw [h, hg1]
        exact hxint
      · have hT1' : 0 < T - 1 := by linarith
        refine hconv.openSegment_interior_self_subset_interior hxint hqH ⟨(T - c * S) / (T - 1), (c * S - 1) / (T - 1),
          div_pos (by linarith) hT1', div_pos (by linarith) hT1', ?_, Prod.ext ?_ ?_⟩
        · rw [← add_div, div_eq_one_iff_eq hT1'.ne']
          ring
        · simp only [hg, Prod.fst_add, Prod.smul_fst, smul_eq_mul]
          field_simp
          ring
        · simp only [hg, Prod.snd_add, Prod.smul_snd, smul_eq_mul]
          field_simp
          ring
    · rw [Set.mem_ofPred_eq, hgd, ← hcr]
      nlinarith [mul_pos hc0 hc0]
    · rintro ⟨p, hp, he⟩
      rw [hhom] at he
      have hpg : p = g S := by
        have h1 := congrArg Prod.fst he
        have h2 := congrArg Prod.snd he
        simp only [hg] at h1 h2
        refine Prod.ext ?_ ?_
        · have : c * (p.1 - mid.1) = c * (S * (x.1 - mid.1)) := by linarith
          have := mul_left_cancel₀ hc0.ne' this
          simp only [hg]
          linarith
        · have : c * (p.2 - mid.2) = c * (S * (x.2 - mid.2)) := by linarith
          have := mul_left_cancel₀ hc0.ne' this
          simp only [hg]
          linarith
      have := (hT S hS0).1 (hpg ▸ hp)
      linarith
  have hUpos : 0 < volume U := hUo.measure_pos volume ⟨_, hUn⟩
  -- areas
  have hfin : volume (H ∩ disc mid t) ≠ ⊤ := ((measure_mono Set.inter_subset_left).trans_lt hcomp.measure_lt_top).ne
  have hsub : H' ∪ U ⊆ H ∩ disc mid t := by
    rintro p (⟨q, hq, rfl⟩ | ⟨⟨hp1, hp2⟩, -⟩)
    · refine ⟨?_, ?_⟩
      · rw [hhom]
        have := hconv hmid hq (by linarith : (0 : ℝ) ≤ 1 - c) hc0.le (by ring)
        convert this using 1
        refine Prod.ext ?_ ?_
        · simp only [Prod.fst_add, Prod.smul_fst, smul_eq_mul]
          ring
        · simp only [Prod.snd_add, Prod.smul_snd, smul_eq_mul]
          ring
      · rw [hhom]
        simp only [disc, Set.mem_ofPred_eq, add_sub_cancel_left]
        have := hdisc q hq
        rw [← hcr]
        nlinarith [mul_pos hc0 hc0]
    · exact ⟨interior_subset hp1, (show (p.1 - mid.1) ^ 2 + (p.2 - mid.2) ^ 2 < t ^ 2 from hp2).le⟩
  have hdisj : Disjoint H' U := Set.disjoint_left.2 fun p hp hpU => hpU.2 hp
  have hvol : volume H' + volume U ≤ volume (H ∩ disc mid t) := by
    rw [← measure_union hdisj hUo.measurableSet]
    exact measure_mono hsub
  have hH'v : volume H' = ENNReal.ofReal (c ^ 2) * volume H := by
    rw [hH', Measure.addHaar_image_homothety]
    congr 2
    rw [Module.finrank_prod, Module.finrank_self, abs_of_nonneg (by positivity)]
  have hreal : c ^ 2 * volume.real H < volume.real (H ∩ disc mid t) := by
    have h1 : volume H' ≠ ⊤ := hH'c.measure_lt_top.ne
    have h2 : volume U ≠ ⊤ := ((le_add_left le_rfl).trans hvol).trans_lt hfin.lt_top |>.ne
    have h3 := ENNReal.toReal_mono hfin hvol
    rw [ENNReal.toReal_add h1 h2, hH'v, ENNReal.toReal_mul, ENNReal.toReal_ofReal (by positivity)] at h3
    have h4 := ENNReal.toReal_pos hUpos.ne' h2
    rw [Measure.real, Measure.real]
    linarith
  have : volume.real H * t ^ 2 = (c ^ 2 * volume.real H) * r ^ 2 := by rw [← hcr]; ring
  rw [this]
  exact mul_lt_mul_of_pos_right hreal (by positivity)

/-! ### The scale that is found -/

theorem countP_range (n : ℕ) (p : ℕ → Bool) : (List.range n).countP p = ((Finset.range n).filter fun k => p k = true).card := by
  induction n with
  | zero => rfl
  | succ n ih =>
    rw [List.range_succ, List.countP_append, ih, Finset.range_add_one, Finset.filter_insert]
    by_cases h : p n = true
    · rw [if_pos h, Finset.card_insert_of_notMem (by simp)]
      simp [h]
    · rw [if_neg h]
      simp [h]

open Classical in
/-- The number of points of the scaled spiral in a set. -/
noncomputable def inSet (β : ℕ → ℝ) (R : ℕ → ℕ → ℝ) (c : ℕ → ℕ) (mid : ℝ × ℝ) (E : Set (ℝ × ℝ)) (M : ℕ) (t : ℝ) : ℕ :=
  ((Finset.range (c M)).filter fun k =>
    (mid.1 + t * R M k * Real.cos (β k), mid.2 + t * R M k * Real.sin (β k)) ∈ E).card

open Classical in
theorem sample_inSet {base : ℕ → List (ℝ × ℝ)} {β : ℕ → ℝ} {R : ℕ → ℕ → ℝ} {s : ℕ → ℝ} {c : ℕ → ℕ}
    (hs : IsSpiral base β R s c) {pts : List (ℝ × ℝ)} {ineqs : List (Facet ℝ)} (hhull : IsHull pts ineqs)
    (mid : ℝ × ℝ) (B : Set (ℝ × ℝ)) (M : ℕ) (t : ℝ) :
    (sampleGenerator (base M) mid ineqs t).countP (fun p => decide (p ∈ B)) = inSet β R c mid (hullOf pts ∩ B) M t := by
  rw [sampleGenerator, List.countP_filter, hs.points, List.map_map, List.countP_map, countP_range, inSet]
  congr 1
  ext k
  simp only [Finset.mem_filter, Function.comp, Bool.and_eq_true, decide_eq_true_eq, inHull_iff, ← mul_assoc]
  rw [hhull, Set.mem_inter_iff, and_comm (a := _ ∈ B)]

theorem sample_length {base : ℕ → List (ℝ × ℝ)} {β : ℕ → ℝ} {R : ℕ → ℕ → ℝ} {s : ℕ → ℝ} {c : ℕ → ℕ}
    (hs : IsSpiral base β R s c) {pts : List (ℝ × ℝ)} {ineqs : List (Facet ℝ)} (hhull : IsHull pts ineqs)
    (mid : ℝ × ℝ) (M : ℕ) (t : ℝ) :
    (sampleGenerator (base M) mid ineqs t).length = inSet β R c mid (hullOf pts) M t := by
  classical
  have := sample_inSet hs hhull mid Set.univ M t
  rw [Set.inter_univ] at this
  rw [← this]
  simp

/-- The number of points of the spiral grows like the area of the disc divided by the area of the hull. -/
theorem count_div {c : ℕ → ℕ} (hc : ∀ M, M ≤ c M + 1 ∧ c M ≤ M + 1) {r vol : ℝ} (hr : 0 < r) (hpos : 0 < vol) :
    Tendsto (fun n : ℕ => (c (upperBound r vol n) : ℝ) / n) atTop (𝓝 (Real.pi * r ^ 2 / vol)) := by
  set a := Real.pi * r ^ 2 / vol with ha
  have ha0 : 0 < a := by have := Real.pi_pos; positivity
  have hb : ∀ n : ℕ, a * n ≤ (c (upperBound r vol n) : ℝ) ∧ (c (upperBound r vol n) : ℝ) ≤ a * n + 11 := by
    intro n
    have h1 := hc (upperBound r vol n)
    set x := Real.pi * r ^ 2 * n / vol with hx
    have hxa : x = a * n := by rw [hx, ha]; ring
    have hx0 : 0 ≤ x := by rw [hxa]; positivity
    have h2 : ((⌊x⌋.toNat : ℕ) : ℝ) = (⌊x⌋ : ℝ) := by
      have : ((⌊x⌋.toNat : ℕ) : ℤ) = ⌊x⌋ := Int.toNat_of_nonneg (Int.floor_nonneg.2 hx0)
      exact_mod_cast congrArg (Int.cast : ℤ → ℝ) this
    have h3 : ((upperBound r vol n : ℕ) : ℝ) = (⌊x⌋ : ℝ) + 10 := by
      rw [upperBound, Nat.cast_add, h2]
      norm_num
    have h4 : ((upperBound r vol n : ℕ) : ℝ) ≤ (c (upperBound r vol n) : ℝ) + 1 := by exact_mod_cast h1.1
    have h5 : (c (upperBound r vol n) : ℝ) ≤ ((upperBound r vol n : ℕ) : ℝ) + 1 := by exact_mod_cast h1.2
    have h6 := Int.floor_le x
    have h7 := Int.lt_floor_add_one x
    rw [← hxa]
    constructor <;> linarith
  have hup : Tendsto (fun n : ℕ => a + 11 / (n : ℝ)) atTop (𝓝 a) := by
    simpa using (tendsto_const_nhds (x := a)).add
      ((tendsto_const_nhds (x := (11 : ℝ))).div_atTop tendsto_natCast_atTop_atTop)
  refine tendsto_of_tendsto_of_tendsto_of_le_of_le' tendsto_const_nhds hup ?_ ?_
  · filter_upwards [eventually_gt_atTop 0] with n hn
    have hn' : (0 : ℝ) < n := by exact_mod_cast hn
    rw [le_div_iff₀ hn']
    exact (hb n).1
  · filter_upwards [eventually_gt_atTop 0] with n hn
    have hn' : (0 : ℝ) < n := by exact_mod_cast hn
    rw [div_le_iff₀ hn', add_mul, div_mul_cancel₀ _ hn'.ne']
    exact (hb n).2

/-- The share of the points in a set converges, if the scales converge. -/
theorem inSet_tendsto {base : ℕ → List (ℝ × ℝ)} {β : ℕ → ℝ} {R : ℕ → ℕ → ℝ} {s : ℕ → ℝ} {c : ℕ → ℕ}
    (hs : IsSpiral base β R s c) {ι : Type*} {l : Filter ι} {M : ι → ℕ} (hM : Tendsto M l atTop) (h2 : ∀ i, 2 ≤ M i)
    {t : ι → ℝ} {τ : ℝ} (hτ : 0 < τ) (ht : Tendsto (fun i => t i / s (M i)) l (𝓝 τ)) (mid : ℝ × ℝ) {E : Set (ℝ × ℝ)}
    (hE : volume (frontier E) = 0) :
    Tendsto (fun i => (inSet β R c mid E (M i) (t i) : ℝ) / c (M i)) l
      (𝓝 (volume.real (E ∩ disc mid τ) / (Real.pi * τ ^ 2))) := by
  classical
  have hN : Tendsto (fun i => c (M i)) l atTop := by
    refine tendsto_atTop.2 fun b => ?_
    filter_upwards [hM.eventually_ge_atTop (b + 1)] with i hi
    have := (hs.count (M i)).1
    omega
  have hpos : ∀ i, 0 < c (M i) := fun i => by
    have := (hs.count (M i)).1
    have := h2 i
    omega
  suffices hR : ∀ ε, 0 < ε → ∀ᶠ i in l, ∀ k < c (M i), |t i * R (M i) k - τ * rad (c (M i)) k| ≤ ε by
    have h := count_plane hs.weyl (N := fun i => c (M i)) hN hpos (R := fun i k => t i * R (M i) k) hτ hR mid hE
    exact h.congr fun i => by rw [inSet]
  intro ε hε
  have hδ : 0 < min 1 (ε / (2 * τ)) := by positivity
  have h3 := hM.eventually (hs.radii _ hδ)
  have h4 := Metric.tendsto_nhds.1 ht (ε / 4) (by positivity)
  filter_upwards [h3, h4] with i hi1 hi2 k hk
  have h5 := hi1 k hk
  rw [Real.dist_eq] at hi2
  have hsne := (hs.factor (M i)).ne'
  set u := t i / s (M i) with hu
  set q := s (M i) * R (M i) k with hq
  set ρ := rad (c (M i)) k with hρ
  have e : t i * R (M i) k - τ * ρ = (u - τ) * q + τ * (q - ρ) := by
    have hts : t i = u * s (M i) := (div_mul_cancel₀ _ hsne).symm
    rw [hq, hts]
    ring
  have hρ1 : |ρ| ≤ 1 := by
    rw [abs_of_nonneg (rad_nonneg _ _), rad, Real.sqrt_le_one]
    exact min_le_left _ _
  have hq1 : |q| ≤ 2 := by
    have h6 := abs_add_le (q - ρ) ρ
    rw [sub_add_cancel] at h6
    have := h5.trans (min_le_left _ _)
    linarith
  rw [e]
  refine (abs_add_le _ _).trans ?_
  rw [abs_mul (u - τ) q, abs_mul τ (q - ρ), abs_of_pos hτ]
  have h7 : |u - τ| * |q| ≤ ε / 4 * 2 := mul_le_mul hi2.le hq1 (abs_nonneg _) (by positivity)
  have h8 : τ * |q - ρ| ≤ τ * (ε / (2 * τ)) := mul_le_mul_of_nonneg_left (h5.trans (min_le_right _ _)) hτ.le
  have h9 : τ * (ε / (2 * τ)) = ε / 2 := by field_simp
  linarith

theorem circleLoop_mono {pts : List (ℝ × ℝ)} {eps : ℝ} (d : ℕ) : ∀ (fuel i j : ℕ) (k : List ℕ) (c : Circle)
    (x : Except PyErr Circle), circleLoop pts eps fuel i j k c = some x →
      circleLoop pts eps (fuel + d) i j k c = some x := by
  intro fuel
  induction fuel with
  | zero => intro i j k c x h; simp [circleLoop] at h
  | succ fuel ih =>
    intro i j k c x h
    rw [show fuel + 1 + d = (fuel + d) + 1 by omega]
    rw [circleLoop] at h ⊢
    split at h
    · exact h
    · rename_i p _
      by_cases hin : isInCircle p c eps
      · rw [if_pos hin] at h ⊢
        exact ih _ _ _ _ _ h
      · rw [if_neg hin] at h ⊢
        simp only at h ⊢
        cases hc : smallCircle (List.filterMap (fun t => pts[t]?)
            (if i = j then [i] else List.filter (fun t => decide (i < t)) k ++ [i])) with
        | error e => rw [hc] at h; exact h
        | ok c' =>
          rw [hc] at h
          exact ih _ _ _ _ _ h

theorem makeCircle_mono {pts : List (ℝ × ℝ)} {eps : ℝ} {fuel : ℕ} {x : Except PyErr Circle}
    (h : makeCircle pts eps fuel = some x) (d : ℕ) : makeCircle pts eps (fuel + d) = some x :=
  circleLoop_mono d fuel 0 0 [] ((0, 0), 0) x h

open Classical in
/-- What is proved of both samplers. -/
theorem spiral_even {base : ℕ → List (ℝ × ℝ)} {β : ℕ → ℝ} {R : ℕ → ℕ → ℝ} {s : ℕ → ℝ} {c : ℕ → ℕ}
    (hs : IsSpiral base β R s c) {hull : Hull} {pts : List (ℝ × ℝ)} {vol : ℝ} {ineqs : List (Facet ℝ)}
    (hh : hull pts = .ok (vol, ineqs)) (hhull : IsHull pts ineqs) (hvol : vol = (volume (hullOf pts)).toReal)
    (hpos : 0 < vol) (hsep : Separated pts (1 / 10000)) {B : Set (ℝ × ℝ)} (hB : volume (frontier B) = 0) {ε : ℝ}
    (hε : 0 < ε) : ∃ n0, ∀ n, n0 ≤ n → ∀ shuffle : List (ℝ × ℝ) → List (ℝ × ℝ), (∀ l, (shuffle l).Perm l) →
      ∀ fuel out, spiralSample base hull shuffle n fuel (rowsOf pts) = some (.ok out) →
      |((out.countP fun p => decide (p ∈ B) : ℕ) : ℝ) / n - (volume (hullOf pts ∩ B)).toReal / vol| ≤ ε := by
  obtain ⟨⟨mid, r⟩, hL, -⟩ := makeCircle_least (pts := pts) (eps := 1 / 10000) (by norm_num) hsep
  have hpos' : 0 < volume.real (hullOf pts) := by rw [Measure.real, ← hvol]; exact hpos
  obtain ⟨hne, hr⟩ := least_pos hpos' hL
  have hmid : Inside ineqs mid := (hhull mid).2 (C136_midpoint hne hhull hL)
  have hconv : Convex ℝ (hullOf pts) := convex_convexHull ℝ _
  have hfr : volume (frontier (hullOf pts)) = 0 := hconv.addHaar_frontier volume
  have hin : hullOf pts ⊆ disc mid r := fun p hp =>
    convexHull_min (fun q hq => hL.around.inside q hq) (convex_disc mid (r ^ 2)) hp
  set M : ℕ → ℕ := fun n => upperBound r vol n with hM
  have hMn : ∀ n, n + 10 ≤ M n := fun n => upperBound_ge hvol hpos hL n
  have hMt : Tendsto M atTop atTop := tendsto_atTop_mono (fun n => (Nat.le_add_right n 10).trans (hMn n)) tendsto_id
  have hM2 : ∀ n, 2 ≤ M n := fun n => by have := hMn n; omega
  have hpi := Real.pi_pos
  -- the number of points in the hull for a fixed scale
  have hfix : ∀ τ, 0 < τ → Tendsto (fun n : ℕ => (inSet β R c mid (hullOf pts) (M n) (τ * s (M n)) : ℝ) / n) atTop
      (𝓝 (volume.real (hullOf pts ∩ disc mid τ) / (Real.pi * τ ^ 2) * (Real.pi * r ^ 2 / vol))) := by
    intro τ hτ
    have h1 := inSet_tendsto hs hMt hM2 (t := fun n => τ * s (M n)) hτ (by
      refine tendsto_const_nhds.congr fun n => ?_
      rw [mul_div_cancel_right₀ _ (hs.factor (M n)).ne']) mid hfr
    refine (h1.mul (count_div hs.count hr hpos)).congr fun n => ?_
    have : (c (M n) : ℝ) ≠ 0 := by
      have h3 := (hs.count (M n)).1
      have h4 := hM2 n
      exact_mod_cast (by omega : c (M n) ≠ 0)
    rw [div_mul_div_cancel₀ this]
  have hanti : ∀ n a b, 0 < a → a ≤ b →
      inSet β R c mid (hullOf pts) (M n) b ≤ inSet β R c mid (hullOf pts) (M n) a := by
    intro n a b ha hab
    rw [← sample_length hs hhull, ← sample_length hs hhull]
    exact sampleGenerator_antitone hmid ha hab
  have hhigh : ∀ τ, r < τ → ∀ᶠ n in atTop, inSet β R c mid (hullOf pts) (M n) (τ * s (M n)) < n := by
    intro τ hτ
    have hτ0 : 0 < τ := hr.trans hτ
    have hsub : hullOf pts ∩ disc mid τ = hullOf pts := Set.inter_eq_left.2 fun p hp =>
      (hin hp).trans (pow_le_pow_left₀ hr.le hτ.le 2)
    have h1 := hfix τ hτ0
    rw [hsub, Measure.real, ← hvol] at h1
    have h2 : vol / (Real.pi * τ ^ 2) * (Real.pi * r ^ 2 / vol) < 1 := by
      have : vol / (Real.pi * τ ^ 2) * (Real.pi * r ^ 2 / vol) = r ^ 2 / τ ^ 2 := by field_simp
      rw [this, div_lt_one (by positivity)]
      exact pow_lt_pow_left₀ hτ hr.le two_ne_zero
    filter_upwards [h1.eventually (gt_mem_nhds h2), eventually_gt_atTop 0] with n hn hn0
    have hn' : (0 : ℝ) < n := by exact_mod_cast hn0
    rw [div_lt_one hn'] at hn
    exact_mod_cast hn
  have hlow : ∀ τ, 0 < τ → τ < r → ∀ᶠ n in atTop, n < inSet β R c mid (hullOf pts) (M n) (τ * s (M n)) := by
    intro τ hτ0 hτ
    have h0 := area_strict hhull hpos' hL hτ0 hτ
    have h1 := hfix τ hτ0
    have h2 : 1 < volume.real (hullOf pts ∩ disc mid τ) / (Real.pi * τ ^ 2) * (Real.pi * r ^ 2 / vol) := by
      have : volume.real (hullOf pts ∩ disc mid τ) / (Real.pi * τ ^ 2) * (Real.pi * r ^ 2 / vol) =
          volume.real (hullOf pts ∩ disc mid τ) * r ^ 2 / (vol * τ ^ 2) := by field_simp
      rw [this, one_lt_div (by positivity)]
      rw [Measure.real, ← hvol] at h0
      exact h0
    filter_upwards [h1.eventually (lt_mem_nhds h2), eventually_gt_atTop 0] with n hn hn0
    have hn' : (0 : ℝ) < n := by exact_mod_cast hn0
    rw [one_lt_div hn'] at hn
    exact_mod_cast hn
  -- the scales that are found converge to the radius of the circle
  let ι := {x : ℕ × ℝ // 0 < x.2 ∧ inSet β R c mid (hullOf pts) (M x.1) x.2 = x.1}
  let l : Filter ι := comap (fun i => i.1.1) atTop
  have hfst : Tendsto (fun i : ι => i.1.1) l atTop := tendsto_comap
  have hscale : Tendsto (fun i : ι => i.1.2 / s (M i.1.1)) l (𝓝 r) := by
    refine tendsto_order.2 ⟨fun a ha => ?_, fun a ha => ?_⟩
    · by_cases ha0 : 0 < a
      · filter_upwards [hfst.eventually (hlow a ha0 ha)] with i hi
        by_contra h
        push Not at h
        rw [div_le_iff₀ (hs.factor _)] at h
        have := hanti i.1.1 i.1.2 _ i.2.1 h
        rw [i.2.2] at this
        omega
      · exact .of_forall fun i => lt_of_le_of_lt (not_lt.1 ha0) (div_pos i.2.1 (hs.factor _))
    · filter_upwards [hfst.eventually (hhigh a ha)] with i hi
      by_contra h
      push Not at h
      rw [le_div_iff₀ (hs.factor _)] at h
      have := hanti i.1.1 _ i.1.2 (mul_pos (hr.trans ha) (hs.factor _)) h
      rw [i.2.2] at this
      omega
  -- hence the share of the samples converges
  have hfrB : volume (frontier (hullOf pts ∩ B)) = 0 := by
    refine measure_mono_null (frontier_inter_subset _ _) (measure_union_null ?_ ?_)
    · exact measure_mono_null Set.inter_subset_left hfr
    · exact measure_mono_null Set.inter_subset_right hB
  have hfin := inSet_tendsto hs (hMt.comp hfst) (fun i => hM2 _) hr hscale mid hfrB
  have hfin2 := hfin.mul ((count_div hs.count hr hpos).comp hfst)
  have hval : volume.real (hullOf pts ∩ B ∩ disc mid r) / (Real.pi * r ^ 2) * (Real.pi * r ^ 2 / vol) =
      (volume (hullOf pts ∩ B)).toReal / vol := by
    have : hullOf pts ∩ B ∩ disc mid r = hullOf pts ∩ B := Set.inter_eq_left.2 fun p hp => hin hp.1
    rw [this, Measure.real]
    field_simp
  rw [hval] at hfin2
  have hev := Metric.tendsto_nhds.1 hfin2 ε hε
  obtain ⟨n0, hn0⟩ := eventually_atTop.1 (eventually_comap.1 hev)
  refine ⟨n0, fun n hn shuffle hsh fuel out h => ?_⟩
  -- the run of the sampler
  unfold spiralSample at h
  simp only [rowsOf, toPlane_rows] at h
  obtain ⟨e, hLe, m1, hm1⟩ := makeCircle_least (pts := shuffle pts) (eps := 1 / 10000) (by norm_num) (by
    intro l hl h3 c hc p hp
    exact hsep l (fun q hq => (hsh pts).mem_iff.1 (hl q hq)) h3 c hc p ((hsh pts).mem_iff.1 hp))
  have hcc : e = (mid, r) := by
    refine least_unique hne ⟨hLe.around.mono (fun p hp => Or.inl ((hsh pts).mem_iff.2 hp)) (by simp), fun e he =>
      hLe.least e (he.mono (fun p hp => Or.inl ((hsh pts).mem_iff.1 hp)) (by simp))⟩ hL
  subst hcc
  have hmc : makeCircle (shuffle pts) (1 / 10000) fuel = some (.ok (mid, r)) := by
    cases hx : makeCircle (shuffle pts) (1 / 10000) fuel with
    | none =>
      rw [hx] at h
      simp at h
    | some x => rw [← makeCircle_mono hx m1, hm1 (fuel + m1) (Nat.le_add_left _ _)]
  simp only [hmc, hh, hpos.ne', if_false] at h
  cases hb' : binaryRescale n (sampleGenerator (base (upperBound r vol n)) mid ineqs) r fuel with
  | none => simp [hb'] at h
  | some out' =>
    simp only [hb', Option.map_some, Option.some.injEq, Except.ok.injEq] at h
    subst h
    obtain ⟨hl, -⟩ := C30_spiral_samples n _ mid ineqs r fuel hb'
    obtain ⟨t, ht, he⟩ := rescaleLoop_pos n _ fuel 0 none r _ out' le_rfl (by simp) hr rfl hb'
    rw [he, sample_length hs hhull] at hl
    have hfinal := hn0 n hn ⟨(n, t), ht, hl⟩ rfl
    rw [Real.dist_eq] at hfinal
    rw [he, sample_inSet hs hhull]
    simp only [Function.comp] at hfinal
    have hc0 : (c (M n) : ℝ) ≠ 0 := by
      have h3 := (hs.count (M n)).1
      have h4 := hM2 n
      exact_mod_cast (by omega : c (M n) ≠ 0)
    rw [div_mul_div_cancel₀ hc0] at hfinal
    exact hfinal.le

/-! ## C141 and C142 -/

open Classical in
/-- **C141.** The Fibonacci sampler fills the convex hull evenly: for every region with a boundary of area zero, the
share of the samples in the region comes arbitrarily close to the share of the region in the area of the hull, if enough
samples are requested, however the points are shuffled and however long the search takes. -/
theorem C141_fibonacci {hull : Hull} {pts : List (ℝ × ℝ)} {vol : ℝ} {ineqs : List (Facet ℝ)}
    (hh : hull pts = .ok (vol, ineqs)) (hhull : IsHull pts ineqs)
    (hvol : vol = (volume (convexHull ℝ {q | q ∈ pts})).toReal) (hpos : 0 < vol) (hsep : Separated pts (1 / 10000))
    {B : Set (ℝ × ℝ)} (hB : volume (frontier B) = 0) {ε : ℝ} (hε : 0 < ε) :
    ∃ n0, ∀ n, n0 ≤ n → ∀ shuffle : List (ℝ × ℝ) → List (ℝ × ℝ), (∀ l, (shuffle l).Perm l) →
      ∀ fuel out, fibonacci hull shuffle n fuel (rowsOf pts) = some (.ok out) →
      |((out.countP fun p => decide (p ∈ B) : ℕ) : ℝ) / n -
        (volume (convexHull ℝ {q | q ∈ pts} ∩ B)).toReal / (volume (convexHull ℝ {q | q ∈ pts})).toReal| ≤ ε := by
  have := spiral_even spiral_fibonacci hh hhull hvol hpos hsep hB hε
  rw [hvol] at this
  exact this

open Classical in
/-- **C142.** The Archimedean sampler fills the convex hull evenly, too. -/
theorem C142_archimedean {hull : Hull} {pts : List (ℝ × ℝ)} {vol : ℝ} {ineqs : List (Facet ℝ)}
    (hh : hull pts = .ok (vol, ineqs)) (hhull : IsHull pts ineqs)
    (hvol : vol = (volume (convexHull ℝ {q | q ∈ pts})).toReal) (hpos : 0 < vol) (hsep : Separated pts (1 / 10000))
    {B : Set (ℝ × ℝ)} (hB : volume (frontier B) = 0) {ε : ℝ} (hε : 0 < ε) :
    ∃ n0, ∀ n, n0 ≤ n → ∀ shuffle : List (ℝ × ℝ) → List (ℝ × ℝ), (∀ l, (shuffle l).Perm l) →
      ∀ fuel out, archimedean hull shuffle n fuel (rowsOf pts) = some (.ok out) →
      |((out.countP fun p => decide (p ∈ B) : ℕ) : ℝ) / n -
        (volume (convexHull ℝ {q | q ∈ pts} ∩ B)).toReal / (volume (convexHull ℝ {q | q ∈ pts})).toReal| ≤ ε := by
  have := spiral_even spiral_archimedean hh hhull hvol hpos hsep hB hε
  rw [hvol] at this
  obtain ⟨n0, h⟩ := this
  refine ⟨n0, fun n hn shuffle hsh fuel out ho => h n hn shuffle hsh fuel out ?_⟩
  unfold archimedean at ho
  split_ifs at ho
  · simp at ho
  · exact ho

theorem square_all : ∃ bad : Set ℝ, bad.Countable ∧ ∀ x, x ∉ bad → ∃ s0, 0 < s0 ∧ ∀ s, s0 ≤ s →
    Separated (square s (s * x)) (1 / 10000) ∧ ∀ n, 0 < n →
    ∀ (hull : Hull), hull (square s (s * x)) = .ok (4 * (s ^ 2 + (s * x) ^ 2), squareSides s (s * x)) →
    ∀ shuffle : List (ℝ × ℝ) → List (ℝ × ℝ), (∀ l, (shuffle l).Perm l) → ∃ m, ∀ fuel, m ≤ fuel →
      (∃ out, fibonacci hull shuffle n fuel (rowsOf (square s (s * x))) = some (.ok out)) ∧
      ∃ out, archimedean hull shuffle n fuel (rowsOf (square s (s * x))) = some (.ok out) := by
  refine ⟨⋃ U : ℕ, _, Set.countable_iUnion fun U => ((C136_slopes (fibonacci_radii_ne U)).union
    (C136_slopes (archimedean_radii_ne U))).countable, fun x hx => ?_⟩
  simp only [Set.mem_iUnion, Set.mem_union, Set.mem_ofPred_eq, not_exists, not_or, not_and, not_not, mul_one] at hx
  obtain ⟨eps, heps, hsep⟩ := C135_tolerance (square 1 x)
  refine ⟨1 / 10000 / eps, by positivity, fun s hs => ?_⟩
  have s0 : 0 < s := lt_of_lt_of_le (by positivity) hs
  have hN : 0 < s ^ 2 + (s * x) ^ 2 := by positivity
  have hsep' : Separated (square s (s * x)) (1 / 10000) := by
    have h1 : 1 / 10000 / s ≤ eps := by
      rw [div_le_iff₀ s0, mul_comm, ← div_le_iff₀ heps]
      exact hs
    have := C136_scale (hsep _ h1) s0
    rwa [square_scale, mul_one, mul_div_cancel₀ _ s0.ne'] at this
  have hint : ∀ a b c, (a, b, c) ∈ squareSides s (s * x) → a * ((0 : ℝ), (0 : ℝ)).1 + b * ((0 : ℝ), (0 : ℝ)).2 < -c := by
    intro a b c hm
    simp only [squareSides, List.mem_cons, Prod.mk.injEq, List.not_mem_nil, or_false] at hm
    rcases hm with ⟨-, -, rfl⟩ | ⟨-, -, rfl⟩ | ⟨-, -, rfl⟩ | ⟨-, -, rfl⟩ <;> simp only [mul_zero, add_zero, neg_neg, hN]
  refine ⟨hsep', fun n hn hull hh shuffle hsh => ?_⟩
  have hub := square_upperBound hN n
  obtain ⟨m1, h1⟩ := C136_fibonacci hsh hn hh (square_isHull hN) (square_area hN).symm (by positivity) hsep'
    (square_least s (s * x)) hint (by rw [hub]; exact (hx _).1 s s0)
  obtain ⟨m2, h2⟩ := C136_archimedean hsh hn (by simp [square]) hh (square_isHull hN) (square_area hN).symm
    (by positivity) hsep' (square_least s (s * x)) hint (by rw [hub]; exact (hx _).2 s s0)
  exact ⟨max m1 m2, fun fuel hf => ⟨(h1 fuel ((le_max_left _ _).trans hf)).imp fun _ h => h.1,
    (h2 fuel ((le_max_right _ _).trans hf)).imp fun _ h => h.1⟩⟩

open Classical in
/-- **C141.** Of large squares in all but countably many directions, both samplers do return a sample for every
requested number, and for large numbers every convex region gets the share of the samples that it has in the area. -/
theorem C141_square : ∃ bad : Set ℝ, bad.Countable ∧ ∀ x, x ∉ bad → ∃ s0, 0 < s0 ∧ ∀ s, s0 ≤ s →
    ∀ (hull : Hull), hull (square s (s * x)) = .ok (4 * (s ^ 2 + (s * x) ^ 2), squareSides s (s * x)) →
    ∀ (B : Set (ℝ × ℝ)), Convex ℝ B → ∀ ε, 0 < ε → ∃ n0, ∀ n, n0 ≤ n →
    ∀ shuffle : List (ℝ × ℝ) → List (ℝ × ℝ), (∀ l, (shuffle l).Perm l) → ∃ m, ∀ fuel, m ≤ fuel →
      (∃ out, fibonacci hull shuffle n fuel (rowsOf (square s (s * x))) = some (.ok out) ∧
        |((out.countP fun p => decide (p ∈ B) : ℕ) : ℝ) / n -
          (volume (convexHull ℝ {q | q ∈ square s (s * x)} ∩ B)).toReal / (4 * (s ^ 2 + (s * x) ^ 2))| ≤ ε) ∧
      ∃ out, archimedean hull shuffle n fuel (rowsOf (square s (s * x))) = some (.ok out) ∧
        |((out.countP fun p => decide (p ∈ B) : ℕ) : ℝ) / n -
          (volume (convexHull ℝ {q | q ∈ square s (s * x)} ∩ B)).toReal / (4 * (s ^ 2 + (s * x) ^ 2))| ≤ ε := by
  obtain ⟨bad, hbad, h⟩ := square_all
  refine ⟨bad, hbad, fun x hx => ?_⟩
  obtain ⟨s0, hs0, h⟩ := h x hx
  refine ⟨s0, hs0, fun s hs hull hh B hB ε hε => ?_⟩
  obtain ⟨hsep, hret⟩ := h s hs
  have s1 : 0 < s := lt_of_lt_of_le hs0 hs
  have hN : 0 < s ^ 2 + (s * x) ^ 2 := by positivity
  obtain ⟨n1, h1⟩ := C141_fibonacci hh (square_isHull hN) (square_area hN).symm (by positivity) hsep
    (hB.addHaar_frontier volume) hε
  obtain ⟨n2, h2⟩ := C142_archimedean hh (square_isHull hN) (square_area hN).symm (by positivity) hsep
    (hB.addHaar_frontier volume) hε
  rw [square_area hN] at h1 h2
  refine ⟨max 1 (max n1 n2), fun n hn shuffle hsh => ?_⟩
  obtain ⟨m, hm⟩ := hret n (lt_of_lt_of_le one_pos ((le_max_left _ _).trans hn)) hull hh shuffle hsh
  refine ⟨m, fun fuel hf => ⟨?_, ?_⟩⟩
  · obtain ⟨out, ho⟩ := (hm fuel hf).1
    exact ⟨out, ho, h1 n ((le_max_left _ _).trans ((le_max_right _ _).trans hn)) shuffle hsh fuel out ho⟩
  · obtain ⟨out, ho⟩ := (hm fuel hf).2
    exact ⟨out, ho, h2 n ((le_max_right _ _).trans ((le_max_right _ _).trans hn)) shuffle hsh fuel out ho⟩

open Classical in
/-- The right half of a square gets a share that is close to its share in the area. -/
example : ∃ x s : ℝ, 0 < s ∧ ∃ n, 0 < n ∧ ∃ fuel out, fibonacci (fun _ => .ok (4 * (s ^ 2 + (s * x) ^ 2), squareSides s (s * x)))
    List.reverse n fuel (rowsOf (square s (s * x))) = some (.ok out) ∧
    |((out.countP fun p => decide (p ∈ {p : ℝ × ℝ | 0 ≤ p.1}) : ℕ) : ℝ) / n -
      (volume (convexHull ℝ {q | q ∈ square s (s * x)} ∩ {p : ℝ × ℝ | 0 ≤ p.1})).toReal / (4 * (s ^ 2 + (s * x) ^ 2))| ≤
        1 / 100 := by
  obtain ⟨bad, hbad, h⟩ := C141_square
  obtain ⟨x, hx⟩ := (hbad.dense_compl ℝ).nonempty
  obtain ⟨s, hs, h⟩ := h x hx
  obtain ⟨n0, h⟩ := h s le_rfl (fun _ => .ok (4 * (s ^ 2 + (s * x) ^ 2), squareSides s (s * x))) rfl
    {p : ℝ × ℝ | 0 ≤ p.1} (convex_halfSpace_ge (LinearMap.fst ℝ ℝ ℝ).isLinear 0) (1 / 100) (by norm_num)
  obtain ⟨m, h⟩ := h (n0 + 1) (Nat.le_succ n0) List.reverse fun l => l.reverse_perm
  obtain ⟨out, ho, hd⟩ := (h m le_rfl).1
  exact ⟨x, s, hs, n0 + 1, Nat.succ_pos n0, m, out, ho, hd⟩

end Verif.Sampler
