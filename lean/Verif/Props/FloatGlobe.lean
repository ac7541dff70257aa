import Mathlib.Analysis.Real.Pi.Bounds
import Verif.Model.FloatGlobe
import Verif.Props.FloatWind
import Verif.Props.Globe

/-!
# Property C159: distances on the spherical globe in double precision
-/

namespace Verif.F64

open Verif.Globe (Vec onBall)
open Verif.Curve (rad2deg deg2rad)

/-! ## Lemmas -/

theorem u_million : u ℝ ≤ 1 / 10 ^ 6 := by
  unfold u
  norm_num

theorem fl_abs_le_one {x : ℝ} (h : |x| ≤ 1) : |fl x| ≤ 1 := by
  obtain ⟨h0, h1⟩ := abs_le.1 h
  have a := fl_mono h0
  have b := fl_mono h1
  rw [fl_one] at b
  rw [fl_neg, fl_one] at a
  exact abs_le.2 ⟨a, b⟩

/-- The conversion from degrees to radians. -/
theorem toRad_close {x : ℝ} (hx : |x| ≤ 360) : |toRad x - deg2rad x| ≤ 20 * u ℝ := by
  have hp := Real.pi_pos
  have hu := u_pos (K := ℝ)
  have hu' := u_million
  have h1 : |fl Real.pi - Real.pi| ≤ u ℝ * Real.pi := by
    have := fl_error' Real.pi
    rwa [abs_of_pos hp] at this
  have h2 : |fl Real.pi / 180 - Real.pi / 180| ≤ u ℝ * (Real.pi / 180) := by
    rw [← sub_div, abs_div, abs_of_pos (by norm_num : (0 : ℝ) < 180), div_le_iff₀ (by norm_num)]
    linarith
  have h3 := fl_close h2 (abs_of_pos (by positivity : 0 < Real.pi / 180)).le
  set c := fl (fl Real.pi / 180) with hc
  have h4 : |x * c - deg2rad x| ≤ 360 * (u ℝ * (Real.pi / 180) + u ℝ * (Real.pi / 180 + u ℝ * (Real.pi / 180))) := by
    have e : x * c - deg2rad x = x * (c - Real.pi / 180) := by unfold deg2rad; ring
    rw [e, abs_mul]
    exact mul_le_mul hx h3 (abs_nonneg _) (by norm_num)
  have h5 : |deg2rad x| ≤ 2 * Real.pi := by
    unfold deg2rad
    rw [abs_div, abs_mul, abs_of_pos hp, abs_of_pos (by norm_num : (0 : ℝ) < 180), div_le_iff₀ (by norm_num)]
    nlinarith
  have h6 := fl_close h4 h5
  refine h6.trans ?_
  have hp2 : Real.pi < 3.15 := Real.pi_lt_d2
  have e : 360 * (u ℝ * (Real.pi / 180) + u ℝ * (Real.pi / 180 + u ℝ * (Real.pi / 180)))
      = Real.pi * (4 * u ℝ + 2 * u ℝ ^ 2) := by ring
  rw [e]
  have e2 : Real.pi * (4 * u ℝ + 2 * u ℝ ^ 2) + u ℝ * (2 * Real.pi + Real.pi * (4 * u ℝ + 2 * u ℝ ^ 2))
      = Real.pi * (u ℝ * (6 + 6 * u ℝ + 2 * u ℝ ^ 2)) := by ring
  rw [e2]
  have h7 : 6 + 6 * u ℝ + 2 * u ℝ ^ 2 ≤ 6 + 1 / 1000 := by nlinarith
  have h8 : u ℝ * (6 + 6 * u ℝ + 2 * u ℝ ^ 2) ≤ u ℝ * (6 + 1 / 1000) := mul_le_mul_of_nonneg_left h7 hu.le
  have h9 : Real.pi * (u ℝ * (6 + 6 * u ℝ + 2 * u ℝ ^ 2)) ≤ 3.15 * (u ℝ * (6 + 1 / 1000)) :=
    mul_le_mul hp2.le h8 (by positivity) (by norm_num)
  refine h9.trans ?_
  nlinarith

variable {sinD cosD acosD : ℝ → ℝ} {ε κ : ℝ}

/-- The functions of the mathematical library are accurate up to `ε` and `κ`. -/
structure Trig (sinD cosD acosD : ℝ → ℝ) (ε κ : ℝ) : Prop where
  sin : ∀ x, |sinD x - Real.sin x| ≤ ε
  cos : ∀ x, |cosD x - Real.cos x| ≤ ε
  sin_le : ∀ x, |sinD x| ≤ 1
  cos_le : ∀ x, |cosD x| ≤ 1
  acos : ∀ t, -1 ≤ t → t ≤ 1 → |acosD t - Real.arccos t| ≤ κ

theorem Trig.sin_rad (h : Trig sinD cosD acosD ε κ) {x : ℝ} (hx : |x| ≤ 360) :
    |sinD (toRad x) - Real.sin (deg2rad x)| ≤ ε + 20 * u ℝ := by
  have h1 := h.sin (toRad x)
  have h2 := (Real.abs_sin_sub_sin_le (toRad x) (deg2rad x)).trans (toRad_close hx)
  have := abs_add_le (sinD (toRad x) - Real.sin (toRad x)) (Real.sin (toRad x) - Real.sin (deg2rad x))
  rw [sub_add_sub_cancel] at this
  linarith

theorem Trig.cos_rad (h : Trig sinD cosD acosD ε κ) {x : ℝ} (hx : |x| ≤ 360) :
    |cosD (toRad x) - Real.cos (deg2rad x)| ≤ ε + 20 * u ℝ := by
  have h1 := h.cos (toRad x)
  have h2 := (Real.abs_cos_sub_cos_le (toRad x) (deg2rad x)).trans (toRad_close hx)
  have := abs_add_le (cosD (toRad x) - Real.cos (toRad x)) (Real.cos (toRad x) - Real.cos (deg2rad x))
  rw [sub_add_sub_cancel] at this
  linarith

/-- The product of numbers of size at most 1. -/
theorem product_close {a b x y e f : ℝ} (ha : |a| ≤ 1) (hy : |y| ≤ 1) (h1 : |a - x| ≤ e) (h2 : |b - y| ≤ f) :
    |a * b - x * y| ≤ e + f := by
  have e1 : a * b - x * y = a * (b - y) + (a - x) * y := by ring
  rw [e1]
  refine (abs_add_le _ _).trans ?_
  rw [abs_mul, abs_mul]
  have := mul_le_mul ha h2 (abs_nonneg _) zero_le_one
  have := mul_le_mul h1 hy (abs_nonneg _) ((abs_nonneg _).trans h1)
  linarith

/-- All coordinates are at most 1. -/
structure Small (v : Vec) : Prop where
  x : |v.x| ≤ 1
  y : |v.y| ≤ 1
  z : |v.z| ≤ 1

/-- All coordinates differ by at most `γ`. -/
structure Nearby (γ : ℝ) (v w : Vec) : Prop where
  x : |v.x - w.x| ≤ γ
  y : |v.y - w.y| ≤ γ
  z : |v.z - w.z| ≤ γ

theorem onBall_small (p : ℝ × ℝ) : Small (onBall p) where
  x := by
    simp only [onBall, abs_mul]
    exact mul_le_one₀ (Real.abs_cos_le_one _) (abs_nonneg _) (Real.abs_cos_le_one _)
  y := by
    simp only [onBall, abs_mul]
    exact mul_le_one₀ (Real.abs_cos_le_one _) (abs_nonneg _) (Real.abs_sin_le_one _)
  z := Real.abs_sin_le_one _

theorem Trig.ball_small (h : Trig sinD cosD acosD ε κ) (p : ℝ × ℝ) : Small (ballPoint sinD cosD p) where
  x := by
    refine fl_abs_le_one ?_
    rw [abs_mul]
    exact mul_le_one₀ (h.cos_le _) (abs_nonneg _) (h.cos_le _)
  y := by
    refine fl_abs_le_one ?_
    rw [abs_mul]
    exact mul_le_one₀ (h.cos_le _) (abs_nonneg _) (h.sin_le _)
  z := h.sin_le _

theorem fl_small {x y e : ℝ} (hx : |x| ≤ 1) (h : |x - y| ≤ e) : |fl x - y| ≤ e + u ℝ := by
  have e1 := fl_error' x
  have := mul_le_mul_of_nonneg_left hx (u_pos (K := ℝ)).le
  have h2 := abs_add_le (fl x - x) (x - y)
  rw [sub_add_sub_cancel] at h2
  linarith

theorem Trig.ball_close (h : Trig sinD cosD acosD ε κ) {p : ℝ × ℝ} (h1 : |p.1| ≤ 360) (h2 : |p.2| ≤ 360) :
    Nearby (2 * (ε + 20 * u ℝ) + u ℝ) (ballPoint sinD cosD p) (onBall p) where
  x := by
    refine (fl_small ?_ (product_close (h.cos_le _) (Real.abs_cos_le_one _) (h.cos_rad h1) (h.cos_rad h2))).trans
      (by linarith)
    rw [abs_mul]
    exact mul_le_one₀ (h.cos_le _) (abs_nonneg _) (h.cos_le _)
  y := by
    refine (fl_small ?_ (product_close (h.cos_le _) (Real.abs_sin_le_one _) (h.cos_rad h1) (h.sin_rad h2))).trans
      (by linarith)
    rw [abs_mul]
    exact mul_le_one₀ (h.cos_le _) (abs_nonneg _) (h.sin_le _)
  z := by
    have h3 := h.sin_rad h1
    have : 0 ≤ ε + 20 * u ℝ := (abs_nonneg _).trans h3
    exact h3.trans (by linarith [u_pos (K := ℝ)])

theorem vecDot_close {v w a b : Vec} {γ : ℝ} (hv : Small v) (hw : Small w) (hb : Small b) (h1 : Nearby γ v a)
    (h2 : Nearby γ w b) : |vecDot v w - a.dot b| ≤ 6 * γ + 8 * u ℝ := by
  have hu := u_pos (K := ℝ)
  have mul1 : ∀ {s t : ℝ}, |s| ≤ 1 → |t| ≤ 1 → |s * t| ≤ 1 := fun hs ht => by
    rw [abs_mul]; exact mul_le_one₀ hs (abs_nonneg _) ht
  have px := mul1 hv.x hw.x
  have py := mul1 hv.y hw.y
  have pz := mul1 hv.z hw.z
  have ex := fl_small px (product_close hv.x hb.x h1.x h2.x)
  have ey := fl_small py (product_close hv.y hb.y h1.y h2.y)
  have ez := fl_small pz (product_close hv.z hb.z h1.z h2.z)
  have fx := abs_le.1 (fl_abs_le_one px)
  have fy := abs_le.1 (fl_abs_le_one py)
  have fz := abs_le.1 (fl_abs_le_one pz)
  set X := fl (v.x * w.x)
  set Y := fl (v.y * w.y)
  set Z := fl (v.z * w.z)
  have two : fl (2 : ℝ) = 2 := by
    have := fl_int (K := ℝ) (m := 2) (by norm_num)
    simpa using this
  have s1 : |X + Y| ≤ 2 := abs_le.2 ⟨by linarith [fx.1, fy.1], by linarith [fx.2, fy.2]⟩
  have s2 : |fl (X + Y)| ≤ 2 := by
    obtain ⟨l, r⟩ := abs_le.1 s1
    have l := fl_mono l
    have r := fl_mono r
    rw [fl_neg, two] at l
    rw [two] at r
    exact abs_le.2 ⟨l, r⟩
  have e1 := (fl_error' (X + Y)).trans (mul_le_mul_of_nonneg_left s1 hu.le)
  have s3 : |fl (X + Y) + Z| ≤ 3 := by
    obtain ⟨l, r⟩ := abs_le.1 s2
    exact abs_le.2 ⟨by linarith [fz.1], by linarith [fz.2]⟩
  have e2 := (fl_error' (fl (X + Y) + Z)).trans (mul_le_mul_of_nonneg_left s3 hu.le)
  unfold vecDot Vec.dot
  rw [abs_le] at *
  constructor <;> linarith [e1.1, e1.2, e2.1, e2.2, ex.1, ex.2, ey.1, ey.2, ez.1, ez.2]

theorem vecNorm_close {v : Vec} {τ : ℝ} (h : |vecDot v v - 1| ≤ τ) (h1 : τ ≤ 1 / 2) : |vecNorm v - 1| ≤ τ + 2 * u ℝ := by
  have hu := u_pos (K := ℝ)
  have hs : |Real.sqrt (vecDot v v) - 1| ≤ τ := by
    have h0 : 0 ≤ vecDot v v := by linarith [(abs_le.1 h).1]
    have hr := Real.sqrt_nonneg (vecDot v v)
    have hq := Real.sq_sqrt h0
    have e : vecDot v v - 1 = (Real.sqrt (vecDot v v) - 1) * (Real.sqrt (vecDot v v) + 1) := by nlinarith
    rw [e, abs_mul, abs_of_nonneg (by linarith : 0 ≤ Real.sqrt (vecDot v v) + 1)] at h
    nlinarith [abs_nonneg (Real.sqrt (vecDot v v) - 1)]
  refine (fl_close hs (abs_one (α := ℝ)).le).trans ?_
  nlinarith

theorem quotient_close {d D n e ν : ℝ} (hd : |d - D| ≤ e) (hD : |D| ≤ 1) (hn : |n - 1| ≤ ν) (hν : ν ≤ 1 / 16) :
    |d / n - D| ≤ 16 / 15 * (e + ν) := by
  have hn0 : 15 / 16 ≤ n := by linarith [(abs_le.1 hn).1]
  have hn1 : 0 < n := by linarith
  have e1 : d / n - D = ((d - D) + D * (1 - n)) / n := by field_simp; ring
  rw [e1, abs_div, abs_of_pos hn1, div_le_iff₀ hn1]
  have h1 := abs_add_le (d - D) (D * (1 - n))
  rw [abs_mul] at h1
  have h2 : |D| * |1 - n| ≤ 1 * ν := mul_le_mul hD (by rw [abs_sub_comm]; exact hn) (abs_nonneg _) zero_le_one
  have h3 : 0 ≤ e + ν := by linarith [(abs_nonneg _).trans hd, (abs_nonneg _).trans hn]
  nlinarith

/-- The argument of the arc cosine is close to the scalar product. -/
theorem angleCosine_close {v w : Vec} {D τ : ℝ} (hD : |D| ≤ 1) (h : |vecDot v w - D| ≤ τ)
    (hv : |vecNorm v - 1| ≤ τ + 2 * u ℝ) (hw : |vecNorm w - 1| ≤ τ + 2 * u ℝ) (hτ : τ + 2 * u ℝ ≤ 1 / 16) :
    |angleCosine v w - D| ≤ 4 * τ + 9 * u ℝ := by
  have hu := u_pos (K := ℝ)
  have hu' := u_million
  have t0 : 0 ≤ τ := (abs_nonneg _).trans h
  have a : u ℝ * τ ≤ 1 / 10 ^ 6 * τ := mul_le_mul_of_nonneg_right hu' t0
  have b : u ℝ * u ℝ ≤ 1 / 10 ^ 6 * u ℝ := mul_le_mul_of_nonneg_right hu' hu.le
  have h1 : |fl (vecDot v w / vecNorm v) - D| ≤ 215 / 100 * τ + 32 / 10 * u ℝ :=
    (fl_close (quotient_close h hD hv hτ) hD).trans (by linarith)
  refine (fl_close (quotient_close h1 hD hw hτ) hD).trans ?_
  linarith

/-- The bound of the error of the argument of the arc cosine. -/
noncomputable def cosineError (ε : ℝ) : ℝ := 48 * ε + 1025 * u ℝ

theorem Trig.nonneg (h : Trig sinD cosD acosD ε κ) : 0 ≤ ε := (abs_nonneg _).trans (h.sin 0)

theorem Trig.argument (h : Trig sinD cosD acosD ε κ) (hε : ε ≤ 1 / 400) {p q : ℝ × ℝ} (hp1 : |p.1| ≤ 360)
    (hp2 : |p.2| ≤ 360) (hq1 : |q.1| ≤ 360) (hq2 : |q.2| ≤ 360) :
    vecNorm (ballPoint sinD cosD p) ≠ 0 ∧ vecNorm (ballPoint sinD cosD q) ≠ 0 ∧
    |angleCosine (ballPoint sinD cosD p) (ballPoint sinD cosD q) - (onBall p).dot (onBall q)| ≤ cosineError ε := by
  have hu := u_pos (K := ℝ)
  have hu' := u_million
  have h0 := h.nonneg
  obtain ⟨τ, hτ⟩ : ∃ τ, τ = 12 * ε + 254 * u ℝ := ⟨_, rfl⟩
  have key : ∀ {a b : ℝ × ℝ}, |a.1| ≤ 360 → |a.2| ≤ 360 → |b.1| ≤ 360 → |b.2| ≤ 360 →
      |vecDot (ballPoint sinD cosD a) (ballPoint sinD cosD b) - (onBall a).dot (onBall b)| ≤ τ := by
    intro a b ha1 ha2 hb1 hb2
    have := vecDot_close (h.ball_small a) (h.ball_small b) (onBall_small b) (h.ball_close ha1 ha2) (h.ball_close hb1 hb2)
    exact this.trans (by rw [hτ]; linarith)
  have ht : τ + 2 * u ℝ ≤ 1 / 16 := by
    rw [hτ]
    have : u ℝ ≤ 1 / 10 ^ 6 := hu'
    norm_num at this ⊢
    linarith
  have np := key hp1 hp2 hp1 hp2
  have nq := key hq1 hq2 hq1 hq2
  rw [Globe.onBall_dot_self] at np nq
  have np := vecNorm_close np (by linarith)
  have nq := vecNorm_close nq (by linarith)
  have hD : |(onBall p).dot (onBall q)| ≤ 1 :=
    abs_le.2 (Globe.dot_le_one (Globe.onBall_dot_self p) (Globe.onBall_dot_self q))
  refine ⟨fun e => ?_, fun e => ?_, ?_⟩
  · rw [e] at np
    norm_num at np
    linarith
  · rw [e] at nq
    norm_num at nq
    linarith
  · have := angleCosine_close hD (key hp1 hp2 hq1 hq2) np nq ht
    refine this.trans ?_
    unfold cosineError
    rw [hτ]
    linarith

/-! ## The theorems -/

/-- **C159**: whenever the calculated distance is a number, it is close to the exact distance. -/
theorem C159_error (h : Trig sinD cosD acosD ε κ) (hε : ε ≤ 1 / 400) {R : ℝ} (hR : 0 < R) {p q : ℝ × ℝ}
    (hp1 : |p.1| ≤ 360) (hp2 : |p.2| ≤ 360) (hq1 : |q.1| ≤ 360) (hq2 : |q.2| ≤ 360) {d : ℝ}
    (hd : distance sinD cosD acosD R p q = some d) :
    |d - Globe.distance R p q| ≤
      R * (κ + Real.pi * Real.sqrt (cosineError ε / 2)) + 2 ^ (-53 : ℤ) * (R * (Real.pi + κ)) := by
  change _ ≤ _ + u ℝ * _
  obtain ⟨hn1, hn2, hq⟩ := h.argument hε hp1 hp2 hq1 hq2
  unfold distance angle at hd
  rw [if_neg (by tauto)] at hd
  split at hd
  · simp at hd
  rename_i hc
  rw [not_or, not_lt, not_lt] at hc
  simp only [Option.map_some, Option.some.injEq] at hd
  set t := angleCosine (ballPoint sinD cosD p) (ballPoint sinD cosD q)
  have hD := Globe.dot_le_one (Globe.onBall_dot_self p) (Globe.onBall_dot_self q)
  have h1 := h.acos t hc.1 hc.2
  have h2 := arccos_close hc.1 hc.2 hD.1 hD.2
  have h3 : Real.sqrt (|t - (onBall p).dot (onBall q)| / 2) ≤ Real.sqrt (cosineError ε / 2) :=
    Real.sqrt_le_sqrt (by linarith)
  have h4 := mul_le_mul_of_nonneg_left h3 Real.pi_pos.le
  have h5 : |acosD t - Globe.angle (onBall p) (onBall q)| ≤ κ + Real.pi * Real.sqrt (cosineError ε / 2) := by
    rw [Globe.angle_onBall]
    have := abs_add_le (acosD t - Real.arccos t) (Real.arccos t - Real.arccos ((onBall p).dot (onBall q)))
    rw [sub_add_sub_cancel] at this
    linarith
  have h6 : |acosD t| ≤ Real.pi + κ := by
    have := abs_add_le (acosD t - Real.arccos t) (Real.arccos t)
    rw [sub_add_cancel, abs_of_nonneg (Real.arccos_nonneg t)] at this
    linarith [Real.arccos_le_pi t]
  have h7 := fl_error' (R * acosD t)
  rw [abs_mul, abs_of_pos hR] at h7
  have h8 := mul_le_mul_of_nonneg_left (mul_le_mul_of_nonneg_left h6 hR.le) (u_pos (K := ℝ)).le
  have h9 : |R * acosD t - Globe.distance R p q| ≤ R * (κ + Real.pi * Real.sqrt (cosineError ε / 2)) := by
    unfold Globe.distance
    rw [← mul_sub, abs_mul, abs_of_pos hR]
    exact mul_le_mul_of_nonneg_left h5 hR.le
  have := abs_add_le (fl (R * acosD t) - R * acosD t) (R * acosD t - Globe.distance R p q)
  rw [sub_add_sub_cancel, hd] at this
  rw [hd] at h7
  linarith

/-- **C159, partial**: the distance of places which are neither too close to each other nor nearly antipodal is a number.
Missing: places close to each other, see `C159_same_place_false`. -/
theorem C159_defined_partial (h : Trig sinD cosD acosD ε κ) (hε : ε ≤ 1 / 400) {R : ℝ} (hR : 0 < R) {p q : ℝ × ℝ}
    (hp1 : |p.1| ≤ 360) (hp2 : |p.2| ≤ 360) (hq1 : |q.1| ≤ 360) (hq2 : |q.2| ≤ 360)
    (hlow : R * (Real.pi * Real.sqrt (cosineError ε / 2)) ≤ Globe.distance R p q)
    (hhigh : Globe.distance R p q ≤ R * (Real.pi - Real.pi * Real.sqrt (cosineError ε / 2))) :
    ∃ d, distance sinD cosD acosD R p q = some d := by
  obtain ⟨hn1, hn2, hq⟩ := h.argument hε hp1 hp2 hq1 hq2
  have hp := Real.pi_pos
  have hE : 0 ≤ cosineError ε := (abs_nonneg _).trans hq
  have hD := Globe.dot_le_one (Globe.onBall_dot_self p) (Globe.onBall_dot_self q)
  set D := (onBall p).dot (onBall q) with hDef
  have ha : Globe.distance R p q = R * Real.arccos D := by unfold Globe.distance; rw [Globe.angle_onBall]
  rw [ha] at hlow hhigh
  have l := le_of_mul_le_mul_left hlow hR
  have g := le_of_mul_le_mul_left hhigh hR
  set s := Real.sqrt (cosineError ε / 2) with hs
  have hs2 : s ^ 2 = cosineError ε / 2 := Real.sq_sqrt (by linarith)
  have s0 : 0 ≤ s := Real.sqrt_nonneg _
  have main : ∀ a : ℝ, Real.pi * s ≤ a → a ≤ Real.pi → Real.cos a ≤ 1 - cosineError ε := by
    intro a h1 h2
    have h0 : 0 ≤ a := (by positivity : 0 ≤ Real.pi * s).trans h1
    have := Real.cos_le_one_sub_mul_cos_sq (x := a) (by rwa [abs_of_nonneg h0])
    have h3 : (Real.pi * s) ^ 2 ≤ a ^ 2 := by gcongr
    have h4 : cosineError ε ≤ 2 / Real.pi ^ 2 * a ^ 2 := by
      have := mul_le_mul_of_nonneg_left h3 (by positivity : 0 ≤ 2 / Real.pi ^ 2)
      have e : 2 / Real.pi ^ 2 * (Real.pi * s) ^ 2 = 2 * s ^ 2 := by field_simp
      rw [e, hs2] at this
      linarith
    linarith
  have c1 := main _ l (Real.arccos_le_pi _)
  rw [Real.cos_arccos hD.1 hD.2] at c1
  have c2 := main (Real.pi - Real.arccos D) (by linarith) (by linarith [Real.arccos_nonneg D])
  rw [Real.cos_pi_sub, Real.cos_arccos hD.1 hD.2] at c2
  have hq := abs_le.1 hq
  unfold distance angle
  rw [if_neg (by tauto), if_neg]
  · exact ⟨_, rfl⟩
  · rw [not_or, not_lt, not_lt]
    exact ⟨by linarith [hq.1], by linarith [hq.2]⟩

/-! ## The distance of a place to itself -/

/-- The double nearest to a number between two rational numbers with the same nearest double. -/
theorem fl_between {y : ℝ} {lo hi d : ℚ} (h1 : (lo : ℝ) ≤ y) (h2 : y ≤ hi) (e1 : fl lo = d) (e2 : fl hi = d) :
    fl y = d := by
  have a := fl_mono h1
  have b := fl_mono h2
  rw [fl_cast, e1] at a
  rw [fl_cast, e2] at b
  exact le_antisymm b a

theorem fl_sqrt_between {S lo hi d : ℚ} (h0 : 0 ≤ lo) (h0' : 0 ≤ hi) (h1 : lo ^ 2 ≤ S) (h2 : S ≤ hi ^ 2) (e1 : fl lo = d)
    (e2 : fl hi = d) : fl (Real.sqrt (S : ℝ)) = d := by
  refine fl_between (lo := lo) (hi := hi) ?_ ?_ e1 e2
  · refine Real.le_sqrt_of_sq_le ?_
    exact_mod_cast h1
  · refine Real.sqrt_le_iff.2 ⟨by exact_mod_cast h0', ?_⟩
    exact_mod_cast h2

theorem angleCosine_self {v : Vec} {S lo hi n q : ℚ} (hS : vecDot v v = S) (h0 : 0 ≤ lo) (h0' : 0 ≤ hi) (h1 : lo ^ 2 ≤ S)
    (h2 : S ≤ hi ^ 2) (e1 : fl lo = n) (e2 : fl hi = n) (e3 : fl (fl (S / n) / n) = q) :
    vecNorm v = n ∧ angleCosine v v = q := by
  have hn : vecNorm v = n := by
    unfold vecNorm
    rw [hS]
    exact fl_sqrt_between h0 h0' h1 h2 e1 e2
  refine ⟨hn, ?_⟩
  unfold angleCosine
  rw [hn, hS, ← e3, ← Rat.cast_div, fl_cast, ← Rat.cast_div, fl_cast]

/-- **C159**: if the calculated scalar product of a vector with itself is the double before 1 or the double after 1, then the
angle between the vector and itself is `nan`. -/
theorem C159_same_place_nan {v : Vec} (h : vecDot v v = 1 - 2 ^ (-53 : ℤ) ∨ vecDot v v = 1 + 2 ^ (-52 : ℤ)) :
    angle acosD v v = none := by
  have : vecNorm v ≠ 0 → 1 < angleCosine v v → angle acosD v v = none := by
    intro h1 h2
    unfold angle
    rw [if_neg (by tauto), if_pos (Or.inr h2)]
  rcases h with h | h
  · obtain ⟨a, b⟩ := angleCosine_self (S := 1 - 1 / 2 ^ 53) (lo := 1 - 1 / 2 ^ 53) (hi := 1 - 1 / 2 ^ 54 - 1 / 2 ^ 110)
      (n := 1 - 1 / 2 ^ 53) (q := 1 + 1 / 2 ^ 52) (by rw [h]; norm_num) (by norm_num) (by norm_num) (by norm_num)
      (by norm_num) (by decide +kernel) (by decide +kernel) (by decide +kernel)
    refine this ?_ ?_
    · rw [a]; norm_num
    · rw [b]; norm_num
  · obtain ⟨a, b⟩ := angleCosine_self (S := 1 + 1 / 2 ^ 52) (lo := 1) (hi := 1 + 1 / 2 ^ 53)
      (n := 1) (q := 1 + 1 / 2 ^ 52) (by rw [h]; norm_num) (by norm_num) (by norm_num) (by norm_num)
      (by norm_num) (by decide +kernel) (by decide +kernel) (by decide +kernel)
    refine this ?_ ?_
    · rw [a]; norm_num
    · rw [b]; norm_num

/-- **C159, partial**: if the calculated scalar product of the vector of a place with itself is exactly 1 or two doubles
before or after 1, then the distance of the place to itself is what the arc cosine of 1 gives. Missing: the other cases, see
`C159_same_place_nan`. -/
theorem C159_same_place_partial {R : ℝ} {p : ℝ × ℝ}
    (h : vecDot (ballPoint sinD cosD p) (ballPoint sinD cosD p) = 1 ∨
      vecDot (ballPoint sinD cosD p) (ballPoint sinD cosD p) = 1 - 2 ^ (-52 : ℤ) ∨
      vecDot (ballPoint sinD cosD p) (ballPoint sinD cosD p) = 1 + 2 ^ (-51 : ℤ)) :
    distance sinD cosD acosD R p p = some (fl (R * acosD 1)) := by
  set v := ballPoint sinD cosD p
  have : vecNorm v ≠ 0 → angleCosine v v = 1 → distance sinD cosD acosD R p p = some (fl (R * acosD 1)) := by
    intro h1 h2
    change (angle acosD v v).map _ = _
    unfold angle
    rw [if_neg (by tauto), if_neg (by rw [h2]; norm_num), h2]
    rfl
  rcases h with h | h | h
  · obtain ⟨a, b⟩ := angleCosine_self (S := 1) (lo := 1) (hi := 1)
      (n := 1) (q := 1) (by rw [h]; norm_num) (by norm_num) (by norm_num) (by norm_num)
      (by norm_num) (by decide +kernel) (by decide +kernel) (by decide +kernel)
    refine this ?_ ?_
    · rw [a]; norm_num
    · rw [b]; norm_num
  · obtain ⟨a, b⟩ := angleCosine_self (S := 1 - 1 / 2 ^ 52) (lo := 1 - 1 / 2 ^ 53 - 1 / 2 ^ 105) (hi := 1 - 1 / 2 ^ 53)
      (n := 1 - 1 / 2 ^ 53) (q := 1) (by rw [h]; norm_num) (by norm_num) (by norm_num) (by norm_num)
      (by norm_num) (by decide +kernel) (by decide +kernel) (by decide +kernel)
    refine this ?_ ?_
    · rw [a]; norm_num
    · rw [b]; norm_num
  · obtain ⟨a, b⟩ := angleCosine_self (S := 1 + 1 / 2 ^ 51) (lo := 1 + 1 / 2 ^ 52 - 1 / 2 ^ 100) (hi := 1 + 1 / 2 ^ 52)
      (n := 1 + 1 / 2 ^ 52) (q := 1) (by rw [h]; norm_num) (by norm_num) (by norm_num) (by norm_num)
      (by norm_num) (by decide +kernel) (by decide +kernel) (by decide +kernel)
    refine this ?_ ?_
    · rw [a]; norm_num
    · rw [b]; norm_num

theorem parts_re (a b : ℝ) : ((a : ℂ) + (b : ℂ) * Complex.I).re = a := by simp

theorem parts_im (a b : ℝ) : ((a : ℂ) + (b : ℂ) * Complex.I).im = b := by simp

/-- Taylor polynomials of cosine and sine. -/
theorem trig_taylor {x : ℝ} (hx : |x| ≤ 1) :
    |Real.cos x - (1 - x ^ 2 / 2 + x ^ 4 / 24 - x ^ 6 / 720 + x ^ 8 / 40320)| ≤ |x| ^ 10 / 3000000 ∧
    |Real.sin x - (x - x ^ 3 / 6 + x ^ 5 / 120 - x ^ 7 / 5040 + x ^ 9 / 362880)| ≤ |x| ^ 10 / 3000000 := by
  have hz : ‖(x : ℂ) * Complex.I‖ = |x| := by simp
  have h := Complex.exp_bound (x := (x : ℂ) * Complex.I) (by rw [hz]; exact hx) (n := 10) (by norm_num)
  rw [hz] at h
  have i3 : Complex.I ^ 3 = -Complex.I := by rw [pow_succ, Complex.I_sq]; ring
  have i4 : Complex.I ^ 4 = 1 := Complex.I_pow_four
  have i5 : Complex.I ^ 5 = Complex.I := by rw [pow_succ, i4]; ring
  have i6 : Complex.I ^ 6 = -1 := by rw [pow_succ, i5, ← sq, Complex.I_sq]
  have i7 : Complex.I ^ 7 = -Complex.I := by rw [pow_succ, i6]; ring
  have i8 : Complex.I ^ 8 = 1 := by rw [pow_succ, i7, neg_mul, ← sq, Complex.I_sq]; ring
  have i9 : Complex.I ^ 9 = Complex.I := by rw [pow_succ, i8]; ring
  have e : Complex.exp ((x : ℂ) * Complex.I) - ∑ m ∈ Finset.range 10, ((x : ℂ) * Complex.I) ^ m / (m.factorial : ℂ)
      = ((Real.cos x - (1 - x ^ 2 / 2 + x ^ 4 / 24 - x ^ 6 / 720 + x ^ 8 / 40320) : ℝ) : ℂ) +
        ((Real.sin x - (x - x ^ 3 / 6 + x ^ 5 / 120 - x ^ 7 / 5040 + x ^ 9 / 362880) : ℝ) : ℂ) * Complex.I := by
    rw [Complex.exp_mul_I]
    simp only [Finset.sum_range_succ, Finset.sum_range_zero, mul_pow, i3, i4, i5, i6, i7, i8, i9, Complex.I_sq,
      Nat.factorial]
    push_cast
    ring
  rw [e] at h
  have hb : |x| ^ 10 * (((10 : ℕ).succ : ℝ) * (((10 : ℕ).factorial : ℝ) * ((10 : ℕ) : ℝ))⁻¹) ≤ |x| ^ 10 / 3000000 := by
    rw [div_eq_mul_inv]
    refine mul_le_mul_of_nonneg_left ?_ (by positivity)
    norm_num [Nat.factorial]
  have h := h.trans hb
  constructor
  · have := (Complex.abs_re_le_norm _).trans h
    rwa [parts_re] at this
  · have := (Complex.abs_im_le_norm _).trans h
    rwa [parts_im] at this

theorem toRad_zero : toRad 0 = 0 := by simp [toRad, fl_zero]

/-- The double nearest to `π`. -/
theorem fl_pi : fl Real.pi = ((884279719003555 / 2 ^ 48 : ℚ) : ℝ) := by
  refine fl_between (lo := 314159265358979323846 / 10 ^ 20) (hi := 314159265358979323847 / 10 ^ 20) ?_ ?_
    (by decide +kernel) (by decide +kernel)
  · have := Real.pi_gt_d20
    norm_num at this ⊢
    exact this.le
  · have := Real.pi_lt_d20
    norm_num at this ⊢
    exact this.le

/-- The factor in `np.deg2rad`. -/
theorem rad_factor : fl (fl Real.pi / 180) = ((5030569068109113 / 2 ^ 58 : ℚ) : ℝ) := by
  rw [fl_pi]
  have := fl_eq_of_rat (x := 884279719003555 / 2 ^ 48 / 180) (y := 5030569068109113 / 2 ^ 58) (by decide +kernel)
  rw [← this]
  norm_num

/-- 3 degrees in radians. -/
theorem toRad_three : toRad 3 = ((3772926801081835 / 2 ^ 56 : ℚ) : ℝ) := by
  unfold toRad
  rw [rad_factor]
  have := fl_eq_of_rat (x := 3 * (5030569068109113 / 2 ^ 58)) (y := 3772926801081835 / 2 ^ 56) (by decide +kernel)
  rw [← this]
  norm_num

theorem cos_three : fl (Real.cos (toRad 3)) = ((8994855201203741 / 2 ^ 53 : ℚ) : ℝ) := by
  have h := (trig_taylor (x := toRad 3) (by rw [toRad_three, abs_le]; norm_num)).1
  rw [toRad_three] at h ⊢
  rw [abs_of_pos (a := ((3772926801081835 / 2 ^ 56 : ℚ) : ℝ)) (by norm_num)] at h
  refine fl_between (lo := 8994855201203741 / 2 ^ 53 + 1 / 2 ^ 55) (hi := 8994855201203741 / 2 ^ 53 + 3 / 2 ^ 56) ?_ ?_
    (by decide +kernel) (by decide +kernel)
  · have := (abs_le.1 h).1
    refine le_trans ?_ (le_sub_iff_add_le.1 this)
    norm_num
  · have := (abs_le.1 h).2
    refine (sub_le_iff_le_add.1 this).trans ?_
    norm_num

theorem sin_three : fl (Real.sin (toRad 3)) = ((3771203088540807 / 2 ^ 56 : ℚ) : ℝ) := by
  have h := (trig_taylor (x := toRad 3) (by rw [toRad_three, abs_le]; norm_num)).2
  rw [toRad_three] at h ⊢
  rw [abs_of_pos (a := ((3772926801081835 / 2 ^ 56 : ℚ) : ℝ)) (by norm_num)] at h
  refine fl_between (lo := 3771203088540807 / 2 ^ 56 + 1 / 2 ^ 61) (hi := 3771203088540807 / 2 ^ 56 + 1 / 2 ^ 60) ?_ ?_
    (by decide +kernel) (by decide +kernel)
  · have := (abs_le.1 h).1
    refine le_trans ?_ (le_sub_iff_add_le.1 this)
    norm_num
  · have := (abs_le.1 h).2
    refine (sub_le_iff_le_add.1 this).trans ?_
    norm_num

/-- **C159 is false** for places close to each other: if sine and cosine of 3 degrees are correctly rounded, then the distance
of the place at 3 degrees north and 0 degrees east to itself is `nan`. -/
theorem C159_same_place_false (hc : cosD (toRad 3) = fl (Real.cos (toRad 3))) (hs : sinD (toRad 3) = fl (Real.sin (toRad 3)))
    (hc0 : cosD 0 = 1) (hs0 : sinD 0 = 0) (R : ℝ) :
    distance sinD cosD acosD R (3, 0) (3, 0) = none ∧ Globe.distance R (3, 0) (3, 0) = 0 := by
  constructor
  · have hb : ballPoint sinD cosD (3, 0) = ⟨((8994855201203741 / 2 ^ 53 : ℚ) : ℝ), 0, ((3771203088540807 / 2 ^ 56 : ℚ) : ℝ)⟩ := by
      unfold ballPoint
      simp only [toRad_zero, hc0, hs0, mul_one, mul_zero, fl_zero, hc, hs, fl_fl]
      rw [cos_three, sin_three]
    unfold distance
    rw [hb, C159_same_place_nan, Option.map_none]
    left
    have : fl (fl (fl (8994855201203741 / 2 ^ 53 * (8994855201203741 / 2 ^ 53)) + fl (0 * 0)) +
        fl (3771203088540807 / 2 ^ 56 * (3771203088540807 / 2 ^ 56))) = (1 - 1 / 2 ^ 53 : ℚ) := by decide +kernel
    unfold vecDot
    simp only
    rw [show (0 : ℝ) = ((0 : ℚ) : ℝ) by simp]
    simp only [← Rat.cast_mul, fl_cast, ← Rat.cast_add]
    rw [this]
    norm_num
  · unfold Globe.distance
    rw [Globe.angle_onBall, Globe.onBall_dot_self, Real.arccos_one, mul_zero]

/-! ## Further consequences -/

/-- **C159** for sine, cosine and arc cosine which are accurate to the last digits: with the default radius (in nautical
miles) calculated distances are wrong by less than 5.1 metres. -/
theorem C159_metres (h : Trig sinD cosD acosD (2 ^ (-53 : ℤ)) (2 ^ (-50 : ℤ))) {p q : ℝ × ℝ} (hp1 : |p.1| ≤ 360)
    (hp2 : |p.2| ≤ 360) (hq1 : |q.1| ≤ 360) (hq2 : |q.2| ≤ 360) {d : ℝ}
    (hd : distance sinD cosD acosD (21600 / 2 / Real.pi) p q = some d) :
    |d - Globe.distance (21600 / 2 / Real.pi) p q| ≤ 27 / 10000 ∧ (27 / 10000 : ℝ) * 1852 < 5.1 := by
  refine ⟨?_, by norm_num⟩
  have hp := Real.pi_pos
  have hp3 := Real.pi_gt_three
  have := C159_error h (by norm_num) (by positivity) hp1 hp2 hq1 hq2 hd
  refine this.trans ?_
  have hs : Real.sqrt (cosineError (2 ^ (-53 : ℤ)) / 2) ≤ 245 / 10 ^ 9 := by
    refine Real.sqrt_le_iff.2 ⟨by norm_num, ?_⟩
    unfold cosineError u
    norm_num
  have hR : 21600 / 2 / Real.pi ≤ 3600 := by
    rw [div_le_iff₀ hp]; linarith
  have hRp : 21600 / 2 / Real.pi * Real.pi = 10800 := by field_simp; norm_num
  obtain ⟨R, hRe⟩ : ∃ R, R = 21600 / 2 / Real.pi := ⟨_, rfl⟩
  rw [← hRe] at hR hRp ⊢
  have h0 : 0 ≤ R := by rw [hRe]; positivity
  have e : R * (2 ^ (-50 : ℤ) + Real.pi * Real.sqrt (cosineError (2 ^ (-53 : ℤ)) / 2))
      = R * 2 ^ (-50 : ℤ) + R * Real.pi * Real.sqrt (cosineError (2 ^ (-53 : ℤ)) / 2) := by ring
  rw [e, mul_add R, hRp]
  norm_num at hs ⊢
  linarith

/-- **C159**: calculated distances do not depend on the order of the places by more than twice the error. -/
theorem C159_symmetric_close (h : Trig sinD cosD acosD ε κ) (hε : ε ≤ 1 / 400) {R : ℝ} (hR : 0 < R) {p q : ℝ × ℝ}
    (hp1 : |p.1| ≤ 360) (hp2 : |p.2| ≤ 360) (hq1 : |q.1| ≤ 360) (hq2 : |q.2| ≤ 360) {d e : ℝ}
    (hd : distance sinD cosD acosD R p q = some d) (he : distance sinD cosD acosD R q p = some e) :
    |d - e| ≤ 2 * (R * (κ + Real.pi * Real.sqrt (cosineError ε / 2)) + 2 ^ (-53 : ℤ) * (R * (Real.pi + κ))) := by
  have h1 := C159_error h hε hR hp1 hp2 hq1 hq2 hd
  have h2 := C159_error h hε hR hq1 hq2 hp1 hp2 he
  rw [← (Globe.C47_distance hR p q).1, abs_sub_comm] at h2
  have := abs_add_le (d - Globe.distance R p q) (Globe.distance R p q - e)
  rw [sub_add_sub_cancel] at this
  linarith

theorem vecDot_comm (v w : Vec) : vecDot v w = vecDot w v := by
  unfold vecDot
  rw [mul_comm v.x, mul_comm v.y, mul_comm v.z]

theorem fl_vecDot (v w : Vec) : fl (vecDot v w) = vecDot v w := fl_fl _

/-- **C159, partial**: the order of the places makes no difference at all if the calculated norms of their vectors agree or
one of them is exactly 1. Missing: other norms. -/
theorem C159_symmetric_partial {R : ℝ} {p q : ℝ × ℝ}
    (h : vecNorm (ballPoint sinD cosD p) = vecNorm (ballPoint sinD cosD q) ∨ vecNorm (ballPoint sinD cosD p) = 1 ∨
      vecNorm (ballPoint sinD cosD q) = 1) :
    distance sinD cosD acosD R p q = distance sinD cosD acosD R q p := by
  have e : angleCosine (ballPoint sinD cosD p) (ballPoint sinD cosD q) =
      angleCosine (ballPoint sinD cosD q) (ballPoint sinD cosD p) := by
    unfold angleCosine
    rw [vecDot_comm (ballPoint sinD cosD q)]
    rcases h with h | h | h
    · rw [h]
    · rw [h, div_one, div_one, fl_vecDot, fl_fl]
    · rw [h, div_one, div_one, fl_vecDot, fl_fl]
  unfold distance angle
  rw [e]
  simp only [or_comm (a := vecNorm (ballPoint sinD cosD p) = 0)]

/-- **C159**: converting a projected place back never gives `nan`: the arc sine is taken of a number between -1 and 1 which
differs from the sine of the latitude by at most `3 * 2^-53`. -/
theorem C159_lat_lon (asinD : ℝ → ℝ) (atanD : ℝ → ℝ → ℝ) (hs : ∀ x, |sinD x| ≤ 1) {R : ℝ} (hR : 0 < R) (hd : fl R = R)
    (p : ℝ × ℝ) : ∃ t, -1 ≤ t ∧ t ≤ 1 ∧ |t - sinD (toRad p.1)| ≤ 3 * 2 ^ (-53 : ℤ) ∧
      (latLon asinD atanD R (project sinD cosD R p)).1 = some (asinD t) := by
  have h1 := abs_le.1 (hs (toRad p.1))
  have hu := u_pos (K := ℝ)
  have hu' := u_million
  set s := sinD (toRad p.1) with hsd
  have a : fl (R * s) ≤ R := by
    have := fl_mono (show R * s ≤ R by nlinarith [h1.2])
    rwa [hd] at this
  have b : -R ≤ fl (R * s) := by
    have := fl_mono (show -R ≤ R * s by nlinarith [h1.1])
    rwa [fl_neg, hd] at this
  have c0 : |fl (R * s) / R| ≤ 1 := by
    rw [abs_div, abs_of_pos hR, div_le_one hR]
    exact abs_le.2 ⟨b, a⟩
  obtain ⟨c1, c2⟩ := abs_le.1 (fl_abs_le_one c0)
  refine ⟨fl (fl (R * s) / R), c1, c2, ?_, ?_⟩
  · change _ ≤ 3 * u ℝ
    have e : |fl (R * s) / R - s| ≤ u ℝ := by
      have e1 : fl (R * s) / R - s = (fl (R * s) - R * s) / R := by field_simp
      rw [e1, abs_div, abs_of_pos hR, div_le_iff₀ hR]
      have := fl_error' (R * s)
      rw [abs_mul, abs_of_pos hR] at this
      have h2 := mul_le_mul_of_nonneg_left (mul_le_mul_of_nonneg_left (hs (toRad p.1)) hR.le) hu.le
      rw [← hsd] at h2
      linarith
    have := fl_small c0 e
    linarith
  · have hz : (project sinD cosD R p).z = fl (R * s) := rfl
    unfold latLon
    simp only [hz]
    rw [if_neg]
    rw [not_or, not_lt, not_lt]
    exact ⟨c1, c2⟩

/-! ## Examples -/

theorem trig_rounded : Trig (fun x => fl (Real.sin x)) (fun x => fl (Real.cos x)) Real.arccos (2 ^ (-53 : ℤ)) (2 ^ (-50 : ℤ)) where
  sin x := by
    have := fl_error (Real.sin x)
    have h2 := mul_le_mul_of_nonneg_left (Real.abs_sin_le_one x) (u_pos (K := ℝ)).le
    change _ ≤ u ℝ
    change _ ≤ u ℝ * _ at this
    linarith
  cos x := by
    have := fl_error (Real.cos x)
    have h2 := mul_le_mul_of_nonneg_left (Real.abs_cos_le_one x) (u_pos (K := ℝ)).le
    change _ ≤ u ℝ
    change _ ≤ u ℝ * _ at this
    linarith
  sin_le x := fl_abs_le_one (Real.abs_sin_le_one x)
  cos_le x := fl_abs_le_one (Real.abs_cos_le_one x)
  acos t _ _ := by
    rw [sub_self, abs_zero]
    positivity

/-- Correctly rounded functions meet the hypotheses of `C159_same_place_false`. -/
example : distance (fun x => fl (Real.sin x)) (fun x => fl (Real.cos x)) Real.arccos 3437 (3, 0) (3, 0) = none :=
  (C159_same_place_false rfl rfl (by simp [fl_one]) (by simp [fl_zero]) 3437).1

/-- The distance between the place at 3 degrees north and the place at the equator is a number, although the distance of the
place to itself is not. -/
example : ∃ d, distance (fun x => fl (Real.sin x)) (fun x => fl (Real.cos x)) Real.arccos 3437 (3, 0) (0, 0) = some d := by
  have hp := Real.pi_pos
  have hp3 := Real.pi_gt_three
  have hd : Globe.distance 3437 (3, 0) (0, 0) = 3437 * (Real.pi / 60) := by
    unfold Globe.distance
    rw [Globe.angle_onBall]
    have e : (onBall (3, 0)).dot (onBall (0, 0)) = Real.cos (Real.pi / 60) := by
      unfold Vec.dot onBall
      simp only [deg2rad, zero_mul, zero_div, Real.cos_zero, Real.sin_zero, mul_zero, mul_one, add_zero]
      congr 1
      ring
    rw [e, Real.arccos_cos (by positivity) (by linarith)]
  have hs : Real.sqrt (cosineError (2 ^ (-53 : ℤ)) / 2) ≤ 1 / 1000 := by
    refine Real.sqrt_le_iff.2 ⟨by norm_num, ?_⟩
    unfold cosineError u
    norm_num
  refine C159_defined_partial trig_rounded (by norm_num) (by norm_num) (by norm_num) (by norm_num) (by norm_num)
    (by norm_num) ?_ ?_
  · rw [hd]
    refine mul_le_mul_of_nonneg_left ?_ (by norm_num)
    nlinarith
  · rw [hd]
    refine mul_le_mul_of_nonneg_left ?_ (by norm_num)
    nlinarith

/-- The calculated scalar product of the place at the equator and the prime meridian with itself is 1. -/
example (R : ℝ) : distance (fun x => fl (Real.sin x)) (fun x => fl (Real.cos x)) Real.arccos R (0, 0) (0, 0) = some 0 := by
  have := C159_same_place_partial (sinD := fun x => fl (Real.sin x)) (cosD := fun x => fl (Real.cos x)) (acosD := Real.arccos)
    (R := R) (p := (0, 0)) (Or.inl (by simp [ballPoint, vecDot, toRad_zero, fl_one, fl_zero]))
  simpa [fl_zero] using this

/-- Any two places whose distance is defined, with correctly rounded functions: within five metres, and almost symmetric. -/
example {d e : ℝ} (hd : distance (fun x => fl (Real.sin x)) (fun x => fl (Real.cos x)) Real.arccos (21600 / 2 / Real.pi) (54, 10) (55, 12) = some d)
    (he : distance (fun x => fl (Real.sin x)) (fun x => fl (Real.cos x)) Real.arccos (21600 / 2 / Real.pi) (55, 12) (54, 10) = some e) :
    |d - Globe.distance (21600 / 2 / Real.pi) (54, 10) (55, 12)| ≤ 27 / 10000 ∧
    |d - e| ≤ 2 * (21600 / 2 / Real.pi * (2 ^ (-50 : ℤ) + Real.pi * Real.sqrt (cosineError (2 ^ (-53 : ℤ)) / 2)) +
      2 ^ (-53 : ℤ) * (21600 / 2 / Real.pi * (Real.pi + 2 ^ (-50 : ℤ)))) := by
  have ht : Trig (fun x => fl (Real.sin x)) (fun x => fl (Real.cos x)) Real.arccos (2 ^ (-53 : ℤ)) (2 ^ (-50 : ℤ)) :=
    ⟨trig_rounded.sin, trig_rounded.cos, trig_rounded.sin_le, trig_rounded.cos_le, fun t _ _ => by simp⟩
  have hp := Real.pi_pos
  exact ⟨(C159_metres ht (by norm_num) (by norm_num) (by norm_num) (by norm_num) hd).1,
    C159_symmetric_close ht (by norm_num) (by positivity) (by norm_num) (by norm_num) (by norm_num) (by norm_num) hd he⟩

end Verif.F64
