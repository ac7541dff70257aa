import Mathlib.Analysis.SpecialFunctions.Trigonometric.ArctanDeriv
import Verif.Lemmas.Mercator
import Verif.Props.GlobePath

/-!
# Property C178: distances on the map and on the globe
-/

namespace Verif.Globe

open Verif.Curve (rad2deg deg2rad)
open Verif.Mercator (cosAngle)

theorem Flat.Orthogonal.apply_dot_apply {f : Flat} (h : f.Orthogonal) (u v : Vec) :
    (f.apply u).dot (f.apply v) = u.dot v := by
  have h1 := h.apply_dot (u.add v)
  have h2 := h.apply_dot u
  have h3 := h.apply_dot v
  have e1 : (f.apply (u.add v)).dot (f.apply (u.add v)) =
      (f.apply u).dot (f.apply u) + (f.apply v).dot (f.apply v) + 2 * (f.apply u).dot (f.apply v) := by
    unfold Flat.apply Vec.dot Vec.smul Vec.add; ring
  have e2 : (u.add v).dot (u.add v) = u.dot u + v.dot v + 2 * u.dot v := by unfold Vec.dot Vec.add; ring
  linarith

/-- The height of a point of the sphere on a map of radius 1. -/
theorem height {z : ℝ} (hz : |z| < 1) :
    Real.cosh (Real.arsinh (Real.tan (Real.arcsin z))) * Real.cos (Real.arcsin z) = 1 ∧
    Real.sinh (Real.arsinh (Real.tan (Real.arcsin z))) * Real.cos (Real.arcsin z) = z ∧ 0 < Real.cos (Real.arcsin z) := by
  obtain ⟨z1, z2⟩ := abs_lt.1 hz
  have hc := Real.cos_pos_of_mem_Ioo ⟨Real.neg_pi_div_two_lt_arcsin.2 z1, Real.arcsin_lt_pi_div_two.2 z2⟩
  refine ⟨?_, ?_, hc⟩
  · rw [Real.cosh_arsinh]
    have : 1 + Real.tan (Real.arcsin z) ^ 2 = (1 / Real.cos (Real.arcsin z)) ^ 2 := by
      rw [Real.tan_eq_sin_div_cos]
      have := Real.sin_sq_add_cos_sq (Real.arcsin z)
      field_simp
      linarith
    rw [this, Real.sqrt_sq (by positivity)]
    field_simp
  · rw [Real.sinh_arsinh, Real.tan_eq_sin_div_cos, div_mul_cancel₀ _ hc.ne', Real.sin_arcsin z1.le z2.le]

/-- The cosine of the angle between two points of the sphere by means of their images. -/
theorem dot_eq_cosAngle {u v : Vec} (hu : u.dot u = 1) (hv : v.dot v = 1) (hzu : |u.z| < 1) (hzv : |v.z| < 1) :
    u.dot v = cosAngle (Real.arsinh (Real.tan (Real.arcsin u.z))) (Real.arsinh (Real.tan (Real.arcsin v.z)))
      (Complex.arg ⟨u.x, u.y⟩ - Complex.arg ⟨v.x, v.y⟩) := by
  obtain ⟨a1, a2, a3⟩ := height hzu
  obtain ⟨b1, b2, b3⟩ := height hzv
  have eu := onBall_onLatLon hu
  have ev := onBall_onLatLon hv
  unfold onBall onLatLon at eu ev
  simp only [deg2rad_rad2deg] at eu ev
  have ux := congrArg Vec.x eu
  have uy := congrArg Vec.y eu
  have vx := congrArg Vec.x ev
  have vy := congrArg Vec.y ev
  simp only at ux uy vx vy
  unfold cosAngle
  rw [eq_div_iff (by positivity), Real.cos_sub]
  unfold Vec.dot
  set cu := Real.cos (Real.arcsin u.z)
  set cv := Real.cos (Real.arcsin v.z)
  set Cu := Real.cosh (Real.arsinh (Real.tan (Real.arcsin u.z)))
  set Cv := Real.cosh (Real.arsinh (Real.tan (Real.arcsin v.z)))
  set Su := Real.sinh (Real.arsinh (Real.tan (Real.arcsin u.z)))
  set Sv := Real.sinh (Real.arsinh (Real.tan (Real.arcsin v.z)))
  have hx : u.x * v.x * (Cu * Cv) = Real.cos (Complex.arg ⟨u.x, u.y⟩) * Real.cos (Complex.arg ⟨v.x, v.y⟩) := by
    nth_rw 1 [← ux, ← vx]
    linear_combination Real.cos (Complex.arg ⟨u.x, u.y⟩) * Real.cos (Complex.arg ⟨v.x, v.y⟩) * (Cv * cv * a1 + b1)
  have hy : u.y * v.y * (Cu * Cv) = Real.sin (Complex.arg ⟨u.x, u.y⟩) * Real.sin (Complex.arg ⟨v.x, v.y⟩) := by
    nth_rw 1 [← uy, ← vy]
    linear_combination Real.sin (Complex.arg ⟨u.x, u.y⟩) * Real.sin (Complex.arg ⟨v.x, v.y⟩) * (Cv * cv * a1 + b1)
  have hz : u.z * v.z * (Cu * Cv) = Su * Sv := by
    nth_rw 1 [← a2, ← b2]
    linear_combination Su * Sv * (Cv * cv * a1 + b1)
  linarith

theorem map_distance {f : Flat} (h : f.Orthogonal) (p q : ℝ × ℝ) :
    f.distance p q = f.radius * Real.sqrt ((Complex.arg ⟨(f.apply (onBall p)).x, (f.apply (onBall p)).y⟩ -
      Complex.arg ⟨(f.apply (onBall q)).x, (f.apply (onBall q)).y⟩) ^ 2 +
      (Real.arsinh (Real.tan (Real.arcsin (f.apply (onBall p)).z)) -
        Real.arsinh (Real.tan (Real.arcsin (f.apply (onBall q)).z))) ^ 2) := by
  have hR := h.radius
  unfold Flat.distance Flat.project onLatLon
  simp only [deg2rad_rad2deg]
  rw [← mul_sub, ← mul_sub, mul_pow, mul_pow, ← mul_add, Real.sqrt_mul (by positivity), Real.sqrt_sq hR.le]

theorem globe_distance {f : Flat} (h : f.Orthogonal) {p q : ℝ × ℝ} (hp : |(f.apply (onBall p)).z| < 1)
    (hq : |(f.apply (onBall q)).z| < 1) :
    distance f.radius p q = f.radius * Real.arccos (cosAngle (Real.arsinh (Real.tan (Real.arcsin (f.apply (onBall p)).z)))
      (Real.arsinh (Real.tan (Real.arcsin (f.apply (onBall q)).z)))
      (Complex.arg ⟨(f.apply (onBall p)).x, (f.apply (onBall p)).y⟩ -
        Complex.arg ⟨(f.apply (onBall q)).x, (f.apply (onBall q)).y⟩)) := by
  rw [← dot_eq_cosAngle (by rw [h.apply_dot, onBall_dot_self]) (by rw [h.apply_dot, onBall_dot_self]) hp hq,
    h.apply_dot_apply, distance, angle_onBall]

/-- **C178.** The distance of two places on the map is at least their distance on the globe. -/
theorem C178_longer {f : Flat} (h : f.Orthogonal) {p q : ℝ × ℝ} (hp : |(f.apply (onBall p)).z| < 1)
    (hq : |(f.apply (onBall q)).z| < 1) : distance f.radius p q ≤ f.distance p q := by
  rw [map_distance h, globe_distance h hp hq]
  exact mul_le_mul_of_nonneg_left (Mercator.arccos_le _ _ _) h.radius.le

/-- A map whose virtual north pole is on the equator of the globe, and two places of a parallel of the globe. -/
example : distance 1 (30, 0) (30, 40) ≤ (Flat.mk ⟨1, 0, 0⟩ ⟨0, 0, -1⟩ ⟨0, 1, 0⟩ 1).distance (30, 0) (30, 40) := by
  have ho : (Flat.mk ⟨1, 0, 0⟩ ⟨0, 0, -1⟩ ⟨0, 1, 0⟩ 1).Orthogonal :=
    ⟨by norm_num, by simp [Vec.dot], by simp [Vec.dot], by simp [Vec.dot], by simp [Vec.cross]⟩
  have hpi := Real.pi_pos
  have e : deg2rad 30 = Real.pi / 6 := by unfold deg2rad; ring
  have h3 : √3 < 2 := (Real.sqrt_lt' (by norm_num)).2 (by norm_num)
  have h : ∀ x, |Real.cos (deg2rad 30)| * |Real.sin x| < 1 := fun x => by
    have h1 : |Real.cos (deg2rad 30)| < 1 := by
      rw [e, Real.cos_pi_div_six, abs_of_pos (by positivity)]; linarith
    exact (mul_le_of_le_one_right (abs_nonneg _) (Real.abs_sin_le_one x)).trans_lt h1
  refine C178_longer ho ?_ ?_
  · simpa [Flat.apply, Vec.smul, Vec.add, onBall] using h (deg2rad 0)
  · simpa [Flat.apply, Vec.smul, Vec.add, onBall] using h (deg2rad 40)

/-- **C178.** Both are the same exactly for the same place of the map and for places on the virtual equator which are at
most half a turn of the map apart. -/
theorem C178_exactly {f : Flat} (h : f.Orthogonal) {p q : ℝ × ℝ} (hp : |(f.apply (onBall p)).z| < 1)
    (hq : |(f.apply (onBall q)).z| < 1) :
    f.distance p q = distance f.radius p q ↔ f.project p = f.project q ∨
      (f.project p).2 = 0 ∧ (f.project q).2 = 0 ∧ |(f.project p).1 - (f.project q).1| ≤ Real.pi * f.radius := by
  have hR := h.radius
  rw [map_distance h, globe_distance h hp hq, mul_right_inj' hR.ne', eq_comm, Mercator.arccos_eq_iff]
  unfold Flat.project onLatLon
  simp only [deg2rad_rad2deg, Prod.mk.injEq, mul_right_inj' hR.ne', ← mul_sub, abs_mul, abs_of_pos hR, mul_eq_zero,
    hR.ne', false_or]
  rw [mul_comm Real.pi, mul_le_mul_iff_right₀ hR, sub_eq_zero]
  constructor
  · rintro ⟨hy, hx | ⟨h0, hx⟩⟩
    · exact Or.inl ⟨hx, hy⟩
    · exact Or.inr ⟨h0, hy ▸ h0, hx⟩
  · rintro (⟨hx, hy⟩ | ⟨h0, h1, hx⟩)
    · exact ⟨hy, Or.inl hx⟩
    · exact ⟨h0.trans h1.symm, Or.inr ⟨h0, hx⟩⟩

theorem default_z {x y : ℝ} (h1 : -90 < x) (h2 : x < 90) : |(onBall (x, y)).z| < 1 := by
  have hpi := Real.pi_pos
  have a1 : -(Real.pi / 2) < deg2rad x := by unfold deg2rad; rw [lt_div_iff₀ (by norm_num)]; nlinarith
  have a2 : deg2rad x < Real.pi / 2 := by unfold deg2rad; rw [div_lt_iff₀ (by norm_num)]; nlinarith
  have hc := Real.cos_pos_of_mem_Ioo ⟨a1, a2⟩
  have := Real.sin_sq_add_cos_sq (deg2rad x)
  simp only [onBall]
  rw [← sq_lt_one_iff_abs_lt_one]
  nlinarith [sq_pos_of_pos hc]

/-- **C178.** With the default arguments, places between the poles are at least as far from each other on the map as on the
globe, whatever the longitudes are. -/
theorem C178_default {radius : ℝ} (hr : 0 < radius) {f : Flat} (hf : mkFlat (90, 0) (0, 0) radius = .ok f) {p q : ℝ × ℝ}
    (hp1 : -90 < p.1) (hp2 : p.1 < 90) (hq1 : -90 < q.1) (hq2 : q.1 < 90) :
    distance radius p q ≤ f.distance p q := by
  obtain ⟨f', e, ho, hid⟩ := C67_default hr
  have hrad : f.radius = radius := by
    unfold mkFlat at hf
    simp only at hf
    split at hf
    · cases hf
    · cases hf; rfl
  rw [hf] at e
  simp only [Except.ok.injEq] at e
  subst e
  rw [← hrad]
  exact C178_longer ho (by rw [hid]; exact default_z hp1 hp2) (by rw [hid]; exact default_z hq1 hq2)

/-- Off the equator, the way along a parallel is longer on the map. -/
example : ∃ f, mkFlat (90, 0) (0, 0) 3440 = .ok f ∧ distance 3440 (50, 10) (55, 190) ≤ f.distance (50, 10) (55, 190) := by
  obtain ⟨f, hf, -, -⟩ := C67_default (radius := 3440) (by norm_num)
  exact ⟨f, hf, C178_default (by norm_num) hf (by norm_num) (by norm_num) (by norm_num) (by norm_num)⟩

theorem project_default {radius : ℝ} (hr : 0 < radius) {f : Flat} (hf : mkFlat (90, 0) (0, 0) radius = .ok f) {p : ℝ × ℝ}
    (h1 : -90 < p.1) (h2 : p.1 < 90) (h3 : -180 < p.2) (h4 : p.2 ≤ 180) :
    f.project p = (radius * deg2rad p.2, radius * Real.arsinh (Real.tan (deg2rad p.1))) := by
  obtain ⟨f', e, ho, hid⟩ := C67_default hr
  have hrad : f.radius = radius := by
    unfold mkFlat at hf
    simp only at hf
    split at hf
    · cases hf
    · cases hf; rfl
  rw [hf] at e
  simp only [Except.ok.injEq] at e
  subst e
  unfold Flat.project
  simp only
  rw [hid, onLatLon_onBall h1 h2 h3 h4, hrad]

/-- **C178.** With the default arguments, both distances are the same exactly for the same place and for places on the
equator which are at most 180 degrees apart. -/
theorem C178_default_exactly {radius : ℝ} (hr : 0 < radius) {f : Flat} (hf : mkFlat (90, 0) (0, 0) radius = .ok f)
    {p q : ℝ × ℝ} (hp1 : -90 < p.1) (hp2 : p.1 < 90) (hp3 : -180 < p.2) (hp4 : p.2 ≤ 180)
    (hq1 : -90 < q.1) (hq2 : q.1 < 90) (hq3 : -180 < q.2) (hq4 : q.2 ≤ 180) :
    f.distance p q = distance radius p q ↔ p = q ∨ p.1 = 0 ∧ q.1 = 0 ∧ |p.2 - q.2| ≤ 180 := by
  have ep := project_default hr hf hp1 hp2 hp3 hp4
  have eq := project_default hr hf hq1 hq2 hq3 hq4
  have rp := C67_default_round_trip hr hf hp1 hp2 hp3 hp4
  have rq := C67_default_round_trip hr hf hq1 hq2 hq3 hq4
  obtain ⟨f', e, ho, hid⟩ := C67_default hr
  have hrad : f.radius = radius := by
    unfold mkFlat at hf
    simp only at hf
    split at hf
    · cases hf
    · cases hf; rfl
  rw [hf] at e
  simp only [Except.ok.injEq] at e
  subst e
  have key := C178_exactly ho (p := p) (q := q) (by rw [hid]; exact default_z hp1 hp2) (by rw [hid]; exact default_z hq1 hq2)
  rw [hrad] at key
  rw [key]
  have hpi := Real.pi_pos
  have hz : ∀ x : ℝ, -90 < x → x < 90 → (radius * Real.arsinh (Real.tan (deg2rad x)) = 0 ↔ x = 0) := fun x h1 h2 => by
    rw [mul_eq_zero, or_iff_right hr.ne', Real.arsinh_eq_zero_iff]
    have a1 : -(Real.pi / 2) < deg2rad x := by unfold deg2rad; rw [lt_div_iff₀ (by norm_num)]; nlinarith
    have a2 : deg2rad x < Real.pi / 2 := by unfold deg2rad; rw [div_lt_iff₀ (by norm_num)]; nlinarith
    constructor
    · intro h
      have : deg2rad x = 0 := by rw [← Real.arctan_tan a1 a2, h, Real.arctan_zero]
      unfold deg2rad at this
      have : x * Real.pi = 0 := by linarith
      exact (mul_eq_zero.1 this).resolve_right hpi.ne'
    · rintro rfl
      simp [deg2rad]
  have h1 : f.project p = f.project q ↔ p = q := ⟨fun h => by rw [← rp, h, rq], fun h => by rw [h]⟩
  have h2 : |(f.project p).1 - (f.project q).1| ≤ Real.pi * radius ↔ |p.2 - q.2| ≤ 180 := by
    rw [ep, eq]
    simp only
    have : radius * deg2rad p.2 - radius * deg2rad q.2 = (p.2 - q.2) * (Real.pi * radius / 180) := by unfold deg2rad; ring
    have hk : 0 < Real.pi * radius / 180 := by positivity
    rw [this, abs_mul, abs_of_pos hk]
    constructor
    · intro h
      have : |p.2 - q.2| * (Real.pi * radius / 180) ≤ 180 * (Real.pi * radius / 180) := by linarith
      exact le_of_mul_le_mul_right this hk
    · intro h
      have := mul_le_mul_of_nonneg_right h hk.le
      linarith
  rw [h1, h2, ep, eq]
  simp only
  rw [hz p.1 hp1 hp2, hz q.1 hq1 hq2]

/-- Two places on a meridian, on a parallel, and on the equator. -/
example : ∃ f, mkFlat (90, 0) (0, 0) 3440 = .ok f ∧ distance 3440 (10, 7) (20, 7) < f.distance (10, 7) (20, 7) ∧
    distance 3440 (30, 7) (30, 8) < f.distance (30, 7) (30, 8) ∧ f.distance (0, 7) (0, 8) = distance 3440 (0, 7) (0, 8) := by
  obtain ⟨f, hf, -, -⟩ := C67_default (radius := 3440) (by norm_num)
  refine ⟨f, hf, lt_of_le_of_ne ?_ fun h => ?_, lt_of_le_of_ne ?_ fun h => ?_, ?_⟩
  · exact C178_default (by norm_num) hf (by norm_num) (by norm_num) (by norm_num) (by norm_num)
  · rcases (C178_default_exactly (by norm_num) hf (by norm_num) (by norm_num) (by norm_num) (by norm_num) (by norm_num)
      (by norm_num) (by norm_num) (by norm_num)).1 h.symm with h | h <;> norm_num at h
  · exact C178_default (by norm_num) hf (by norm_num) (by norm_num) (by norm_num) (by norm_num)
  · rcases (C178_default_exactly (by norm_num) hf (by norm_num) (by norm_num) (by norm_num) (by norm_num) (by norm_num)
      (by norm_num) (by norm_num) (by norm_num)).1 h.symm with h | h <;> norm_num at h
  · exact (C178_default_exactly (by norm_num) hf (by norm_num) (by norm_num) (by norm_num) (by norm_num) (by norm_num)
      (by norm_num) (by norm_num) (by norm_num)).2 (Or.inr ⟨rfl, rfl, by norm_num⟩)

/-- **C178.** On a meridian, the map enlarges the distance by the secant of a latitude between both places. -/
theorem C178_meridian {radius : ℝ} (hr : 0 < radius) {f : Flat} (hf : mkFlat (90, 0) (0, 0) radius = .ok f) {a b l : ℝ}
    (ha : -90 < a) (hab : a < b) (hb : b < 90) (h3 : -180 < l) (h4 : l ≤ 180) :
    ∃ c, a < c ∧ c < b ∧ 0 < Real.cos (deg2rad c) ∧
      f.distance (a, l) (b, l) = distance radius (a, l) (b, l) / Real.cos (deg2rad c) := by
  have hpi := Real.pi_pos
  have hk : ∀ x y : ℝ, x < y → deg2rad x < deg2rad y := fun x y h => by
    unfold deg2rad
    have := mul_lt_mul_of_pos_right h hpi
    linarith
  have e90 : deg2rad 90 = Real.pi / 2 := by unfold deg2rad; ring
  have e90' : deg2rad (-90) = -(Real.pi / 2) := by unfold deg2rad; ring
  have A := hk _ _ ha
  have B := hk _ _ hb
  have AB := hk _ _ hab
  rw [e90'] at A
  rw [e90] at B
  have hd : ∀ x, -(Real.pi / 2) < x → x < Real.pi / 2 →
      HasDerivAt (fun x => Real.arsinh (Real.tan x)) (1 / Real.cos x) x := fun x h1 h2 => by
    have hc := Real.cos_pos_of_mem_Ioo ⟨h1, h2⟩
    have := (Real.hasDerivAt_arsinh (Real.tan x)).comp x (Real.hasDerivAt_tan hc.ne')
    have e : (√(1 + Real.tan x ^ 2))⁻¹ * (1 / Real.cos x ^ 2) = 1 / Real.cos x := by
      have : 1 + Real.tan x ^ 2 = (1 / Real.cos x) ^ 2 := by
        rw [Real.tan_eq_sin_div_cos]
        have := Real.sin_sq_add_cos_sq x
        field_simp
        linarith
      rw [this, Real.sqrt_sq (by positivity)]
      field_simp
    rw [← e]
    exact this
  obtain ⟨c, hc, hs⟩ := exists_hasDerivAt_eq_slope (fun x => Real.arsinh (Real.tan x)) (fun x => 1 / Real.cos x) AB
    (fun x hx => (hd x (by linarith [hx.1]) (by linarith [hx.2])).continuousAt.continuousWithinAt)
    (fun x hx => hd x (by linarith [hx.1]) (by linarith [hx.2]))
  have hcc := Real.cos_pos_of_mem_Ioo ⟨show -(Real.pi / 2) < c by linarith [hc.1], show c < Real.pi / 2 by linarith [hc.2]⟩
  have hback : ∀ x y : ℝ, deg2rad x < deg2rad y → x < y := fun x y h => by
    by_contra hn
    rcases eq_or_lt_of_le (not_lt.1 hn) with h' | h'
    · rw [h'] at h; exact lt_irrefl _ h
    · exact lt_irrefl _ (h.trans (hk _ _ h'))
  refine ⟨rad2deg c, hback _ _ (by rw [deg2rad_rad2deg]; exact hc.1), hback _ _ (by rw [deg2rad_rad2deg]; exact hc.2),
    by rw [deg2rad_rad2deg]; exact hcc, ?_⟩
  rw [deg2rad_rad2deg]
  have hdist : distance radius (a, l) (b, l) = radius * (deg2rad b - deg2rad a) := by
    rw [distance, angle_onBall]
    have : (onBall (a, l)).dot (onBall (b, l)) = Real.cos (deg2rad b - deg2rad a) := by
      rw [Real.cos_sub]
      have := Real.sin_sq_add_cos_sq (deg2rad l)
      unfold onBall Vec.dot
      simp only
      linear_combination Real.cos (deg2rad a) * Real.cos (deg2rad b) * this
    rw [this, Real.arccos_cos (by linarith) (by linarith)]
  have hmap : f.distance (a, l) (b, l) =
      radius * (Real.arsinh (Real.tan (deg2rad b)) - Real.arsinh (Real.tan (deg2rad a))) := by
    have hpos : 0 ≤ Real.arsinh (Real.tan (deg2rad b)) - Real.arsinh (Real.tan (deg2rad a)) := by
      rw [eq_div_iff (by linarith)] at hs
      rw [← hs]
      have : 0 < deg2rad b - deg2rad a := by linarith
      positivity
    unfold Flat.distance
    rw [project_default hr hf ha (hab.trans hb) h3 h4, project_default hr hf (ha.trans hab) hb h3 h4]
    simp only
    rw [sub_self, zero_pow two_ne_zero, zero_add, ← mul_sub, mul_pow, Real.sqrt_mul (by positivity), Real.sqrt_sq hr.le,
      ← neg_sub (Real.arsinh (Real.tan (deg2rad b))), neg_sq, Real.sqrt_sq hpos]
  rw [hmap, hdist]
  rw [eq_div_iff (by linarith)] at hs
  rw [← hs]
  field_simp

/-- From 50 to 51 degrees north. -/
example : ∃ f, mkFlat (90, 0) (0, 0) 3440 = .ok f ∧ ∃ c, 50 < c ∧ c < 51 ∧ 0 < Real.cos (deg2rad c) ∧
    f.distance (50, 7) (51, 7) = distance 3440 (50, 7) (51, 7) / Real.cos (deg2rad c) := by
  obtain ⟨f, hf, -, -⟩ := C67_default (radius := 3440) (by norm_num)
  exact ⟨f, hf, C178_meridian (by norm_num) hf (by norm_num) (by norm_num) (by norm_num) (by norm_num) (by norm_num)⟩

/-- **C178.** A virtual zero point off the virtual equator is a different matter: there are places which are nearer on the
map than on the globe. -/
theorem C178_equator_needed : ∃ f p q, mkFlat (90, 0) (60, 0) 1 = .ok f ∧ |(f.apply (onBall p)).z| < 1 ∧
    |(f.apply (onBall q)).z| < 1 ∧ f.distance p q < distance 1 p q := by
  have hpi := Real.pi_pos
  have e90 : deg2rad 90 = Real.pi / 2 := by unfold deg2rad; ring
  have e60 : deg2rad 60 = Real.pi / 3 := by unfold deg2rad; ring
  have e45 : deg2rad 45 = Real.pi / 4 := by unfold deg2rad; ring
  have e0 : deg2rad 0 = 0 := by unfold deg2rad; ring
  have hz : onBall (60, 0) = ⟨1 / 2, 0, √3 / 2⟩ := by simp [onBall, e60, e0, Real.cos_pi_div_three, Real.sin_pi_div_three]
  have hn : onBall (90, 0) = ⟨0, 0, 1⟩ := by simp [onBall, e90, e0]
  have hf : mkFlat (90, 0) (60, 0) 1 = .ok ⟨⟨1 / 2, 0, √3 / 2⟩, ⟨0, 1 / 2, 0⟩, ⟨0, 0, 1⟩, 1⟩ := by
    unfold mkFlat
    rw [hz, hn]
    simp [Vec.dot, Vec.cross]
  have s3 : (0 : ℝ) ≤ 3 := by norm_num
  have hs6 : √6 = √3 * √2 := by rw [← Real.sqrt_mul s3]; norm_num
  have h22 : √(1 + (√6 / 4) ^ 2) = √22 / 4 := by
    rw [div_pow, Real.sq_sqrt (by norm_num), show (1 : ℝ) + 6 / 4 ^ 2 = 22 / 4 ^ 2 by norm_num, Real.sqrt_div (by norm_num),
      Real.sqrt_sq (by norm_num)]
  have p22 : 0 < √22 := Real.sqrt_pos.2 (by norm_num)
  have hc : Real.cos (deg2rad (rad2deg (-Real.arctan (√6 / 4)))) = 4 / √22 := by
    rw [deg2rad_rad2deg, Real.cos_neg, Real.cos_arctan, h22]; field_simp
  have hsn : Real.sin (deg2rad (rad2deg (-Real.arctan (√6 / 4)))) = -√6 / √22 := by
    rw [deg2rad_rad2deg, Real.sin_neg, Real.sin_arctan, h22]; field_simp
  have hp : onBall (rad2deg (-Real.arctan (√6 / 4)), 45) = ⟨2 * √2 / √22, 2 * √2 / √22, -√6 / √22⟩ := by
    unfold onBall
    simp only [hc, hsn, e45, Real.cos_pi_div_four, Real.sin_pi_div_four]
    ext <;> simp only <;> ring
  have hq : onBall (0, 90) = ⟨0, 1, 0⟩ := by simp [onBall, e90, e0]
  have ap : (Flat.mk ⟨1 / 2, 0, √3 / 2⟩ ⟨0, 1 / 2, 0⟩ ⟨0, 0, 1⟩ 1).apply ⟨2 * √2 / √22, 2 * √2 / √22, -√6 / √22⟩ =
      ⟨√2 / √22, √2 / √22, 0⟩ := by
    unfold Flat.apply Vec.smul Vec.add
    ext <;> simp only
    · ring
    · ring
    · rw [hs6]; ring
  have aq : (Flat.mk ⟨1 / 2, 0, √3 / 2⟩ ⟨0, 1 / 2, 0⟩ ⟨0, 0, 1⟩ 1).apply ⟨0, 1, 0⟩ = ⟨0, 1 / 2, 0⟩ := by
    simp [Flat.apply, Vec.smul, Vec.add]
  have argp : Complex.arg ⟨√2 / √22, √2 / √22⟩ = Real.pi / 4 := by
    have hr : 0 < 2 / √22 := by positivity
    have : (⟨√2 / √22, √2 / √22⟩ : ℂ) = ((2 / √22 : ℝ) : ℂ) *
        (Complex.cos ((Real.pi / 4 : ℝ) : ℂ) + Complex.sin ((Real.pi / 4 : ℝ) : ℂ) * Complex.I) := by
      rw [← Complex.ofReal_cos, ← Complex.ofReal_sin, Real.cos_pi_div_four, Real.sin_pi_div_four]
      apply Complex.ext
      · simp
      · simp
    rw [this]
    exact Complex.arg_mul_cos_add_sin_mul_I hr ⟨by linarith, by linarith⟩
  have argq : Complex.arg ⟨0, 1 / 2⟩ = Real.pi / 2 := by
    have : (⟨0, 1 / 2⟩ : ℂ) = ((1 / 2 : ℝ) : ℂ) * Complex.I := by
      apply Complex.ext <;> simp
    rw [this, Complex.arg_real_mul _ (by norm_num), Complex.arg_I]
  refine ⟨_, (rad2deg (-Real.arctan (√6 / 4)), 45), (0, 90), hf, ?_, ?_, ?_⟩
  · rw [hp, ap]; simp
  · rw [hq, aq]; simp
  · have hm : (Flat.mk ⟨1 / 2, 0, √3 / 2⟩ ⟨0, 1 / 2, 0⟩ ⟨0, 0, 1⟩ 1).distance (rad2deg (-Real.arctan (√6 / 4)), 45) (0, 90) =
        Real.pi / 4 := by
      unfold Flat.distance Flat.project
      simp only
      rw [hp, hq, ap, aq]
      unfold onLatLon
      simp only [deg2rad_rad2deg, argp, argq, Real.arcsin_zero, Real.tan_zero, Real.arsinh_zero]
      rw [show (1 * (Real.pi / 4) - 1 * (Real.pi / 2)) ^ 2 + ((1 : ℝ) * 0 - 1 * 0) ^ 2 = (Real.pi / 4) ^ 2 by ring,
        Real.sqrt_sq (by positivity)]
    rw [hm, distance, angle_onBall, hp, hq, one_mul]
    have hdot : (Vec.mk (2 * √2 / √22) (2 * √2 / √22) (-√6 / √22)).dot ⟨0, 1, 0⟩ = 2 * √2 / √22 := by
      simp [Vec.dot]
    rw [hdot]
    have hlt : 2 * √2 / √22 < Real.cos (Real.pi / 4) := by
      rw [Real.cos_pi_div_four, div_lt_iff₀ p22]
      have h4 : 4 < √22 := Real.lt_sqrt_of_sq_lt (by norm_num)
      have h2 : 0 < √2 := Real.sqrt_pos.2 (by norm_num)
      nlinarith
    have h0 : -1 ≤ 2 * √2 / √22 := le_trans (by norm_num) (show (0 : ℝ) ≤ 2 * √2 / √22 by positivity)
    have := Real.arccos_lt_arccos h0 hlt (Real.cos_le_one _)
    rwa [Real.arccos_cos (by positivity) (by linarith)] at this

end Verif.Globe
