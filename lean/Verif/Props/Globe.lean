import Mathlib.Tactic.FieldSimp
import Mathlib.Tactic.Linarith
import Mathlib.Tactic.LinearCombination
import Mathlib.Tactic.Ring
import Verif.Model.Globe

/-!
# Properties C47, C67: globe models
-/

namespace Verif.Globe

open Verif.Curve (rad2deg deg2rad)

theorem rad2deg_deg2rad (x : ℝ) : rad2deg (deg2rad x) = x := by
  unfold rad2deg deg2rad; field_simp

theorem deg2rad_rad2deg (x : ℝ) : deg2rad (rad2deg x) = x := by
  unfold rad2deg deg2rad; field_simp

theorem Vec.dot_comm (u v : Vec) : u.dot v = v.dot u := by unfold Vec.dot; ring

theorem onBall_dot_self (p : ℝ × ℝ) : (onBall p).dot (onBall p) = 1 := by
  unfold Vec.dot onBall
  have h1 := Real.sin_sq_add_cos_sq (deg2rad p.1)
  have h2 := Real.sin_sq_add_cos_sq (deg2rad p.2)
  linear_combination h1 + (Real.cos (deg2rad p.1)) ^ 2 * h2

/-- On the unit sphere, `_on_lat_lon` is undone by `_on_ball`. -/
theorem onBall_onLatLon {v : Vec} (h : v.dot v = 1) : onBall (onLatLon v) = v := by
  unfold Vec.dot at h
  have hz1 : -1 ≤ v.z := by nlinarith [sq_nonneg v.x, sq_nonneg v.y]
  have hz2 : v.z ≤ 1 := by nlinarith [sq_nonneg v.x, sq_nonneg v.y]
  have hnorm : ‖(⟨v.x, v.y⟩ : ℂ)‖ = Real.sqrt (1 - v.z ^ 2) := by
    rw [Complex.norm_def, Complex.normSq_mk]
    congr 1
    linarith
  have h1 := Complex.norm_mul_cos_arg (⟨v.x, v.y⟩ : ℂ)
  have h2 := Complex.norm_mul_sin_arg (⟨v.x, v.y⟩ : ℂ)
  rw [hnorm] at h1 h2
  unfold onBall onLatLon
  simp only [deg2rad_rad2deg]
  ext
  · simp only [Real.cos_arcsin]; exact h1
  · simp only [Real.cos_arcsin]; exact h2
  · simp only [Real.sin_arcsin hz1 hz2]

/-- Away from the poles, `_on_ball` is undone by `_on_lat_lon`. -/
theorem onLatLon_onBall {p : ℝ × ℝ} (h1 : -90 < p.1) (h2 : p.1 < 90) (h3 : -180 < p.2) (h4 : p.2 ≤ 180) :
    onLatLon (onBall p) = p := by
  have hpi := Real.pi_pos
  have a1 : -(Real.pi / 2) < deg2rad p.1 := by unfold deg2rad; rw [lt_div_iff₀ (by norm_num)]; nlinarith
  have a2 : deg2rad p.1 < Real.pi / 2 := by unfold deg2rad; rw [div_lt_iff₀ (by norm_num)]; nlinarith
  have a3 : -Real.pi < deg2rad p.2 := by unfold deg2rad; rw [lt_div_iff₀ (by norm_num)]; nlinarith
  have a4 : deg2rad p.2 ≤ Real.pi := by unfold deg2rad; rw [div_le_iff₀ (by norm_num)]; nlinarith
  have hc := Real.cos_pos_of_mem_Ioo ⟨a1, a2⟩
  unfold onLatLon onBall
  refine Prod.ext ?_ ?_
  · simp only
    rw [Real.arcsin_sin a1.le a2.le, rad2deg_deg2rad]
  · simp only
    have e : (⟨Real.cos (deg2rad p.1) * Real.cos (deg2rad p.2), Real.cos (deg2rad p.1) * Real.sin (deg2rad p.2)⟩ : ℂ) =
        (Real.cos (deg2rad p.1) : ℂ) * (Complex.cos (deg2rad p.2 : ℝ) + Complex.sin (deg2rad p.2 : ℝ) * Complex.I) := by
      rw [← Complex.ofReal_cos (deg2rad p.2), ← Complex.ofReal_sin (deg2rad p.2)]
      apply Complex.ext <;> simp [Complex.cos_ofReal_im, Complex.cos_ofReal_re, Complex.sin_ofReal_re, Complex.sin_ofReal_im]
    rw [e, Complex.arg_mul_cos_add_sin_mul_I hc ⟨a3, a4⟩, rad2deg_deg2rad]

/-! ### C47 -/

/-- **C47.** `lat_lon` inverts `project` away from the poles. -/
theorem C47_lat_lon {R : ℝ} (hR : 0 < R) {p : ℝ × ℝ} (h1 : -90 < p.1) (h2 : p.1 < 90) (h3 : -180 < p.2)
    (h4 : p.2 ≤ 180) : latLon R (project R p) = p := by
  have e : (⟨(project R p).x / R, (project R p).y / R, (project R p).z / R⟩ : Vec) = onBall p := by
    unfold project Vec.smul
    ext <;> simp only <;> field_simp
  rw [latLon, e, onLatLon_onBall h1 h2 h3 h4]

example : latLon 3440 (project 3440 (54, 10)) = (54, 10) :=
  C47_lat_lon (by norm_num) (by norm_num) (by norm_num) (by norm_num) (by norm_num)

/-- **C47.** `project` inverts `lat_lon` on the whole globe. -/
theorem C47_project {R : ℝ} (hR : 0 < R) {v : Vec} (h : v.norm = R) : project R (latLon R v) = v := by
  have h' : v.dot v = R ^ 2 := by
    rw [← h, Vec.norm, Real.sq_sqrt]
    unfold Vec.dot; nlinarith [sq_nonneg v.x, sq_nonneg v.y, sq_nonneg v.z]
  have e : (⟨v.x / R, v.y / R, v.z / R⟩ : Vec).dot ⟨v.x / R, v.y / R, v.z / R⟩ = 1 := by
    unfold Vec.dot at *
    simp only
    field_simp
    linarith
  rw [project, latLon, onBall_onLatLon e]
  ext <;> simp only [Vec.smul] <;> field_simp

/-- The points given by `project` lie on the sphere. -/
theorem project_norm {R : ℝ} (hR : 0 < R) (p : ℝ × ℝ) : (project R p).norm = R := by
  have : (project R p).dot (project R p) = R ^ 2 := by
    have := onBall_dot_self p
    unfold project Vec.smul Vec.dot at *
    linear_combination R ^ 2 * this
  rw [Vec.norm, this, Real.sqrt_sq hR.le]

theorem angle_onBall (p q : ℝ × ℝ) : angle (onBall p) (onBall q) = Real.arccos ((onBall p).dot (onBall q)) := by
  simp [angle, Vec.norm, onBall_dot_self]

theorem dot_le_one {u v : Vec} (hu : u.dot u = 1) (hv : v.dot v = 1) : -1 ≤ u.dot v ∧ u.dot v ≤ 1 := by
  unfold Vec.dot at *
  constructor
  · nlinarith [sq_nonneg (u.x + v.x), sq_nonneg (u.y + v.y), sq_nonneg (u.z + v.z)]
  · nlinarith [sq_nonneg (u.x - v.x), sq_nonneg (u.y - v.y), sq_nonneg (u.z - v.z)]

theorem eq_of_dot_eq_one {u v : Vec} (hu : u.dot u = 1) (hv : v.dot v = 1) (h : u.dot v = 1) : u = v := by
  unfold Vec.dot at *
  have hx : (u.x - v.x) ^ 2 + (u.y - v.y) ^ 2 + (u.z - v.z) ^ 2 = 0 := by ring_nf; linarith
  have h1 : (u.x - v.x) ^ 2 = 0 := by nlinarith [sq_nonneg (u.x - v.x), sq_nonneg (u.y - v.y), sq_nonneg (u.z - v.z)]
  have h2 : (u.y - v.y) ^ 2 = 0 := by nlinarith [sq_nonneg (u.x - v.x), sq_nonneg (u.y - v.y), sq_nonneg (u.z - v.z)]
  have h3 : (u.z - v.z) ^ 2 = 0 := by nlinarith [sq_nonneg (u.x - v.x), sq_nonneg (u.y - v.y), sq_nonneg (u.z - v.z)]
  ext
  · exact sub_eq_zero.1 (pow_eq_zero_iff (by norm_num) |>.1 h1)
  · exact sub_eq_zero.1 (pow_eq_zero_iff (by norm_num) |>.1 h2)
  · exact sub_eq_zero.1 (pow_eq_zero_iff (by norm_num) |>.1 h3)

/-- **C47.** The distance is symmetric, not negative, at most half of the circumference, and zero only for points at
the same place of the globe. -/
theorem C47_distance {R : ℝ} (hR : 0 < R) (p q : ℝ × ℝ) :
    distance R p q = distance R q p ∧ 0 ≤ distance R p q ∧ distance R p q ≤ 2 * Real.pi * R / 2 ∧
    (distance R p q = 0 ↔ project R p = project R q) := by
  have hd := dot_le_one (onBall_dot_self p) (onBall_dot_self q)
  refine ⟨?_, ?_, ?_, ?_⟩
  · simp only [distance, angle_onBall]; rw [Vec.dot_comm]
  · exact mul_nonneg hR.le (Real.arccos_nonneg _)
  · have := mul_le_mul_of_nonneg_left (Real.arccos_le_pi ((onBall p).dot (onBall q))) hR.le
    simp only [distance, angle_onBall]
    linarith
  · simp only [distance, angle_onBall]
    rw [mul_eq_zero, or_iff_right hR.ne', Real.arccos_eq_zero]
    constructor
    · intro h
      rw [project, project, eq_of_dot_eq_one (onBall_dot_self p) (onBall_dot_self q) (le_antisymm hd.2 h)]
    · intro h
      have e : onBall p = onBall q := by
        unfold project Vec.smul at h
        rw [Vec.mk.injEq] at h
        ext
        · exact mul_left_cancel₀ hR.ne' h.1
        · exact mul_left_cancel₀ hR.ne' h.2.1
        · exact mul_left_cancel₀ hR.ne' h.2.2
      rw [e, onBall_dot_self]

/-- **C47.** The distance satisfies the triangle inequality. -/
theorem C47_triangle {R : ℝ} (hR : 0 < R) (p q r : ℝ × ℝ) : distance R p r ≤ distance R p q + distance R q r := by
  simp only [distance, angle_onBall]
  rw [← mul_add]
  apply mul_le_mul_of_nonneg_left _ hR.le
  have hu := onBall_dot_self p
  have hv := onBall_dot_self q
  have hw := onBall_dot_self r
  obtain ⟨x1, x2⟩ := dot_le_one hu hv
  obtain ⟨y1, y2⟩ := dot_le_one hv hw
  obtain ⟨z1, z2⟩ := dot_le_one hu hw
  have gram : 0 ≤ 1 + 2 * (onBall p).dot (onBall q) * (onBall q).dot (onBall r) * (onBall p).dot (onBall r)
      - ((onBall q).dot (onBall r)) ^ 2 - ((onBall p).dot (onBall r)) ^ 2 - ((onBall p).dot (onBall q)) ^ 2 := by
    have key : ((onBall p).dot ((onBall q).cross (onBall r))) ^ 2 =
        (onBall p).dot (onBall p) * (onBall q).dot (onBall q) * (onBall r).dot (onBall r)
        + 2 * (onBall p).dot (onBall q) * (onBall q).dot (onBall r) * (onBall p).dot (onBall r)
        - (onBall p).dot (onBall p) * ((onBall q).dot (onBall r)) ^ 2
        - (onBall q).dot (onBall q) * ((onBall p).dot (onBall r)) ^ 2
        - (onBall r).dot (onBall r) * ((onBall p).dot (onBall q)) ^ 2 := by
      generalize onBall p = u
      generalize onBall q = v
      generalize onBall r = w
      unfold Vec.dot Vec.cross
      ring
    rw [hu, hv, hw] at key
    have := sq_nonneg ((onBall p).dot ((onBall q).cross (onBall r)))
    linarith
  generalize (onBall p).dot (onBall q) = x at *
  generalize (onBall q).dot (onBall r) = y at *
  generalize (onBall p).dot (onBall r) = z at *
  by_cases hπ : Real.arccos x + Real.arccos y ≤ Real.pi
  · rw [← Real.arccos_cos (add_nonneg (Real.arccos_nonneg x) (Real.arccos_nonneg y)) hπ]
    apply Real.arccos_le_arccos
    rw [Real.cos_add, Real.cos_arccos x1 x2, Real.cos_arccos y1 y2, Real.sin_arccos, Real.sin_arccos,
      ← Real.sqrt_mul (by nlinarith)]
    have : |z - x * y| ≤ Real.sqrt ((1 - x ^ 2) * (1 - y ^ 2)) := Real.abs_le_sqrt (by nlinarith)
    have := (abs_le.1 this).1
    linarith
  · exact le_trans (Real.arccos_le_pi z) (not_le.1 hπ).le

/-- Two places on the equator, a quarter of the globe apart. -/
example (R : ℝ) : distance R (0, 0) (0, 90) = R * (Real.pi / 2) := by
  have e : (90 : ℝ) * Real.pi / 180 = Real.pi / 2 := by ring
  rw [distance, angle_onBall]
  simp [onBall, Vec.dot, deg2rad, e]

/-! Great circles -/

/-- The point at angle `a` of the great circle from `u` to `v`. -/
noncomputable def arc (u v : Vec) (A a : ℝ) : Vec :=
  (u.smul (Real.cos a - Real.cos A / Real.sin A * Real.sin a)).add (v.smul (1 / Real.sin A * Real.sin a))

theorem arc_dot {u v : Vec} {R A : ℝ} (hu : u.dot u = R ^ 2) (hv : v.dot v = R ^ 2) (h : u.dot v = R ^ 2 * Real.cos A)
    (hA : Real.sin A ≠ 0) (a b : ℝ) : (arc u v A a).dot (arc u v A b) = R ^ 2 * Real.cos (a - b) := by
  have e : (arc u v A a).dot (arc u v A b) =
      (Real.cos a - Real.cos A / Real.sin A * Real.sin a) * (Real.cos b - Real.cos A / Real.sin A * Real.sin b) * u.dot u
      + ((Real.cos a - Real.cos A / Real.sin A * Real.sin a) * (1 / Real.sin A * Real.sin b) +
        (1 / Real.sin A * Real.sin a) * (Real.cos b - Real.cos A / Real.sin A * Real.sin b)) * u.dot v
      + (1 / Real.sin A * Real.sin a) * (1 / Real.sin A * Real.sin b) * v.dot v := by
    unfold arc Vec.dot Vec.add Vec.smul; ring
  rw [e, hu, hv, h, Real.cos_sub]
  have hs := Real.sin_sq_add_cos_sq A
  generalize Real.sin A = s at *
  generalize Real.cos A = c at *
  generalize Real.sin a = sa
  generalize Real.cos a = ca
  generalize Real.sin b = sb
  generalize Real.cos b = cb
  field_simp
  linear_combination (-R ^ 2 * sa * sb) * hs

theorem angle_of_norm {u v : Vec} {R : ℝ} (hR : 0 < R) (hu : u.dot u = R ^ 2) (hv : v.dot v = R ^ 2) :
    angle u v = Real.arccos (u.dot v / R ^ 2) ∧ u.dot v = R ^ 2 * Real.cos (angle u v) := by
  have e : angle u v = Real.arccos (u.dot v / R ^ 2) := by
    rw [angle, Vec.norm, Vec.norm, hu, hv, Real.sqrt_sq hR.le, div_div]
    congr 2; ring
  refine ⟨e, ?_⟩
  have h1 : u.dot v ≤ R ^ 2 := by
    unfold Vec.dot at *
    nlinarith [sq_nonneg (u.x - v.x), sq_nonneg (u.y - v.y), sq_nonneg (u.z - v.z)]
  have h2 : -R ^ 2 ≤ u.dot v := by
    unfold Vec.dot at *
    nlinarith [sq_nonneg (u.x + v.x), sq_nonneg (u.y + v.y), sq_nonneg (u.z + v.z)]
  have hR2 : 0 < R ^ 2 := by positivity
  rw [e, Real.cos_arccos]
  · field_simp
  · rw [le_div_iff₀ hR2]; linarith
  · rw [div_le_one hR2]; exact h1

theorem dot_self_of_norm {u : Vec} {R : ℝ} (h : u.norm = R) : u.dot u = R ^ 2 := by
  rw [← h, Vec.norm, Real.sq_sqrt]
  unfold Vec.dot; nlinarith [sq_nonneg u.x, sq_nonneg u.y, sq_nonneg u.z]

/-- **C47.** Between two points which are neither equal nor antipodal, `shortest_projected_path` gives `res` points on the
sphere; the `i`-th has angle `i/(res-1)` of the whole angle from the start, the points have equal angles between them
and the first and last one are `start` and `end`. -/
theorem C47_path {R : ℝ} (hR : 0 < R) {u v : Vec} (hu : u.norm = R) (hv : v.norm = R) (hA : Real.sin (angle u v) ≠ 0)
    {res : Nat} (hres : 2 ≤ res) :
    ∃ path, projectedPath u v res = .ok path ∧ path.length = res ∧ path[0]? = some u ∧ path[res - 1]? = some v ∧
      (∀ p ∈ path, p.norm = R) ∧
      ∀ (i j : Nat) (p q : Vec), path[i]? = some p → path[j]? = some q → i ≤ j →
        angle p q = angle u v * (((j : ℝ) - (i : ℝ)) / ((res : ℝ) - 1)) := by
  have hu' := dot_self_of_norm hu
  have hv' := dot_self_of_norm hv
  obtain ⟨-, huv⟩ := angle_of_norm hR hu' hv'
  have hdot := fun a b => arc_dot hu' hv' huv hA a b
  set A := angle u v with hAdef
  have hAπ : A ≤ Real.pi := Real.arccos_le_pi _
  have hA0 : 0 ≤ A := Real.arccos_nonneg _
  have hr1 : (0 : ℝ) < (res : ℝ) - 1 := by
    have : (2 : ℝ) ≤ res := by exact_mod_cast hres
    linarith
  have hnorm : ∀ a, (arc u v A a).dot (arc u v A a) = R ^ 2 := fun a => by rw [hdot]; simp
  have hget : ∀ (i : Nat) (p : Vec), ((Injector.linspace 0 A res).map (arc u v A))[i]? = some p →
      i < res ∧ p = arc u v A ((i : ℝ) * (A / ((res : ℝ) - 1))) := by
    intro i p h
    rw [Injector.linspace, if_neg (by omega)] at h
    simp only [List.getElem?_map, Option.map_map, Option.map_eq_some_iff] at h
    obtain ⟨k, hk, hp⟩ := h
    rw [List.getElem?_eq_some_iff] at hk
    obtain ⟨h1, h2⟩ := hk
    simp only [List.length_range, List.getElem_range] at h1 h2
    subst h2
    refine ⟨h1, ?_⟩
    rw [← hp]
    simp
  have hval : ∀ i, i < res → ((Injector.linspace 0 A res).map (arc u v A))[i]? =
      some (arc u v A ((i : ℝ) * (A / ((res : ℝ) - 1)))) := by
    intro i hi
    rw [Injector.linspace, if_neg (by omega)]
    simp [hi]
  refine ⟨(Injector.linspace 0 A res).map (arc u v A), ?_, ?_, ?_, ?_, ?_, ?_⟩
  · rw [projectedPath, if_neg hA]; rfl
  · rw [List.length_map, Injector.linspace, if_neg (by omega)]; simp
  · rw [hval 0 (by omega)]
    simp [arc, Vec.smul, Vec.add]
  · rw [hval (res - 1) (by omega)]
    have e : ((res - 1 : Nat) : ℝ) * (A / ((res : ℝ) - 1)) = A := by
      rw [Nat.cast_sub (by omega)]
      push_cast
      field_simp
    rw [e]
    congr 1
    unfold arc Vec.smul Vec.add
    ext <;> simp only <;> field_simp <;> ring
  · intro p hp
    obtain ⟨a, -, rfl⟩ := List.mem_map.1 hp
    rw [Vec.norm, hnorm, Real.sqrt_sq hR.le]
  · intro i j p q hp hq hij
    obtain ⟨hi, rfl⟩ := hget i p hp
    obtain ⟨hj, rfl⟩ := hget j q hq
    rw [(angle_of_norm hR (hnorm _) (hnorm _)).1, hdot, Real.cos_sub, mul_div_assoc, mul_div_cancel₀ _ (by positivity),
      ← Real.cos_sub, ← Real.cos_neg]
    have e : -((i : ℝ) * (A / ((res : ℝ) - 1)) - (j : ℝ) * (A / ((res : ℝ) - 1))) =
        A * (((j : ℝ) - (i : ℝ)) / ((res : ℝ) - 1)) := by ring
    rw [e]
    have hij' : (i : ℝ) ≤ j := by exact_mod_cast hij
    have hj' : (j : ℝ) + 1 ≤ res := by exact_mod_cast hj
    have hi0 : (0 : ℝ) ≤ i := Nat.cast_nonneg i
    have hfrac : ((j : ℝ) - (i : ℝ)) / ((res : ℝ) - 1) ≤ 1 := by rw [div_le_one hr1]; linarith
    have hfrac0 : 0 ≤ ((j : ℝ) - (i : ℝ)) / ((res : ℝ) - 1) := div_nonneg (by linarith) hr1.le
    apply Real.arccos_cos
    · positivity
    · exact le_trans (mul_le_of_le_one_right hA0 hfrac) hAπ

/-- The angle between two places is the distance, up to the radius. -/
theorem angle_project {R : ℝ} (hR : 0 < R) (p q : ℝ × ℝ) : R * angle (project R p) (project R q) = distance R p q := by
  have h1 := dot_self_of_norm (project_norm hR p)
  have h2 := dot_self_of_norm (project_norm hR q)
  rw [(angle_of_norm hR h1 h2).1, distance, angle_onBall]
  congr 2
  unfold project Vec.smul Vec.dot
  field_simp

/-- **C47.** `shortest_path` between two places which are neither equal nor antipodal (and no poles) starts at `start`,
ends at `end`, consists of `res` places, and the distances between consecutive places are the distance of `start` and
`end` divided by `res - 1`; so they sum up to it. -/
theorem C47_shortest_path {R : ℝ} (hR : 0 < R) {p q : ℝ × ℝ} (hp1 : -90 < p.1) (hp2 : p.1 < 90) (hp3 : -180 < p.2)
    (hp4 : p.2 ≤ 180) (hq1 : -90 < q.1) (hq2 : q.1 < 90) (hq3 : -180 < q.2) (hq4 : q.2 ≤ 180)
    (h0 : distance R p q ≠ 0) (hπ : distance R p q ≠ Real.pi * R) {res : Nat} (hres : 2 ≤ res) :
    ∃ path, shortestPath R p q res = .ok path ∧ path.length = res ∧ path[0]? = some p ∧ path[res - 1]? = some q ∧
      ∀ (i : Nat) (a b : ℝ × ℝ), path[i]? = some a → path[i + 1]? = some b →
        distance R a b = distance R p q / ((res : ℝ) - 1) := by
  have ha := angle_project hR p q
  have hsin : Real.sin (angle (project R p) (project R q)) ≠ 0 := by
    apply ne_of_gt
    apply Real.sin_pos_of_pos_of_lt_pi
    · apply lt_of_le_of_ne (Real.arccos_nonneg _)
      intro h
      rw [← ha] at h0
      apply h0
      rw [angle, ← h, mul_zero]
    · apply lt_of_le_of_ne (Real.arccos_le_pi _)
      intro h
      rw [← ha] at hπ
      apply hπ
      rw [angle, h, mul_comm]
  obtain ⟨path, h1, h2, h3, h4, h5, h6⟩ := C47_path hR (project_norm hR p) (project_norm hR q) hsin hres
  refine ⟨path.map (latLon R), by rw [shortestPath, h1]; rfl, by simpa using h2, ?_, ?_, ?_⟩
  · rw [List.getElem?_map, h3, Option.map_some, C47_lat_lon hR hp1 hp2 hp3 hp4]
  · rw [List.getElem?_map, h4, Option.map_some, C47_lat_lon hR hq1 hq2 hq3 hq4]
  · intro i a b hia hib
    rw [List.getElem?_map, Option.map_eq_some_iff] at hia hib
    obtain ⟨u, hu, rfl⟩ := hia
    obtain ⟨v, hv, rfl⟩ := hib
    rw [← angle_project hR, C47_project hR (h5 u (List.mem_of_getElem? hu)),
      C47_project hR (h5 v (List.mem_of_getElem? hv)), h6 i (i + 1) u v hu hv (by omega), ← ha]
    push_cast
    ring

/-- From the equator on the zero meridian to 90 degrees east. -/
example (R : ℝ) (hR : 0 < R) : ∃ path, shortestPath R (0, 0) (0, 90) 5 = .ok path ∧ path[0]? = some (0, 0) ∧
    path[4]? = some (0, 90) := by
  have e : (90 : ℝ) * Real.pi / 180 = Real.pi / 2 := by ring
  have hd : distance R (0, 0) (0, 90) = R * (Real.pi / 2) := by
    rw [distance, angle_onBall]
    simp [onBall, Vec.dot, deg2rad, e]
  have hpi := Real.pi_pos
  obtain ⟨path, h1, h2, h3, h4, h5⟩ := C47_shortest_path (p := (0, 0)) (q := (0, 90)) (res := 5) hR (by norm_num) (by norm_num)
    (by norm_num) (by norm_num) (by norm_num) (by norm_num) (by norm_num) (by norm_num) (by rw [hd]; positivity)
    (by rw [hd]; intro h; nlinarith) (by norm_num)
  exact ⟨path, h1, h3, h4⟩

/-- **C47.** There is no path from a place to itself: the method raises an exception. -/
theorem C47_same_place {R : ℝ} (hR : 0 < R) (p : ℝ × ℝ) (res : Nat) : ∃ e, shortestPath R p p res = .error e := by
  have h := dot_self_of_norm (project_norm hR p)
  have : angle (project R p) (project R p) = 0 := by
    rw [(angle_of_norm hR h h).1, h, div_self (by positivity), Real.arccos_one]
  exact ⟨.otherError, by rw [shortestPath, projectedPath, if_pos (by rw [this, Real.sin_zero])]; rfl⟩

/-! ### C67 -/

theorem tanh_arsinh (u : ℝ) : Real.tanh (Real.arsinh u) = u / Real.sqrt (1 + u ^ 2) := by
  rw [Real.tanh_eq_sinh_div_cosh, Real.sinh_arsinh, Real.cosh_arsinh]

/-- `FlatMercatorProjection` with a virtual zero point on the virtual equator. -/
structure Flat.Orthogonal (f : Flat) : Prop where
  radius : 0 < f.radius
  zero : f.zero.dot f.zero = 1
  pole : f.pole.dot f.pole = 1
  right : f.zero.dot f.pole = 0
  east : f.east = f.pole.cross f.zero

theorem Flat.Orthogonal.det {f : Flat} (h : f.Orthogonal) : f.zero.dot (f.east.cross f.pole) = 1 := by
  have h1 := h.zero
  have h2 := h.pole
  have h3 := h.right
  rw [h.east]
  have : f.zero.dot ((f.pole.cross f.zero).cross f.pole) =
      f.zero.dot f.zero * f.pole.dot f.pole - f.zero.dot f.pole ^ 2 := by
    unfold Vec.dot Vec.cross; ring
  rw [this, h1, h2, h3]; norm_num

theorem Flat.Orthogonal.applyInv_apply {f : Flat} (h : f.Orthogonal) (v : Vec) : f.applyInv (f.apply v) = v := by
  have hd := h.det
  unfold Flat.applyInv
  simp only [hd, div_one]
  have h' := hd
  unfold Vec.dot Vec.cross at h'
  unfold Flat.apply Vec.dot Vec.cross Vec.smul Vec.add
  ext
  · simp only; linear_combination v.x * h'
  · simp only; linear_combination v.y * h'
  · simp only; linear_combination v.z * h'

theorem Flat.Orthogonal.apply_dot {f : Flat} (h : f.Orthogonal) (v : Vec) : (f.apply v).dot (f.apply v) = v.dot v := by
  have h1 := h.zero
  have h2 := h.pole
  have h3 := h.right
  have he : f.east.dot f.east = 1 := by
    rw [h.east]
    have : (f.pole.cross f.zero).dot (f.pole.cross f.zero) =
        f.zero.dot f.zero * f.pole.dot f.pole - f.zero.dot f.pole ^ 2 := by
      unfold Vec.dot Vec.cross; ring
    rw [this, h1, h2, h3]; norm_num
  have e1 : f.east.dot f.zero = 0 := by rw [h.east]; unfold Vec.dot Vec.cross; ring
  have e2 : f.east.dot f.pole = 0 := by rw [h.east]; unfold Vec.dot Vec.cross; ring
  have : (f.apply v).dot (f.apply v) = v.x ^ 2 * f.zero.dot f.zero + v.y ^ 2 * f.east.dot f.east +
      v.z ^ 2 * f.pole.dot f.pole + 2 * v.x * v.y * f.east.dot f.zero + 2 * v.x * v.z * f.zero.dot f.pole +
      2 * v.y * v.z * f.east.dot f.pole := by
    unfold Flat.apply Vec.dot Vec.smul Vec.add; ring
  rw [this, h1, h2, h3, he, e1, e2]
  unfold Vec.dot; ring

/-- **C67** (partial: the virtual zero point must be on the virtual equator, see `C67_false`). `lat_lon` of a
`FlatMercatorProjection` inverts `project` for every place which is neither a pole nor one of the poles of the projection
(where the projection is infinite). -/
theorem C67_round_trip_partial {f : Flat} (h : f.Orthogonal) {p : ℝ × ℝ} (h1 : -90 < p.1) (h2 : p.1 < 90)
    (h3 : -180 < p.2) (h4 : p.2 ≤ 180) (hz : |(f.apply (onBall p)).z| < 1) : f.latLon (f.project p) = p := by
  have hR := h.radius
  have hunit : (f.apply (onBall p)).dot (f.apply (onBall p)) = 1 := by rw [h.apply_dot, onBall_dot_self]
  set w := f.apply (onBall p) with hw
  obtain ⟨z1, z2⟩ := abs_lt.1 hz
  have a1 : -(Real.pi / 2) < Real.arcsin w.z := Real.neg_pi_div_two_lt_arcsin.2 z1
  have a2 : Real.arcsin w.z < Real.pi / 2 := Real.arcsin_lt_pi_div_two.2 z2
  have hcos := Real.cos_pos_of_mem_Ioo ⟨a1, a2⟩
  have key : Real.tanh (Real.arsinh (Real.tan (Real.arcsin w.z))) = Real.sin (Real.arcsin w.z) := by
    rw [tanh_arsinh]; exact Real.tan_div_sqrt_one_add_tan_sq hcos
  have e : (rad2deg (Real.arcsin (Real.tanh ((f.project p).2 / f.radius))), rad2deg ((f.project p).1 / f.radius)) =
      onLatLon w := by
    unfold Flat.project onLatLon
    simp only [deg2rad_rad2deg, ← hw]
    rw [mul_div_cancel_left₀ _ hR.ne', mul_div_cancel_left₀ _ hR.ne', key, Real.arcsin_sin a1.le a2.le]
  rw [Flat.latLon, e, onBall_onLatLon hunit, hw, h.applyInv_apply, onLatLon_onBall h1 h2 h3 h4]

/-- **C67.** The default arguments give an orthogonal projection. -/
theorem C67_default {radius : ℝ} (hr : 0 < radius) :
    ∃ f, mkFlat (90, 0) (0, 0) radius = .ok f ∧ f.Orthogonal ∧ ∀ v, f.apply v = v := by
  have e : (90 : ℝ) * Real.pi / 180 = Real.pi / 2 := by ring
  have hp : onBall (90, 0) = ⟨0, 0, 1⟩ := by simp [onBall, deg2rad, e]
  have hz : onBall (0, 0) = ⟨1, 0, 0⟩ := by simp [onBall, deg2rad]
  have hf : mkFlat (90, 0) (0, 0) radius = .ok ⟨⟨1, 0, 0⟩, ⟨0, 1, 0⟩, ⟨0, 0, 1⟩, radius⟩ := by
    unfold mkFlat
    rw [hp, hz]
    simp [Vec.dot, Vec.cross]
  refine ⟨_, hf, ⟨hr, by simp [Vec.dot], by simp [Vec.dot], by simp [Vec.dot], by simp [Vec.cross]⟩, ?_⟩
  intro v
  simp [Flat.apply, Vec.smul, Vec.add]

/-- **C67.** With the default arguments every place except the poles is recovered. -/
theorem C67_default_round_trip {radius : ℝ} (hr : 0 < radius) {f : Flat} (hf : mkFlat (90, 0) (0, 0) radius = .ok f)
    {p : ℝ × ℝ} (h1 : -90 < p.1) (h2 : p.1 < 90) (h3 : -180 < p.2) (h4 : p.2 ≤ 180) : f.latLon (f.project p) = p := by
  obtain ⟨f', e, ho, hid⟩ := C67_default hr
  rw [hf] at e
  simp only [Except.ok.injEq] at e
  subst e
  refine C67_round_trip_partial ho h1 h2 h3 h4 ?_
  rw [hid]
  have hpi := Real.pi_pos
  have a1 : -(Real.pi / 2) < deg2rad p.1 := by unfold deg2rad; rw [lt_div_iff₀ (by norm_num)]; nlinarith
  have a2 : deg2rad p.1 < Real.pi / 2 := by unfold deg2rad; rw [div_lt_iff₀ (by norm_num)]; nlinarith
  have hc := Real.cos_pos_of_mem_Ioo ⟨a1, a2⟩
  have := Real.sin_sq_add_cos_sq (deg2rad p.1)
  simp only [onBall]
  rw [← sq_lt_one_iff_abs_lt_one]
  nlinarith

example : ∃ f, mkFlat (90, 0) (0, 0) 3440 = .ok f ∧ f.latLon (f.project (54, 10)) = (54, 10) := by
  obtain ⟨f, hf, -, -⟩ := C67_default (radius := 3440) (by norm_num)
  exact ⟨f, hf, C67_default_round_trip (by norm_num) hf (by norm_num) (by norm_num) (by norm_num) (by norm_num)⟩

/-- The distances of the projections, `nan` and infinity left aside; see `C67_distance`. -/
theorem distance_metric (f : Flat) (p q r : ℝ × ℝ) :
    f.distance p q = f.distance q p ∧ 0 ≤ f.distance p q ∧ f.distance p p = 0 ∧
    f.distance p r ≤ f.distance p q + f.distance q r := by
  refine ⟨?_, Real.sqrt_nonneg _, by simp [Flat.distance], ?_⟩
  · unfold Flat.distance; congr 1; ring
  · unfold Flat.distance
    generalize f.project p = a
    generalize f.project q = b
    generalize f.project r = c
    have key : ∀ x y x' y' : ℝ, Real.sqrt ((x + x') ^ 2 + (y + y') ^ 2) ≤
        Real.sqrt (x ^ 2 + y ^ 2) + Real.sqrt (x' ^ 2 + y' ^ 2) := by
      intro x y x' y'
      rw [Real.sqrt_le_left (by positivity)]
      rw [add_sq (Real.sqrt _), Real.sq_sqrt (by positivity), Real.sq_sqrt (by positivity), mul_assoc,
        ← Real.sqrt_mul (by positivity)]
      have : |x * x' + y * y'| ≤ Real.sqrt ((x ^ 2 + y ^ 2) * (x' ^ 2 + y' ^ 2)) := by
        apply Real.abs_le_sqrt
        nlinarith [sq_nonneg (x * y' - y * x')]
      have := (abs_le.1 this).2
      nlinarith
    have := key (a.1 - b.1) (a.2 - b.2) (b.1 - c.1) (b.2 - c.2)
    simpa using this

/-- **C67** is false if only the virtual north pole is moved, e.g. to 60 degrees north: the default virtual zero point is
not on the new equator, and the place 30N 90E is not recovered. -/
theorem C67_false {radius : ℝ} (hr : 0 < radius) :
    ∃ f, mkFlat (60, 0) (0, 0) radius = .ok f ∧ f.latLon (f.project (30, 90)) ≠ (30, 90) := by
  have e60 : (60 : ℝ) * Real.pi / 180 = Real.pi / 3 := by ring
  have e30 : (30 : ℝ) * Real.pi / 180 = Real.pi / 6 := by ring
  have e90 : (90 : ℝ) * Real.pi / 180 = Real.pi / 2 := by ring
  have h3 : Real.sqrt 3 * Real.sqrt 3 = 3 := Real.mul_self_sqrt (by norm_num)
  have hp : onBall (60, 0) = ⟨1 / 2, 0, Real.sqrt 3 / 2⟩ := by simp [onBall, deg2rad, e60]
  have hz : onBall (0, 0) = ⟨1, 0, 0⟩ := by simp [onBall, deg2rad]
  have hq : onBall (30, 90) = ⟨0, Real.sqrt 3 / 2, 1 / 2⟩ := by simp [onBall, deg2rad, e30, e90]
  have hf : mkFlat (60, 0) (0, 0) radius =
      .ok ⟨⟨1, 0, 0⟩, ⟨0, Real.sqrt 3 / 2, 0⟩, ⟨1 / 2, 0, Real.sqrt 3 / 2⟩, radius⟩ := by
    unfold mkFlat
    rw [hp, hz]
    simp [Vec.dot, Vec.cross]
  refine ⟨_, hf, ?_⟩
  intro h
  have h2 := congrArg Prod.snd h
  simp only [Flat.latLon, Flat.project, onLatLon] at h2
  rw [hq] at h2
  have ha : Flat.apply ⟨⟨1, 0, 0⟩, ⟨0, Real.sqrt 3 / 2, 0⟩, ⟨1 / 2, 0, Real.sqrt 3 / 2⟩, radius⟩
      ⟨0, Real.sqrt 3 / 2, 1 / 2⟩ = ⟨1 / 4, 3 / 4, Real.sqrt 3 / 4⟩ := by
    simp only [Flat.apply, Vec.smul, Vec.add]
    ext
    · simp only; ring
    · simp only; linear_combination h3 / 4
    · simp only; ring
  rw [ha] at h2
  simp only [deg2rad_rad2deg, mul_div_cancel_left₀ _ hr.ne'] at h2
  set θ := Complex.arg ⟨1 / 4, 3 / 4⟩ with hθ
  have hcosθ : Real.cos θ ^ 2 = 1 / 10 := by
    have h1 := Complex.norm_mul_cos_arg (⟨1 / 4, 3 / 4⟩ : ℂ)
    have hn : ‖(⟨1 / 4, 3 / 4⟩ : ℂ)‖ ^ 2 = 10 / 16 := by
      rw [← Complex.normSq_eq_norm_sq, Complex.normSq_mk]; norm_num
    rw [← hθ] at h1
    simp only at h1
    have h4 : ‖(⟨1 / 4, 3 / 4⟩ : ℂ)‖ ^ 2 * Real.cos θ ^ 2 = 1 / 16 := by rw [← mul_pow, h1]; norm_num
    rw [hn] at h4
    linarith
  have hs3 : Real.sqrt 3 / 4 < 1 := by
    have : Real.sqrt 3 < 2 := by rw [Real.sqrt_lt' (by norm_num)]; norm_num
    linarith
  have hs0 : 0 ≤ Real.sqrt 3 / 4 := by positivity
  have hφ : Real.arcsin (Real.tanh (Real.arsinh (Real.tan (Real.arcsin (Real.sqrt 3 / 4))))) =
      Real.arcsin (Real.sqrt 3 / 4) := by
    have a1 : -(Real.pi / 2) < Real.arcsin (Real.sqrt 3 / 4) := Real.neg_pi_div_two_lt_arcsin.2 (by linarith)
    have a2 : Real.arcsin (Real.sqrt 3 / 4) < Real.pi / 2 := Real.arcsin_lt_pi_div_two.2 hs3
    rw [tanh_arsinh, Real.tan_div_sqrt_one_add_tan_sq (Real.cos_pos_of_mem_Ioo ⟨a1, a2⟩),
      Real.arcsin_sin a1.le a2.le]
  rw [hφ] at h2
  have hback : ∀ x : ℝ, rad2deg x = 90 → x = Real.pi / 2 := by
    intro x hx
    rw [← deg2rad_rad2deg x, hx, deg2rad, e90]
  have h5 := hback _ h2
  rw [Complex.arg_eq_pi_div_two_iff] at h5
  have h6 := h5.1
  simp only [Flat.applyInv, onBall, Vec.dot, Vec.cross, deg2rad_rad2deg, Real.sin_arcsin (by linarith : -1 ≤ Real.sqrt 3 / 4)
    hs3.le] at h6
  set c := Real.cos (Real.arcsin (Real.sqrt 3 / 4)) with hc
  have hcc : c ^ 2 = 13 / 16 := by
    rw [hc, Real.cos_arcsin, Real.sq_sqrt (by nlinarith)]
    linear_combination (-1 / 16) * h3
  have hdet : (1 * (Real.sqrt 3 / 2 * (Real.sqrt 3 / 2) - 0 * 0) + 0 * (0 * (1 / 2) - 0 * (Real.sqrt 3 / 2)) +
      0 * (0 * 0 - Real.sqrt 3 / 2 * (1 / 2)) : ℝ) = 3 / 4 := by linear_combination h3 / 4
  rw [hdet, div_eq_zero_iff, or_iff_left (by norm_num)] at h6
  have h7 : c * Real.cos θ = 1 / 4 := by
    ring_nf at h6
    nlinarith
  have h8 : c ^ 2 * Real.cos θ ^ 2 = 1 / 16 := by rw [← mul_pow, h7]; norm_num
  rw [hcc, hcosθ] at h8
  norm_num at h8

example : ∃ f, mkFlat (60, 0) (0, 0) 3440 = .ok f ∧ f.latLon (f.project (30, 90)) ≠ (30, 90) := C67_false (by norm_num)

end Verif.Globe
