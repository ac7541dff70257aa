import Verif.Props.Globe

/-!
# Property C67: for which virtual poles and zero points places are recovered
-/

namespace Verif.Globe

open Verif.Curve (rad2deg deg2rad)

theorem apply_applyInv {f : Flat} (hd : f.zero.dot (f.east.cross f.pole) ≠ 0) (w : Vec) : f.apply (f.applyInv w) = w := by
  unfold Flat.applyInv
  set d := f.zero.dot (f.east.cross f.pole) with hdef
  have h := hdef
  unfold Vec.dot Vec.cross at h
  unfold Flat.apply Vec.dot Vec.cross Vec.smul Vec.add
  ext
  · simp only; field_simp; linear_combination -w.x * h
  · simp only; field_simp; linear_combination -w.y * h
  · simp only; field_simp; linear_combination -w.z * h

theorem onBall_onLatLon_facts {w : Vec} (hz : |w.z| < 1) :
    (onBall (onLatLon w)).dot (onBall (onLatLon w)) = 1 ∧ (onBall (onLatLon w)).z = w.z ∧
      (onBall (onLatLon w)).x * w.y = (onBall (onLatLon w)).y * w.x := by
  obtain ⟨z1, z2⟩ := abs_lt.1 hz
  refine ⟨onBall_dot_self _, ?_, ?_⟩
  · simp only [onBall, onLatLon, deg2rad_rad2deg]
    exact Real.sin_arcsin z1.le z2.le
  · simp only [onBall, onLatLon, deg2rad_rad2deg]
    have hx := Complex.norm_mul_cos_arg (⟨w.x, w.y⟩ : ℂ)
    have hy := Complex.norm_mul_sin_arg (⟨w.x, w.y⟩ : ℂ)
    simp only at hx hy
    by_cases h0 : ‖(⟨w.x, w.y⟩ : ℂ)‖ = 0
    · have := norm_eq_zero.1 h0
      have hx0 : w.x = 0 := congrArg Complex.re this
      have hy0 : w.y = 0 := congrArg Complex.im this
      rw [hx0, hy0]; ring
    · apply mul_left_cancel₀ h0
      linear_combination Real.cos (Real.arcsin w.z) * w.y * hx - Real.cos (Real.arcsin w.z) * w.x * hy

/-- What it means that a place is recovered. -/
theorem recovered {f : Flat} (hR : 0 < f.radius) (hd : f.zero.dot (f.east.cross f.pole) ≠ 0) {p : ℝ × ℝ} (h1 : -90 < p.1)
    (h2 : p.1 < 90) (hz : |(f.apply (onBall p)).z| < 1) (h : f.latLon (f.project p) = p) :
    ∃ m : ℝ, let v : Vec := ⟨m * Real.cos (deg2rad p.2), m * Real.sin (deg2rad p.2), (onBall p).z⟩
      (f.apply v).dot (f.apply v) = 1 ∧ (f.apply v).z = (f.apply (onBall p)).z ∧
      (f.apply v).x * (f.apply (onBall p)).y = (f.apply v).y * (f.apply (onBall p)).x := by
  set w := f.apply (onBall p) with hw
  obtain ⟨z1, z2⟩ := abs_lt.1 hz
  have a1 : -(Real.pi / 2) < Real.arcsin w.z := Real.neg_pi_div_two_lt_arcsin.2 z1
  have a2 : Real.arcsin w.z < Real.pi / 2 := Real.arcsin_lt_pi_div_two.2 z2
  have hcos := Real.cos_pos_of_mem_Ioo ⟨a1, a2⟩
  have key : Real.tanh (Real.arsinh (Real.tan (Real.arcsin w.z))) = Real.sin (Real.arcsin w.z) := by
    rw [tanh_arsinh]; exact Real.tan_div_sqrt_one_add_tan_sq hcos
  have e : (rad2deg (Real.arcsin (Real.tanh ((f.project p).2 / f.radius))), rad2deg ((f.project p).1 / f.radius)) =
      onLatLon w := by
    unfold Flat.project onLatLon
    simp only [deg2rad_rad2deg, ← hw]
    rw [mul_div_cancel_left₀ _ hR.ne', mul_div_cancel_left₀ _ hR.ne', key, Real.arcsin_sin a1.le a2.le]
  rw [Flat.latLon, e] at h
  obtain ⟨b1, b2, b3⟩ := onBall_onLatLon_facts hz
  set w' := onBall (onLatLon w) with hw'
  set v := f.applyInv w' with hv
  have hfv : f.apply v = w' := apply_applyInv hd w'
  have hlat := congrArg Prod.fst h
  have hlon := congrArg Prod.snd h
  simp only [onLatLon] at hlat hlon
  have hlat' : Real.arcsin v.z = deg2rad p.1 := by rw [← hlat, deg2rad_rad2deg]
  have hlon' : Complex.arg ⟨v.x, v.y⟩ = deg2rad p.2 := by rw [← hlon, deg2rad_rad2deg]
  have hpi := Real.pi_pos
  have c1 : -(Real.pi / 2) < deg2rad p.1 := by unfold deg2rad; rw [lt_div_iff₀ (by norm_num)]; nlinarith
  have c2 : deg2rad p.1 < Real.pi / 2 := by unfold deg2rad; rw [div_lt_iff₀ (by norm_num)]; nlinarith
  have hvz : v.z = (onBall p).z := by
    have d1 : -1 < v.z := Real.neg_pi_div_two_lt_arcsin.1 (by rw [hlat']; exact c1)
    have d2 : v.z < 1 := Real.arcsin_lt_pi_div_two.1 (by rw [hlat']; exact c2)
    have := Real.sin_arcsin d1.le d2.le
    rw [hlat'] at this
    exact this.symm
  have hx := Complex.norm_mul_cos_arg (⟨v.x, v.y⟩ : ℂ)
  have hy := Complex.norm_mul_sin_arg (⟨v.x, v.y⟩ : ℂ)
  simp only [hlon'] at hx hy
  refine ⟨‖(⟨v.x, v.y⟩ : ℂ)‖, ?_⟩
  have ev : (⟨‖(⟨v.x, v.y⟩ : ℂ)‖ * Real.cos (deg2rad p.2), ‖(⟨v.x, v.y⟩ : ℂ)‖ * Real.sin (deg2rad p.2), (onBall p).z⟩ : Vec) = v := by
    rw [hx, hy, ← hvz]
  simp only [ev, hfv]
  exact ⟨b1, b2, b3⟩

theorem abs_lt_one_of_mul {x : ℝ} (h : x * x < 1) : |x| < 1 := by
  rw [abs_lt]; constructor <;> nlinarith

theorem squares_zero {a b : ℝ} (h : a * a + b * b = 0) : a = 0 ∧ b = 0 :=
  ⟨by nlinarith [mul_self_nonneg a, mul_self_nonneg b], by nlinarith [mul_self_nonneg a, mul_self_nonneg b]⟩

theorem half_root : Real.sqrt 2 / 2 * (Real.sqrt 2 / 2) = 1 / 2 := by
  have : Real.sqrt 2 * Real.sqrt 2 = 2 := Real.mul_self_sqrt (by norm_num)
  linear_combination this / 4

theorem deg2rad_ninety : deg2rad 90 = Real.pi / 2 := by unfold deg2rad; ring

theorem deg2rad_45 : deg2rad 45 = Real.pi / 4 := by unfold deg2rad; ring

theorem deg2rad_neg_45 : deg2rad (-45) = -(Real.pi / 4) := by unfold deg2rad; ring

/-- **C67**: a `FlatMercatorProjection` recovers all places (except poles and the poles of the projection) exactly if the virtual
zero point is on the virtual equator. -/
theorem C67_exactly {northpole zero : ℝ × ℝ} {radius : ℝ} (hr : 0 < radius) {f : Flat}
    (hf : mkFlat northpole zero radius = .ok f) :
    (∀ p : ℝ × ℝ, -90 < p.1 → p.1 < 90 → -180 < p.2 → p.2 ≤ 180 → |(f.apply (onBall p)).z| < 1 → f.latLon (f.project p) = p) ↔
      (onBall zero).dot (onBall northpole) = 0 := by
  unfold mkFlat at hf
  simp only at hf
  split at hf
  · cases hf
  rename_i hd
  cases hf
  set z := onBall zero with hz
  set n := onBall northpole with hn
  have hzz : z.dot z = 1 := onBall_dot_self zero
  have hnn : n.dot n = 1 := onBall_dot_self northpole
  constructor
  swap
  · intro h0 p h1 h2 h3 h4 h5
    exact C67_round_trip_partial ⟨hr, hzz, hnn, h0, rfl⟩ h1 h2 h3 h4 h5
  intro H
  by_contra hc
  have R := fun (p : ℝ × ℝ) h1 h2 h3 h4 hw => recovered (f := ⟨z, n.cross z, n, radius⟩) hr hd h1 h2 hw (H p h1 h2 h3 h4 hw)
  have hpi := Real.pi_pos
  unfold Vec.dot at hzz hnn hc hd
  obtain ⟨zx, zy, zz⟩ := z
  obtain ⟨nx, ny, nz⟩ := n
  simp only [Vec.cross] at hd hzz hnn hc
  set c := zx * nx + zy * ny + zz * nz with hcdef
  set ex := ny * zz - nz * zy with hex
  set ey := nz * zx - nx * zz with hey
  set ez := nx * zy - ny * zx with hez
  have hee : ex * ex + ey * ey + ez * ez = 1 - c ^ 2 := by
    rw [hex, hey, hez, hcdef]
    linear_combination (nx * nx + ny * ny + nz * nz) * hzz + hnn
  have hez0 : ex * zx + ey * zy + ez * zz = 0 := by rw [hex, hey, hez]; ring
  have hen0 : ex * nx + ey * ny + ez * nz = 0 := by rw [hex, hey, hez]; ring
  have hcpos : 0 < c ^ 2 := by positivity
  have hs2 : Real.sqrt 2 * Real.sqrt 2 = 2 := Real.mul_self_sqrt (by norm_num)
  have hspos : 0 < Real.sqrt 2 := Real.sqrt_pos.2 (by norm_num)
  by_cases h1 : ez = 0
  · by_cases h2 : nx = 0 ∧ ny = 0
    · -- the pole is not moved
      obtain ⟨rfl, rfl⟩ := h2
      have hcz : c = zz * nz := by rw [hcdef]; ring
      have hnz2 : nz * nz = 1 := by linarith
      have hzz0 : zz ≠ 0 := by rintro e; apply hc; rw [hcz, e]; ring
      have hzle : zz * zz ≤ 1 := by
        have q1 := mul_self_nonneg zx
        have q2 := mul_self_nonneg zy
        linarith
      have absurd' : ∀ lat : ℝ, -90 < lat → lat < 90 → Real.cos (deg2rad lat) * Real.cos (deg2rad lat) = 1 / 2 →
          Real.sin (deg2rad lat) * Real.sin (deg2rad lat) = 1 / 2 → Real.cos (deg2rad lat) * Real.sin (deg2rad lat) * c < 0 → False := by
        intro lat l1 l2 hcos hsin hneg
        have hw : |((⟨⟨zx, zy, zz⟩, ⟨ex, ey, ez⟩, ⟨0, 0, nz⟩, radius⟩ : Flat).apply (onBall (lat, 0))).z| < 1 := by
          simp only [Flat.apply, onBall, Vec.smul, Vec.add]
          rw [show deg2rad 0 = 0 by simp [deg2rad], Real.cos_zero, Real.sin_zero]
          apply abs_lt_one_of_mul
          rw [hcz] at hneg
          clear R H hd hee hez0 hen0
          have q1 : zz * Real.cos (deg2rad lat) * (zz * Real.cos (deg2rad lat)) = zz * zz / 2 := by linear_combination zz * zz * hcos
          have q2 : nz * Real.sin (deg2rad lat) * (nz * Real.sin (deg2rad lat)) = 1 / 2 := by
            linear_combination nz * nz * hsin + hnz2 / 2
          linarith
        obtain ⟨m, m1, m2, -⟩ := R (lat, 0) l1 l2 (by norm_num) (by norm_num) hw
        simp only [Flat.apply, onBall, Vec.smul, Vec.add, Vec.dot, Vec.cross] at m1 m2
        rw [show deg2rad 0 = 0 by simp [deg2rad], Real.cos_zero, Real.sin_zero] at m1 m2
        have hm : m = Real.cos (deg2rad lat) := by
          have : zz * (m - Real.cos (deg2rad lat)) = 0 := by linarith
          rcases mul_eq_zero.1 this with h | h
          · exact absurd h hzz0
          · linarith
        rw [hm] at m1
        have : 2 * (Real.cos (deg2rad lat) * Real.sin (deg2rad lat) * c) = 0 := by
          rw [hcz]
          linear_combination m1 - Real.cos (deg2rad lat) * Real.cos (deg2rad lat) * hzz - hcos
            - Real.sin (deg2rad lat) * Real.sin (deg2rad lat) * hnz2 - hsin
        linarith
      rcases lt_or_gt_of_ne hc with hneg | hpos
      · apply absurd' 45 (by norm_num) (by norm_num)
        · rw [deg2rad_45, Real.cos_pi_div_four]; exact half_root
        · rw [deg2rad_45, Real.sin_pi_div_four]; exact half_root
        · rw [deg2rad_45, Real.sin_pi_div_four, Real.cos_pi_div_four, half_root]; linarith
      · apply absurd' (-45) (by norm_num) (by norm_num)
        · rw [deg2rad_neg_45, Real.cos_neg, Real.cos_pi_div_four]; exact half_root
        · rw [deg2rad_neg_45, Real.sin_neg, Real.sin_pi_div_four, neg_mul_neg]; exact half_root
        · rw [deg2rad_neg_45, Real.sin_neg, Real.cos_neg, Real.sin_pi_div_four, Real.cos_pi_div_four, mul_neg, half_root]; linarith
    · have hw : |((⟨⟨zx, zy, zz⟩, ⟨ex, ey, ez⟩, ⟨nx, ny, nz⟩, radius⟩ : Flat).apply (onBall (45, 90))).z| < 1 := by
        simp only [Flat.apply, onBall, Vec.smul, Vec.add]
        rw [deg2rad_ninety, deg2rad_45, Real.cos_pi_div_two, Real.sin_pi_div_two, Real.sin_pi_div_four, Real.cos_pi_div_four, h1]
        apply abs_lt_one_of_mul
        have q1 := mul_self_nonneg nx
        have q2 := mul_self_nonneg ny
        have q3 : nz * (Real.sqrt 2 / 2) * (nz * (Real.sqrt 2 / 2)) = nz * nz / 2 := by linear_combination nz * nz * half_root
        linarith
      obtain ⟨m, m1, -, m3⟩ := R (45, 90) (by norm_num) (by norm_num) (by norm_num) (by norm_num) hw
      simp only [Flat.apply, onBall, Vec.smul, Vec.add, Vec.dot, Vec.cross] at m1 m3
      rw [deg2rad_ninety, deg2rad_45, Real.cos_pi_div_two, Real.sin_pi_div_two, Real.sin_pi_div_four] at m1 m3
      rw [Real.cos_pi_div_four] at m3
      rw [← hex, ← hey, ← hez, h1] at m1
      rw [← hex, ← hey] at m3
      rw [h1] at hee hen0
      have hcr : ex * ny - ey * nx ≠ 0 := by
        intro h0
        have hsq : (ex * ex + ey * ey) * (nx * nx + ny * ny) = 0 := by
          have : ex * nx + ey * ny = 0 := by linarith
          linear_combination (ex * ny - ey * nx) * h0 + (ex * nx + ey * ny) * this
        rcases mul_eq_zero.1 hsq with h | h
        · obtain ⟨e1, e2⟩ := squares_zero h
          apply hd
          rw [e1, e2, h1]; ring
        · exact h2 (squares_zero h)
      have hm : m = Real.sqrt 2 / 2 := by
        have : Real.sqrt 2 / 2 * (m - Real.sqrt 2 / 2) * (ex * ny - ey * nx) = 0 := by linear_combination m3
        rcases mul_eq_zero.1 this with h | h
        · rcases mul_eq_zero.1 h with h | h
          · linarith
          · linarith
        · exact absurd h hcr
      rw [hm] at m1
      have : c ^ 2 = 0 := by
        linear_combination (-2) * m1 + hee + hnn + (ex * ex + ey * ey + nx * nx + ny * ny + nz * nz) * hs2 / 2
          + hen0 * (Real.sqrt 2 * Real.sqrt 2)
      exact hcpos.ne' this
  · have hw : |((⟨⟨zx, zy, zz⟩, ⟨ex, ey, ez⟩, ⟨nx, ny, nz⟩, radius⟩ : Flat).apply (onBall (0, 90))).z| < 1 := by
      simp only [Flat.apply, onBall, Vec.smul, Vec.add]
      rw [deg2rad_ninety, show deg2rad 0 = 0 by simp [deg2rad], Real.cos_pi_div_two, Real.sin_pi_div_two, Real.sin_zero, Real.cos_zero]
      apply abs_lt_one_of_mul
      have q1 := mul_self_nonneg ex
      have q2 := mul_self_nonneg ey
      linarith
    obtain ⟨m, m1, m2, -⟩ := R (0, 90) (by norm_num) (by norm_num) (by norm_num) (by norm_num) hw
    simp only [Flat.apply, onBall, Vec.smul, Vec.add, Vec.dot, Vec.cross] at m1 m2
    rw [deg2rad_ninety, show deg2rad 0 = 0 by simp [deg2rad], Real.cos_pi_div_two, Real.sin_pi_div_two, Real.sin_zero] at m1 m2
    rw [Real.cos_zero] at m2
    rw [← hex, ← hey, ← hez] at m1
    rw [← hez] at m2
    have hm : m = 1 := by
      have : ez * (m - 1) = 0 := by linarith
      rcases mul_eq_zero.1 this with h | h
      · exact absurd h h1
      · linarith
    rw [hm] at m1
    have : c ^ 2 = 0 := by linear_combination hee - m1
    exact hcpos.ne' this

/-- The default arguments have the virtual zero point on the virtual equator, moving the pole to 60 degrees north does not. -/
example : (onBall (0, 0)).dot (onBall (90, 0)) = 0 ∧ (onBall (0, 0)).dot (onBall (60, 0)) ≠ 0 := by
  have e : deg2rad 60 = Real.pi / 3 := by unfold deg2rad; ring
  constructor
  · simp [onBall, Vec.dot, deg2rad]
    rw [show (90 : ℝ) * Real.pi / 180 = Real.pi / 2 by ring, Real.cos_pi_div_two]
  · simp [onBall, Vec.dot, e, show deg2rad 0 = 0 by simp [deg2rad]]

end Verif.Globe
