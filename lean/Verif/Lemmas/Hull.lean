import Mathlib.Analysis.Convex.Combination
import Mathlib.Analysis.Convex.Join
import Mathlib.Analysis.Convex.Hull
import Mathlib.Analysis.Normed.Module.Basic
import Mathlib.Analysis.SpecialFunctions.Trigonometric.Bounds
import Mathlib.Tactic.Linarith
import Mathlib.Tactic.LinearCombination
import Mathlib.Tactic.FieldSimp
import Verif.Model.Convex

/-! Lemmas about polar points and convex hulls in the plane. -/

namespace Verif.Convex

open Curve (deg2rad rad2deg)

/-- The sine of an angle in degrees. -/
noncomputable def sd (x : ℝ) : ℝ := Real.sin (deg2rad x)

theorem sd_pos {x : ℝ} (h0 : 0 < x) (h1 : x < 180) : 0 < sd x := by
  unfold sd deg2rad
  apply Real.sin_pos_of_pos_of_lt_pi
  · positivity
  · have := Real.pi_pos
    rw [div_lt_iff₀ (by norm_num)]; nlinarith

theorem sd_nonneg {x : ℝ} (h0 : 0 ≤ x) (h1 : x ≤ 180) : 0 ≤ sd x := by
  unfold sd deg2rad
  apply Real.sin_nonneg_of_nonneg_of_le_pi
  · positivity
  · have := Real.pi_pos
    rw [div_le_iff₀ (by norm_num)]; nlinarith

theorem sd_neg (x : ℝ) : sd (-x) = - sd x := by
  unfold sd deg2rad
  rw [← Real.sin_neg]; ring_nf

theorem sd_180 : sd 180 = 0 := by
  unfold sd deg2rad
  rw [show (180 : ℝ) * Real.pi / 180 = Real.pi by ring, Real.sin_pi]

theorem sd_sub_360 (x : ℝ) : sd (x - 360) = sd x := by
  unfold sd deg2rad
  rw [show (x - 360) * Real.pi / 180 = x * Real.pi / 180 - 2 * Real.pi by ring, Real.sin_sub_two_pi]

theorem unit_add_360 (x : ℝ) : unit (x + 360) = unit x := by
  unfold unit deg2rad
  rw [show (x + 360) * Real.pi / 180 = x * Real.pi / 180 + 2 * Real.pi by ring, Real.sin_add_two_pi,
    Real.cos_add_two_pi]

theorem polarPoint_eq (w b : ℝ) : polarPoint w b = b • unit w := rfl

theorem polarPoint_add_360 (w b : ℝ) : polarPoint (w + 360) b = polarPoint w b := by
  rw [polarPoint_eq, polarPoint_eq, unit_add_360]

theorem sd_sub (x y : ℝ) : sd (x - y) = (unit x).2 * (unit y).1 - (unit x).1 * (unit y).2 := by
  unfold sd unit
  rw [show deg2rad (x - y) = deg2rad x - deg2rad y by unfold deg2rad; ring, Real.sin_sub]

/-- A course as a combination of two others. -/
theorem unit_combination (a b d : ℝ) : sd (b - a) • unit d = sd (b - d) • unit a + sd (d - a) • unit b := by
  rw [sd_sub, sd_sub, sd_sub]
  ext
  · simp only [Prod.smul_fst, Prod.fst_add, smul_eq_mul]; ring
  · simp only [Prod.smul_snd, Prod.snd_add, smul_eq_mul]; ring

/-- The determinant of two polar points. -/
theorem det_polar (a b x y : ℝ) :
    (polarPoint a x).1 * (polarPoint b y).2 - (polarPoint b y).1 * (polarPoint a x).2 = x * y * sd (b - a) := by
  rw [sd_sub, polarPoint_eq, polarPoint_eq]
  simp only [Prod.smul_fst, Prod.smul_snd, smul_eq_mul]; ring

theorem unit_ne_zero (x : ℝ) : unit x ≠ 0 := by
  intro h
  have h1 := congrArg Prod.fst h
  have h2 := congrArg Prod.snd h
  simp only [unit, Prod.fst_zero, Prod.snd_zero] at h1 h2
  have := Real.sin_sq_add_cos_sq (deg2rad x)
  rw [h1, h2] at this; norm_num at this

theorem polarPoint_ne_zero (w : ℝ) {b : ℝ} (hb : 0 < b) : polarPoint w b ≠ 0 := by
  rw [polarPoint_eq]
  exact smul_ne_zero hb.ne' (unit_ne_zero w)

/-- The sum of the coordinates with respect to two vectors. -/
noncomputable def gauge (p q x : ℝ × ℝ) : ℝ :=
  ((x.1 * q.2 - q.1 * x.2) + (p.1 * x.2 - x.1 * p.2)) / (p.1 * q.2 - q.1 * p.2)

theorem gauge_combination (p q x y : ℝ × ℝ) (s t : ℝ) :
    gauge p q (s • x + t • y) = s * gauge p q x + t * gauge p q y := by
  unfold gauge
  simp only [Prod.smul_fst, Prod.smul_snd, Prod.fst_add, Prod.snd_add, smul_eq_mul]
  ring

theorem gauge_left {p q : ℝ × ℝ} (h : p.1 * q.2 - q.1 * p.2 ≠ 0) : gauge p q p = 1 := by
  unfold gauge
  rw [div_eq_one_iff_eq h]; ring

theorem gauge_right {p q : ℝ × ℝ} (h : p.1 * q.2 - q.1 * p.2 ≠ 0) : gauge p q q = 1 := by
  unfold gauge
  rw [div_eq_one_iff_eq h]; ring

theorem gauge_swap (p q x : ℝ × ℝ) : gauge p q x = gauge q p x := by
  unfold gauge
  rw [← neg_div_neg_eq]; congr 1 <;> ring

theorem gauge_smul (p q x : ℝ × ℝ) (s : ℝ) : gauge p q (s • x) = s * gauge p q x := by
  have := gauge_combination p q x 0 s 0
  simpa using this

/-- A bound of the gauge on points is a bound on their convex hull. -/
theorem gauge_hull {p q : ℝ × ℝ} {S : Set (ℝ × ℝ)} {c : ℝ} (h : ∀ x ∈ S, gauge p q x ≤ c) :
    ∀ x ∈ convexHull ℝ S, gauge p q x ≤ c := by
  have hc : Convex ℝ {x : ℝ × ℝ | gauge p q x ≤ c} := by
    intro x hx y hy a b ha hb hab
    simp only [Set.mem_setOf_eq] at *
    rw [gauge_combination]
    calc a * gauge p q x + b * gauge p q y ≤ a * c + b * c := by gcongr
      _ = c := by rw [← add_mul, hab, one_mul]
  intro x hx
  exact convexHull_min h hc hx

/-- A point strictly before the segment of two others, as seen from the origin, is no vertex of a hull containing the
origin. -/
theorem not_vertex {S : Set (ℝ × ℝ)} {p1 pw p2 : ℝ × ℝ} {A B : ℝ} (h1 : p1 ∈ S) (hw : pw ∈ S)
    (h0 : (0 : ℝ × ℝ) ∈ convexHull ℝ (insert p2 S)) (hp : p2 ≠ 0) (hA : 0 ≤ A) (hB : 0 ≤ B) (hAB : A + B < 1)
    (he : p2 = A • p1 + B • pw) : p2 ∈ convexHull ℝ S := by
  have hconv := convex_convexHull ℝ S
  have h1' : p1 ∈ convexHull ℝ S := subset_convexHull ℝ S h1
  have hw' : pw ∈ convexHull ℝ S := subset_convexHull ℝ S hw
  rw [convexHull_insert ⟨p1, h1⟩, mem_convexJoin] at h0
  obtain ⟨x, hx, q, hq, hseg⟩ := h0
  rw [Set.mem_singleton_iff] at hx; subst hx
  obtain ⟨a, b, ha, hb, hab, hz⟩ := hseg
  have hb0 : 0 < b := by
    rcases lt_or_eq_of_le hb with h | h
    · exact h
    · exfalso
      rw [← h] at hz hab
      rw [add_zero] at hab
      rw [hab] at hz
      apply hp; simpa using hz
  have ht : 0 < A + B := by
    rcases lt_or_eq_of_le (add_nonneg hA hB) with h | h
    · exact h
    · exfalso
      have hA0 : A = 0 := by linarith
      have hB0 : B = 0 := by linarith
      apply hp; rw [he, hA0, hB0]; simp
  -- the point beyond
  have hr : (A / (A + B)) • p1 + (B / (A + B)) • pw ∈ convexHull ℝ S := by
    apply hconv h1' hw' (by positivity) (by positivity)
    rw [← add_div, div_self ht.ne']
  have hr2 : (A / (A + B)) • p1 + (B / (A + B)) • pw = (1 / (A + B)) • x := by
    rw [he, smul_add, smul_smul, smul_smul]
    congr 2 <;> ring
  rw [hr2] at hr
  have hq2 : q = (-(a / b)) • x := by
    have : b • q = -(a • x) := by
      rw [eq_neg_iff_add_eq_zero, add_comm]; exact hz
    calc q = (1 / b) • (b • q) := by rw [smul_smul, one_div, inv_mul_cancel₀ hb0.ne', one_smul]
      _ = _ := by rw [this, smul_neg, smul_smul, neg_smul]; congr 2; ring
  rw [hq2] at hq
  set t := A + B with htdef
  have hc : 0 ≤ a / b := by positivity
  have hden : 0 < 1 / t + a / b := by positivity
  have h1t : 1 < 1 / t := by rw [lt_div_iff₀ ht]; linarith
  have key := hconv hr hq (a := (1 + a / b) / (1 / t + a / b)) (b := (1 / t - 1) / (1 / t + a / b))
    (by positivity) (div_nonneg (by linarith) hden.le) (by rw [← add_div, div_eq_one_iff_eq hden.ne']; ring)
  rw [smul_smul, smul_smul, ← add_smul] at key
  have hone : (1 + a / b) / (1 / t + a / b) * (1 / t) + (1 / t - 1) / (1 / t + a / b) * -(a / b) = 1 := by
    rw [div_mul_eq_mul_div, div_mul_eq_mul_div, ← add_div, div_eq_one_iff_eq hden.ne']; ring
  rw [hone, one_smul] at key
  exact key

/-- The part of the contract of `scipy.spatial.ConvexHull` that is used: the vertices span the hull of all points, and
no vertex can be left out. -/
structure IsHull {n : Nat} (P : Fin n → ℝ × ℝ) (vertices : List (Fin n)) : Prop where
  nodup : vertices.Nodup
  spans : ∀ i, P i ∈ convexHull ℝ (P '' {v | v ∈ vertices})
  minimal : ∀ v ∈ vertices, P v ∉ convexHull ℝ (P '' {w | w ∈ vertices ∧ w ≠ v})

section
variable {n : Nat} {V : List (Fin n)} {th b : Fin n → ℝ}

theorem image_insert {P : Fin n → ℝ × ℝ} {v : Fin n} (hv : v ∈ V) :
    P '' {w | w ∈ V} = insert (P v) (P '' {w | w ∈ V ∧ w ≠ v}) := by
  ext x
  simp only [Set.mem_image, Set.mem_setOf_eq, Set.mem_insert_iff]
  constructor
  · rintro ⟨w, hw, rfl⟩
    by_cases h : w = v
    · left; rw [h]
    · right; exact ⟨w, ⟨hw, h⟩, rfl⟩
  · rintro (rfl | ⟨w, ⟨hw, -⟩, rfl⟩)
    · exact ⟨v, hv, rfl⟩
    · exact ⟨w, hw, rfl⟩

/-- No point lies beyond the line through two neighbouring vertices. -/
theorem edge_bound (hmin : ∀ v ∈ V, polarPoint (th v) (b v) ∉
      convexHull ℝ ((fun i => polarPoint (th i) (b i)) '' {w | w ∈ V ∧ w ≠ v}))
    (h0 : (0 : ℝ × ℝ) ∈ convexHull ℝ ((fun i => polarPoint (th i) (b i)) '' {w | w ∈ V}))
    (hb : ∀ v ∈ V, 0 < b v) {v1 v2 : Fin n} (h1 : v1 ∈ V) (h2 : v2 ∈ V) (hlt : th v1 < th v2)
    (hgap : th v2 < th v1 + 180)
    (hother : ∀ w ∈ V, w ≠ v1 → w ≠ v2 → th v2 < th w ∧ th w < th v1 + 360) :
    ∀ w ∈ V, gauge (polarPoint (th v1) (b v1)) (polarPoint (th v2) (b v2)) (polarPoint (th w) (b w)) ≤ 1 := by
  intro w hw
  have hb1 := hb v1 h1
  have hb2 := hb v2 h2
  have hbw := hb w hw
  have hne12 : v1 ≠ v2 := by rintro rfl; exact lt_irrefl _ hlt
  have hsd : 0 < sd (th v2 - th v1) := sd_pos (by linarith) (by linarith)
  have hdet : (polarPoint (th v1) (b v1)).1 * (polarPoint (th v2) (b v2)).2
      - (polarPoint (th v2) (b v2)).1 * (polarPoint (th v1) (b v1)).2 ≠ 0 := by
    rw [det_polar]; positivity
  by_cases e1 : w = v1
  · rw [e1, gauge_left hdet]
  by_cases e2 : w = v2
  · rw [e2, gauge_right hdet]
  obtain ⟨o1, o2⟩ := hother w hw e1 e2
  by_contra hcon
  rw [not_le] at hcon
  rcases lt_or_ge (th w) (th v1 + 180) with hc | hc
  · -- the second vertex is hidden
    have s1 : 0 < sd (th w - th v2) := sd_pos (by linarith) (by linarith)
    have s2 : 0 < sd (th w - th v1) := sd_pos (by linarith) (by linarith)
    have hcomb := unit_combination (th v1) (th w) (th v2)
    set A := b v2 * sd (th w - th v2) / (b v1 * sd (th w - th v1)) with hA
    set B := b v2 * sd (th v2 - th v1) / (b w * sd (th w - th v1)) with hB
    have he : polarPoint (th v2) (b v2) = A • polarPoint (th v1) (b v1) + B • polarPoint (th w) (b w) := by
      rw [polarPoint_eq, polarPoint_eq, polarPoint_eq, smul_smul, smul_smul]
      have hA' : A * b v1 = b v2 / sd (th w - th v1) * sd (th w - th v2) := by rw [hA]; field_simp
      have hB' : B * b w = b v2 / sd (th w - th v1) * sd (th v2 - th v1) := by rw [hB]; field_simp
      rw [hA', hB', ← smul_smul, ← smul_smul, ← smul_add, ← hcomb, smul_smul, div_mul_cancel₀ _ s2.ne']
    have hA0 : 0 < A := by positivity
    have hB0 : 0 < B := by positivity
    have hg := congrArg (gauge (polarPoint (th v1) (b v1)) (polarPoint (th v2) (b v2))) he
    rw [gauge_combination, gauge_left hdet, gauge_right hdet] at hg
    have hAB : A + B < 1 := by nlinarith
    refine hmin v2 h2 (not_vertex (p1 := polarPoint (th v1) (b v1)) (pw := polarPoint (th w) (b w))
      ⟨v1, ⟨h1, hne12⟩, rfl⟩ ⟨w, ⟨hw, e2⟩, rfl⟩ ?_ (polarPoint_ne_zero _ hb2) hA0.le hB0.le hAB he)
    rw [← image_insert (P := fun i => polarPoint (th i) (b i)) h2]; exact h0
  rcases le_or_gt (th w) (th v2 + 180) with hc2 | hc2
  · -- opposite of the cone
    have hcomb := unit_combination (th v1) (th v2) (th w)
    have s1 : sd (th v2 - th w) ≤ 0 := by
      have := sd_nonneg (x := th w - th v2) (by linarith) (by linarith)
      rw [show th v2 - th w = -(th w - th v2) by ring, sd_neg]; linarith
    have s2 : sd (th w - th v1) ≤ 0 := by
      have := sd_nonneg (x := 360 - (th w - th v1)) (by linarith) (by linarith)
      rw [show 360 - (th w - th v1) = -((th w - th v1) - 360) by ring, sd_neg, sd_sub_360] at this
      linarith
    have he : sd (th v2 - th v1) • polarPoint (th w) (b w)
        = (b w * sd (th v2 - th w) / b v1) • polarPoint (th v1) (b v1)
          + (b w * sd (th w - th v1) / b v2) • polarPoint (th v2) (b v2) := by
      rw [polarPoint_eq, polarPoint_eq, polarPoint_eq, smul_smul, smul_smul, smul_smul,
        div_mul_cancel₀ _ hb1.ne', div_mul_cancel₀ _ hb2.ne', mul_comm, ← smul_smul, hcomb, smul_add, smul_smul,
        smul_smul]
    have hg := congrArg (gauge (polarPoint (th v1) (b v1)) (polarPoint (th v2) (b v2))) he
    rw [gauge_combination, gauge_left hdet, gauge_right hdet, gauge_smul] at hg
    have n1 : b w * sd (th v2 - th w) / b v1 ≤ 0 :=
      div_nonpos_of_nonpos_of_nonneg (mul_nonpos_of_nonneg_of_nonpos hbw.le s1) hb1.le
    have n2 : b w * sd (th w - th v1) / b v2 ≤ 0 :=
      div_nonpos_of_nonpos_of_nonneg (mul_nonpos_of_nonneg_of_nonpos hbw.le s2) hb2.le
    nlinarith
  · -- the first vertex is hidden
    have s1 : 0 < sd (th v1 + 360 - th w) := sd_pos (by linarith) (by linarith)
    have s2 : 0 < sd (th v2 + 360 - th w) := sd_pos (by linarith) (by linarith)
    have hcomb := unit_combination (th w) (th v2 + 360) (th v1 + 360)
    rw [show th v2 + 360 - (th v1 + 360) = th v2 - th v1 by ring, unit_add_360, unit_add_360] at hcomb
    set A := b v1 * sd (th v2 - th v1) / (b w * sd (th v2 + 360 - th w)) with hA
    set B := b v1 * sd (th v1 + 360 - th w) / (b v2 * sd (th v2 + 360 - th w)) with hB
    have he : polarPoint (th v1) (b v1) = A • polarPoint (th w) (b w) + B • polarPoint (th v2) (b v2) := by
      rw [polarPoint_eq, polarPoint_eq, polarPoint_eq, smul_smul, smul_smul]
      have hA' : A * b w = b v1 / sd (th v2 + 360 - th w) * sd (th v2 - th v1) := by rw [hA]; field_simp
      have hB' : B * b v2 = b v1 / sd (th v2 + 360 - th w) * sd (th v1 + 360 - th w) := by rw [hB]; field_simp
      rw [hA', hB', ← smul_smul, ← smul_smul, ← smul_add, ← hcomb, smul_smul, div_mul_cancel₀ _ s2.ne']
    have hA0 : 0 < A := by positivity
    have hB0 : 0 < B := by positivity
    have hg := congrArg (gauge (polarPoint (th v1) (b v1)) (polarPoint (th v2) (b v2))) he
    rw [gauge_combination, gauge_left hdet, gauge_right hdet] at hg
    have hAB : A + B < 1 := by nlinarith
    refine hmin v1 h1 (not_vertex (p1 := polarPoint (th w) (b w)) (pw := polarPoint (th v2) (b v2))
      ⟨w, ⟨hw, e1⟩, rfl⟩ ⟨v2, ⟨h2, hne12.symm⟩, rfl⟩ ?_ (polarPoint_ne_zero _ hb1) hA0.le hB0.le hAB he)
    rw [← image_insert (P := fun i => polarPoint (th i) (b i)) h1]; exact h0

/-- If all directions of a set of points lie within less than half a circle, the origin is not in the hull. -/
theorem zero_not_mem {a c : ℝ} (hac : c < a + 180) (hb : ∀ v ∈ V, 0 < b v)
    (hth : ∀ v ∈ V, a ≤ th v ∧ th v ≤ c) :
    (0 : ℝ × ℝ) ∉ convexHull ℝ ((fun i => polarPoint (th i) (b i)) '' {w | w ∈ V}) := by
  intro h0
  set m := (a + c) / 2 with hm
  have hc : Convex ℝ {x : ℝ × ℝ | 0 < x.1 * (unit m).1 + x.2 * (unit m).2} := by
    intro x hx y hy s t hs ht hst
    simp only [Set.mem_setOf_eq] at *
    simp only [Prod.smul_fst, Prod.smul_snd, Prod.fst_add, Prod.snd_add, smul_eq_mul]
    have hgoal : (s * x.1 + t * y.1) * (unit m).1 + (s * x.2 + t * y.2) * (unit m).2
        = s * (x.1 * (unit m).1 + x.2 * (unit m).2) + t * (y.1 * (unit m).1 + y.2 * (unit m).2) := by ring
    rw [hgoal]
    rcases lt_or_eq_of_le hs with h | h
    · have := mul_pos h hx
      have := mul_nonneg ht hy.le
      linarith
    · have ht1 : t = 1 := by linarith
      rw [← h, ht1]; linarith
  have := convexHull_min (t := {x : ℝ × ℝ | 0 < x.1 * (unit m).1 + x.2 * (unit m).2}) ?_ hc h0
  · simp at this
  · rintro _ ⟨v, hv, rfl⟩
    simp only [Set.mem_setOf_eq] at hv ⊢
    obtain ⟨t1, t2⟩ := hth v hv
    have : (polarPoint (th v) (b v)).1 * (unit m).1 + (polarPoint (th v) (b v)).2 * (unit m).2
        = b v * Real.cos (deg2rad (th v - m)) := by
      rw [show deg2rad (th v - m) = deg2rad (th v) - deg2rad m by unfold deg2rad; ring, Real.cos_sub]
      simp only [polarPoint, unit]; ring
    rw [this]
    apply mul_pos (hb v hv)
    have hpi := Real.pi_pos
    apply Real.cos_pos_of_mem_Ioo
    unfold deg2rad
    constructor
    · rw [lt_div_iff₀ (by norm_num)]
      nlinarith
    · rw [div_lt_iff₀ (by norm_num)]
      nlinarith

end

section
variable {n : Nat} {V : List (Fin n)} {th b : Fin n → ℝ}

/-- If all directions of a set of points lie within half a circle, the origin is not in the interior of the hull. -/
theorem zero_not_interior {a c : ℝ} (hac : c ≤ a + 180) (hb : ∀ v ∈ V, 0 < b v)
    (hth : ∀ v ∈ V, a ≤ th v ∧ th v ≤ c) :
    (0 : ℝ × ℝ) ∉ interior (convexHull ℝ ((fun i => polarPoint (th i) (b i)) '' {w | w ∈ V})) := by
  intro h0
  set m := (a + c) / 2 with hm
  have hc : Convex ℝ {x : ℝ × ℝ | 0 ≤ x.1 * (unit m).1 + x.2 * (unit m).2} := by
    intro x hx y hy s t hs ht hst
    simp only [Set.mem_setOf_eq] at *
    simp only [Prod.smul_fst, Prod.smul_snd, Prod.fst_add, Prod.snd_add, smul_eq_mul]
    have hgoal : (s * x.1 + t * y.1) * (unit m).1 + (s * x.2 + t * y.2) * (unit m).2
        = s * (x.1 * (unit m).1 + x.2 * (unit m).2) + t * (y.1 * (unit m).1 + y.2 * (unit m).2) := by ring
    rw [hgoal]
    exact add_nonneg (mul_nonneg hs hx) (mul_nonneg ht hy)
  have hsub : convexHull ℝ ((fun i => polarPoint (th i) (b i)) '' {w | w ∈ V})
      ⊆ {x : ℝ × ℝ | 0 ≤ x.1 * (unit m).1 + x.2 * (unit m).2} := by
    apply convexHull_min _ hc
    rintro _ ⟨v, hv, rfl⟩
    simp only [Set.mem_setOf_eq] at hv ⊢
    obtain ⟨t1, t2⟩ := hth v hv
    have : (polarPoint (th v) (b v)).1 * (unit m).1 + (polarPoint (th v) (b v)).2 * (unit m).2
        = b v * Real.cos (deg2rad (th v - m)) := by
      rw [show deg2rad (th v - m) = deg2rad (th v) - deg2rad m by unfold deg2rad; ring, Real.cos_sub]
      simp only [polarPoint, unit]; ring
    rw [this]
    apply mul_nonneg (hb v hv).le
    have hpi := Real.pi_pos
    apply Real.cos_nonneg_of_mem_Icc
    unfold deg2rad
    constructor
    · rw [le_div_iff₀ (by norm_num)]
      nlinarith
    · rw [div_le_iff₀ (by norm_num)]
      nlinarith
  rw [mem_interior_iff_mem_nhds, Metric.mem_nhds_iff] at h0
  obtain ⟨e, he, hball⟩ := h0
  have hin : (-(e / 2)) • unit m ∈ Metric.ball (0 : ℝ × ℝ) e := by
    rw [mem_ball_zero_iff, norm_smul, Real.norm_eq_abs, abs_neg, abs_of_pos (by linarith)]
    have : ‖unit m‖ ≤ 1 := by
      rw [Prod.norm_def]
      apply max_le
      · exact Real.abs_cos_le_one _
      · exact Real.abs_sin_le_one _
    nlinarith
  have := hsub (hball hin)
  simp only [Set.mem_setOf_eq, Prod.smul_fst, Prod.smul_snd, smul_eq_mul] at this
  have hsq : (unit m).1 * (unit m).1 + (unit m).2 * (unit m).2 = 1 := by
    have := Real.cos_sq_add_sin_sq (deg2rad m)
    simp only [unit]; nlinarith
  nlinarith

end

/-- Mixing two courses less than half a circle apart. -/
theorem solve2_spec {a c d x y : ℝ} (hx : 0 < x) (hy : 0 < y) (hac : a < c) (hgap : c < a + 180) (had : a ≤ d)
    (hdc : d ≤ c) : ∃ s t : ℝ, solve2 (polarPoint a x) (polarPoint c y) (unit d) = .ok (s, t) ∧ 0 ≤ s ∧ 0 ≤ t ∧
      0 < s + t ∧ s • polarPoint a x + t • polarPoint c y = unit d ∧
      gauge (polarPoint a x) (polarPoint c y) (unit d) = s + t := by
  have hsd : 0 < sd (c - a) := sd_pos (by linarith) (by linarith)
  have s1 : 0 ≤ sd (c - d) := sd_nonneg (by linarith) (by linarith)
  have s2 : 0 ≤ sd (d - a) := sd_nonneg (by linarith) (by linarith)
  have hdet := det_polar a c x y
  have hd0 : x * y * sd (c - a) ≠ 0 := by positivity
  have hs : ((unit d).1 * (polarPoint c y).2 - (polarPoint c y).1 * (unit d).2)
      / ((polarPoint a x).1 * (polarPoint c y).2 - (polarPoint c y).1 * (polarPoint a x).2)
      = sd (c - d) / (x * sd (c - a)) := by
    rw [hdet, polarPoint_eq]
    have : (unit d).1 * (y • unit c).2 - (y • unit c).1 * (unit d).2 = y * sd (c - d) := by
      rw [sd_sub]; simp only [Prod.smul_fst, Prod.smul_snd, smul_eq_mul]; ring
    rw [this]; field_simp
  have ht : ((polarPoint a x).1 * (unit d).2 - (unit d).1 * (polarPoint a x).2)
      / ((polarPoint a x).1 * (polarPoint c y).2 - (polarPoint c y).1 * (polarPoint a x).2)
      = sd (d - a) / (y * sd (c - a)) := by
    rw [hdet, polarPoint_eq]
    have : (x • unit a).1 * (unit d).2 - (unit d).1 * (x • unit a).2 = x * sd (d - a) := by
      rw [sd_sub]; simp only [Prod.smul_fst, Prod.smul_snd, smul_eq_mul]; ring
    rw [this]; field_simp
  have hcomb := unit_combination a c d
  have hsum : (sd (c - d) / (x * sd (c - a))) • polarPoint a x + (sd (d - a) / (y * sd (c - a))) • polarPoint c y
      = unit d := by
    rw [polarPoint_eq, polarPoint_eq, smul_smul, smul_smul]
    have e1 : sd (c - d) / (x * sd (c - a)) * x = 1 / sd (c - a) * sd (c - d) := by field_simp
    have e2 : sd (d - a) / (y * sd (c - a)) * y = 1 / sd (c - a) * sd (d - a) := by field_simp
    rw [e1, e2, ← smul_smul, ← smul_smul, ← smul_add, ← hcomb, smul_smul, one_div, inv_mul_cancel₀ hsd.ne', one_smul]
  refine ⟨sd (c - d) / (x * sd (c - a)), sd (d - a) / (y * sd (c - a)), ?_, by positivity, by positivity, ?_, hsum, ?_⟩
  · unfold solve2
    rw [if_neg (by rw [hdet]; exact hd0), hs, ht]
  · rcases lt_or_eq_of_le had with h | h
    · have : 0 < sd (d - a) := sd_pos (by linarith) (by linarith)
      have h1 : 0 < sd (d - a) / (y * sd (c - a)) := by positivity
      have h2 : 0 ≤ sd (c - d) / (x * sd (c - a)) := by positivity
      linarith
    · have : 0 < sd (c - d) := sd_pos (by linarith) (by linarith)
      have h1 : 0 < sd (c - d) / (x * sd (c - a)) := by positivity
      have h2 : 0 ≤ sd (d - a) / (y * sd (c - a)) := by positivity
      linarith
  · unfold gauge
    rw [add_div, hs, ht]

theorem solve2_swap {p q u : ℝ × ℝ} {s t : ℝ} (h : solve2 p q u = .ok (s, t)) : solve2 q p u = .ok (t, s) := by
  unfold solve2 at *
  have hneg : q.1 * p.2 - p.1 * q.2 = -(p.1 * q.2 - q.1 * p.2) := by ring
  simp only at *
  split at h
  · cases h
  · rename_i hd
    rw [if_neg (by rw [hneg]; exact neg_ne_zero.mpr hd)]
    simp only [Except.ok.injEq, Prod.mk.injEq] at h ⊢
    obtain ⟨rfl, rfl⟩ := h
    constructor
    · rw [hneg, ← neg_div_neg_eq, neg_neg]; congr 1; ring
    · rw [hneg, ← neg_div_neg_eq, neg_neg]; congr 1; ring

/-- Courses half a circle apart cannot be mixed. -/
theorem solve2_opposite {a c x y : ℝ} (u : ℝ × ℝ) (h : c = a + 180) :
    solve2 (polarPoint a x) (polarPoint c y) u = .error .valueError := by
  unfold solve2
  rw [if_pos (by rw [det_polar, h, show a + 180 - a = 180 by ring, sd_180, mul_zero])]

section
variable {n : Nat}

theorem findEdge_some {wa : Fin n → ℝ} {d : ℝ} {l : List (Fin n)} {i j : Fin n}
    (h : findEdge wa d l = some (i, j)) :
    ∃ pre post, l = pre ++ i :: j :: post ∧ wa i ≤ d ∧ d ≤ wa j := by
  induction l with
  | nil => simp [findEdge] at h
  | cons a t ih =>
    cases t with
    | nil => simp [findEdge] at h
    | cons c t =>
      unfold findEdge at h
      split at h
      · rename_i hc
        simp only [Option.some.injEq, Prod.mk.injEq] at h
        obtain ⟨rfl, rfl⟩ := h
        exact ⟨[], t, rfl, hc.1, hc.2⟩
      · obtain ⟨pre, post, hl, h1, h2⟩ := ih h
        exact ⟨a :: pre, post, by rw [hl]; rfl, h1, h2⟩

theorem findEdge_none {wa : Fin n → ℝ} {d : ℝ} {a : Fin n} {t : List (Fin n)}
    (h : findEdge wa d (a :: t) = none) : d < wa a ∨ wa ((a :: t).getLast (by simp)) < d ∨ t = [] := by
  induction t generalizing a with
  | nil => right; right; rfl
  | cons c t ih =>
    unfold findEdge at h
    split at h
    · cases h
    · rename_i hc
      rcases lt_or_ge d (wa a) with h1 | h1
      · left; exact h1
      · right; left
        have h2 : wa c < d := by
          by_contra hcon; exact hc ⟨h1, not_lt.mp hcon⟩
        rcases ih h with h3 | h3 | h3
        · exact absurd h2 (not_lt.mpr h3.le)
        · simpa using h3
        · subst h3; simpa using h2

end

end Verif.Convex
