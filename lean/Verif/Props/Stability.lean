import Mathlib.Analysis.ODE.Gronwall
import Verif.Props.AgreeCruise
import Verif.Props.Detours

/-!
# Property C179: errors of the polar diagram in plans
-/

set_option linter.unusedSectionVars false

namespace Verif.Convex

section
variable {n : Nat} {σ : Type} [DecidableEq σ] {vertices : List (Fin n)} {wa bsp : Fin n → ℝ} {info : Option (Fin n → σ)}

/-- If the second boat makes good the speed `r` in every direction, and the first one is nowhere faster by more than `δ`, then
the velocities of the first one, reduced by the factor `r / (r + δ)`, are mixes of those of the second one. -/
theorem hull_close {bsp' : Fin n → ℝ} {r δ : ℝ} (hr : 0 < r) (hδ : 0 ≤ δ) (hnn : ∀ i, 0 ≤ bsp i)
    (h : ∀ i, bsp i ≤ bsp' i + δ) (hball : ∀ x, r • heading x ∈ convexHull ℝ (Set.range (velocity wa bsp')))
    (h0 : (0 : ℝ × ℝ) ∈ convexHull ℝ (Set.range (velocity wa bsp'))) {y : ℝ × ℝ}
    (hy : y ∈ convexHull ℝ (Set.range (velocity wa bsp))) :
    (r / (r + δ)) • y ∈ convexHull ℝ (Set.range (velocity wa bsp')) := by
  have hpos : 0 < r + δ := by linarith
  set H := convexHull ℝ (Set.range (velocity wa bsp')) with hH
  have hc : Convex ℝ H := convex_convexHull ℝ _
  have hpre : Convex ℝ {y : ℝ × ℝ | (r / (r + δ)) • y ∈ H} := by
    intro a ha b hb s t hs ht hst
    simp only [Set.mem_setOf_eq] at *
    have := hc ha hb hs ht hst
    rwa [smul_comm s, smul_comm t, ← smul_add] at this
  refine (convexHull_min ?_ hpre : convexHull ℝ (Set.range (velocity wa bsp)) ⊆ _) hy
  rintro _ ⟨i, rfl⟩
  simp only [Set.mem_setOf_eq, velocity, smul_smul]
  -- everything is on the ray of the course
  have ray : ∀ m t : ℝ, 0 ≤ t → t ≤ m → m • heading (wa i) ∈ H → t • heading (wa i) ∈ H := by
    intro m t ht htm hm
    rcases (ht.trans htm).lt_or_eq with hm0 | hm0
    · have := hc hm h0 (a := t / m) (b := 1 - t / m) (by positivity) (by rw [sub_nonneg, div_le_one hm0]; exact htm) (by ring)
      rwa [smul_zero, add_zero, smul_smul, div_mul_cancel₀ _ hm0.ne'] at this
    · have : t = 0 := by linarith
      rw [this, zero_smul]; exact h0
  have ht : 0 ≤ r / (r + δ) * bsp i := mul_nonneg (by positivity) (hnn i)
  rcases le_total r (bsp' i) with hb | hb
  · refine ray (bsp' i) _ ht ?_ (subset_convexHull ℝ _ ⟨i, rfl⟩)
    rw [div_mul_eq_mul_div, div_le_iff₀ hpos]
    nlinarith [h i, mul_le_mul_of_nonneg_left (h i) hr.le, mul_le_mul_of_nonneg_right hb hδ]
  · refine ray r _ ht ?_ (hball _)
    rw [div_mul_eq_mul_div, div_le_iff₀ hpos]
    have : bsp i ≤ r + δ := (h i).trans (by linarith)
    exact mul_le_mul_of_nonneg_left this hr.le

/-- **C179.** Let no speed of the first diagram exceed that of the second one by more than `δ`, and let the second boat make
good at least the speed `r` in every direction. Then the speed made good on the courses recommended for the first diagram is at
most `1 + δ / r` times that on the courses recommended for the second one. -/
theorem C179_direction {vertices' : List (Fin n)} {bsp' : Fin n → ℝ} {info' : Option (Fin n → σ)}
    (hs : Sailable vertices wa bsp) (hs' : Sailable vertices' wa bsp') {r δ : ℝ} (hr : 0 < r) (hδ : 0 ≤ δ)
    (h : ∀ i, bsp i ≤ bsp' i + δ) (hball : ∀ x, r • heading x ∈ convexHull ℝ (Set.range (velocity wa bsp')))
    {direction u v : ℝ} (hd : 0 ≤ direction ∧ direction < 360) {da db : List (Direction σ)}
    (ha : convexDirection vertices wa bsp info direction = .ok da)
    (hb : convexDirection vertices' wa bsp' info' direction = .ok db) (ma : MakesGood wa bsp direction u da)
    (mb : MakesGood wa bsp' direction v db) : u ≤ (1 + δ / r) * v := by
  have h1 := hull_close hr hδ hs.nonneg h hball hs'.around (ma.best hs hd ha).1
  rw [smul_smul] at h1
  have h2 := (mb.best hs' hd hb).2 _ h1
  have hpos : 0 < r + δ := by linarith
  rw [div_mul_eq_mul_div, div_le_iff₀ hpos] at h2
  have : (1 + δ / r) * v = v * (r + δ) / r := by field_simp
  rw [this, le_div_iff₀ hr]
  linarith

/-- **C179.** If both diagrams differ by at most `δ` and both boats make good at least the speed `r` in every direction, then the
time of a way on the recommended courses differs by the factor `1 + δ / r` at most. -/
theorem C179_time {vertices' : List (Fin n)} {bsp' : Fin n → ℝ} {info' : Option (Fin n → σ)}
    (hs : Sailable vertices wa bsp) (hs' : Sailable vertices' wa bsp') {r δ : ℝ} (hr : 0 < r)
    (h : ∀ i, |bsp i - bsp' i| ≤ δ) (hball : ∀ x, r • heading x ∈ convexHull ℝ (Set.range (velocity wa bsp)))
    (hball' : ∀ x, r • heading x ∈ convexHull ℝ (Set.range (velocity wa bsp')))
    {direction u v dist : ℝ} (hd : 0 ≤ direction ∧ direction < 360) (hdist : 0 ≤ dist) {da db : List (Direction σ)}
    (ha : convexDirection vertices wa bsp info direction = .ok da)
    (hb : convexDirection vertices' wa bsp' info' direction = .ok db) (ma : MakesGood wa bsp direction u da)
    (mb : MakesGood wa bsp' direction v db) :
    0 < u ∧ 0 < v ∧ dist / v ≤ (1 + δ / r) * (dist / u) ∧ dist / u ≤ (1 + δ / r) * (dist / v) := by
  have hn : 0 < n := by
    rcases Nat.eq_zero_or_pos n with rfl | h0
    · have := hs.around
      rw [Set.range_eq_empty, convexHull_empty] at this
      exact this.elim
    · exact h0
  have hδ : 0 ≤ δ := (abs_nonneg _).trans (h ⟨0, hn⟩)
  have hu : r ≤ u := (ma.best hs hd ha).2 _ (hball direction)
  have hv : r ≤ v := (mb.best hs' hd hb).2 _ (hball' direction)
  have hu0 : 0 < u := hr.trans_le hu
  have hv0 : 0 < v := hr.trans_le hv
  have h1 := C179_direction hs hs' hr hδ (fun i => by have := abs_le.1 (h i); linarith) hball' hd ha hb ma mb
  have h2 := C179_direction hs' hs hr hδ (fun i => by have := abs_le.1 (h i); linarith) hball hd hb ha mb ma
  refine ⟨hu0, hv0, ?_, ?_⟩
  · rw [← mul_div_assoc, div_le_div_iff₀ hv0 hu0]
    calc dist * u ≤ dist * ((1 + δ / r) * v) := mul_le_mul_of_nonneg_left h1 hdist
      _ = _ := by ring
  · rw [← mul_div_assoc, div_le_div_iff₀ hu0 hv0]
    calc dist * v ≤ dist * ((1 + δ / r) * u) := mul_le_mul_of_nonneg_left h2 hdist
      _ = _ := by ring

end

/-! ### The times returned by `cruise` jump -/

noncomputable def jumpWa : Fin 4 → ℝ := ![0, 45, 90, 225]
noncomputable def jumpBsp (a : ℝ) : Fin 4 → ℝ := ![1, √2 * a, 1, √2]
def jumpSails : Fin 4 → Nat := ![0, 1, 2, 3]

theorem heading_225 : heading 225 = (-(√2 / 2), -(√2 / 2)) := by
  unfold heading
  rw [show (225 : ℝ) * Real.pi / 180 = Real.pi / 4 + Real.pi by ring, Real.cos_add_pi, Real.sin_add_pi,
    Real.cos_pi_div_four, Real.sin_pi_div_four]

theorem two_half : √2 * (√2 / 2) = 1 := by
  have := Real.mul_self_sqrt (show (0 : ℝ) ≤ 2 by norm_num)
  linarith

theorem jump0 (a : ℝ) : velocity jumpWa (jumpBsp a) 0 = (1, 0) := by
  show (1 : ℝ) • heading 0 = _; rw [one_smul, heading_0]
theorem jump1 (a : ℝ) : velocity jumpWa (jumpBsp a) 1 = (a, a) := by
  show (√2 * a) • heading 45 = _
  rw [heading_45]
  ext <;> simp <;> linear_combination a * two_half
theorem jump2 (a : ℝ) : velocity jumpWa (jumpBsp a) 2 = (0, 1) := by
  show (1 : ℝ) • heading 90 = _; rw [one_smul, heading_90]
theorem jump3 (a : ℝ) : velocity jumpWa (jumpBsp a) 3 = (-1, -1) := by
  show √2 • heading 225 = _
  rw [heading_225]
  ext <;> simp <;> linear_combination two_half

theorem jumpMono : StrictMono jumpWa := by
  rw [Fin.strictMono_iff_lt_succ]
  intro i
  fin_cases i <;> simp [jumpWa] <;> norm_num

theorem jumpRange : ∀ i, 0 ≤ jumpWa i ∧ jumpWa i < 360 := by
  intro i
  fin_cases i <;> simp [jumpWa] <;> norm_num

theorem jump_middle {S : Set (ℝ × ℝ)} (h0 : ((1, 0) : ℝ × ℝ) ∈ S) (h2 : ((0, 1) : ℝ × ℝ) ∈ S) (h3 : ((-1, -1) : ℝ × ℝ) ∈ S)
    {a : ℝ} (ha0 : -1 ≤ a) (ha : a ≤ 1 / 2) : ((a, a) : ℝ × ℝ) ∈ convexHull ℝ S := by
  have hc := convex_convexHull ℝ S
  have k1 := hc (subset_convexHull ℝ S h0) (subset_convexHull ℝ S h2) (a := 1 / 2) (b := 1 / 2) (by norm_num) (by norm_num)
    (by norm_num)
  have k2 := hc k1 (subset_convexHull ℝ S h3) (a := 2 / 3 * (a + 1)) (b := 1 - 2 / 3 * (a + 1)) (by linarith) (by linarith)
    (by ring)
  convert k2 using 1
  ext <;> simp <;> ring

theorem jumpOrigin (a : ℝ) : (0 : ℝ × ℝ) ∈ convexHull ℝ (Set.range (velocity jumpWa (jumpBsp a))) :=
  jump_middle (S := Set.range (velocity jumpWa (jumpBsp a))) ⟨0, jump0 a⟩ ⟨2, jump2 a⟩ ⟨3, jump3 a⟩ (a := 0) (by norm_num)
    (by norm_num)

theorem jumpNonneg {a : ℝ} (ha : 0 ≤ a) (i : Fin 4) : 0 ≤ jumpBsp a i := by
  fin_cases i <;> simp [jumpBsp] <;> positivity

theorem jumpAbove {a : ℝ} (h1 : 1 / 2 < a) (h2 : a ≤ 11 / 20) : Sailable [0, 1, 2, 3] jumpWa (jumpBsp a) := by
  have hs := Real.sqrt_pos.2 (show (0 : ℝ) < 2 by norm_num)
  refine ⟨⟨by decide, fun i => subset_convexHull ℝ _ ⟨i, ?_, rfl⟩, ?_⟩, jumpMono, jumpRange, jumpNonneg (by linarith), ?_, jumpOrigin a⟩
  · show i ∈ [0, 1, 2, 3]
    revert i; decide
  · intro v _
    fin_cases v
    · show velocity jumpWa (jumpBsp a) 0 ∉ _
      apply not_mem_hull 1 (-1 / 3) (1 / 2)
      · rintro _ ⟨w, ⟨-, hw⟩, rfl⟩
        fin_cases w
        · exact absurd rfl hw
        all_goals simp only [Fin.mk_one, Fin.reduceFinMk, jump1, jump2, jump3]; linarith
      · rw [jump0]; norm_num
    · show velocity jumpWa (jumpBsp a) 1 ∉ _
      apply not_mem_hull 1 1 1
      · rintro _ ⟨w, ⟨-, hw⟩, rfl⟩
        fin_cases w
        · simp only [Fin.zero_eta, jump0]; norm_num
        · exact absurd rfl hw
        all_goals simp only [Fin.reduceFinMk, jump2, jump3]; norm_num
      · rw [jump1]; simp only; linarith
    · show velocity jumpWa (jumpBsp a) 2 ∉ _
      apply not_mem_hull (-1 / 3) 1 (1 / 2)
      · rintro _ ⟨w, ⟨-, hw⟩, rfl⟩
        fin_cases w
        · simp only [Fin.zero_eta, jump0]; norm_num
        · simp only [Fin.mk_one, jump1]; linarith
        · exact absurd rfl hw
        · simp only [Fin.reduceFinMk, jump3]; norm_num
      · rw [jump2]; norm_num
    · show velocity jumpWa (jumpBsp a) 3 ∉ _
      apply not_mem_hull (-1) (-1) 0
      · rintro _ ⟨w, ⟨-, hw⟩, rfl⟩
        fin_cases w
        · simp only [Fin.zero_eta, jump0]; norm_num
        · simp only [Fin.mk_one, jump1]; linarith
        · simp only [Fin.reduceFinMk, jump2]; norm_num
        · exact absurd rfl hw
      · rw [jump3]; norm_num
  · intro v _
    have : 0 < √2 * a := by positivity
    fin_cases v <;> simp [jumpBsp]
    linarith

theorem jumpBelow {a : ℝ} (h1 : 0 ≤ a) (h2 : a ≤ 1 / 2) : Sailable [0, 2, 3] jumpWa (jumpBsp a) := by
  refine ⟨⟨by decide, fun i => ?_, ?_⟩, jumpMono, jumpRange, jumpNonneg h1, ?_, jumpOrigin a⟩
  · fin_cases i
    · exact subset_convexHull ℝ _ ⟨0, by simp, rfl⟩
    · show velocity jumpWa (jumpBsp a) 1 ∈ _
      rw [jump1]
      apply jump_middle _ _ _ (by linarith) h2
      · exact ⟨0, by simp, jump0 a⟩
      · exact ⟨2, by simp, jump2 a⟩
      · exact ⟨3, by simp, jump3 a⟩
    · exact subset_convexHull ℝ _ ⟨2, by simp, rfl⟩
    · exact subset_convexHull ℝ _ ⟨3, by simp, rfl⟩
  · intro v hv
    simp only [List.mem_cons, List.not_mem_nil, or_false] at hv
    rcases hv with rfl | rfl | rfl
    · apply not_mem_hull 1 (-1 / 3) (1 / 2)
      · rintro _ ⟨w, ⟨hw', hw⟩, rfl⟩
        simp only [List.mem_cons, List.not_mem_nil, or_false] at hw'
        rcases hw' with rfl | rfl | rfl
        · exact absurd rfl hw
        all_goals simp only [jump2, jump3]; norm_num
      · rw [jump0]; norm_num
    · apply not_mem_hull (-1 / 3) 1 (1 / 2)
      · rintro _ ⟨w, ⟨hw', hw⟩, rfl⟩
        simp only [List.mem_cons, List.not_mem_nil, or_false] at hw'
        rcases hw' with rfl | rfl | rfl
        · simp only [jump0]; norm_num
        · exact absurd rfl hw
        · simp only [jump3]; norm_num
      · rw [jump2]; norm_num
    · apply not_mem_hull (-1) (-1) 0
      · rintro _ ⟨w, ⟨hw', hw⟩, rfl⟩
        simp only [List.mem_cons, List.not_mem_nil, or_false] at hw'
        rcases hw' with rfl | rfl | rfl
        · simp only [jump0]; norm_num
        · simp only [jump2]; norm_num
        · exact absurd rfl hw
      · rw [jump3]; norm_num
  · intro v hv
    simp only [List.mem_cons, List.not_mem_nil, or_false] at hv
    rcases hv with rfl | rfl | rfl <;> simp [jumpBsp]

theorem jumpCourses {a : ℝ} (h0 : 0 < a) :
    convexDirection [0, 2, 3] jumpWa (jumpBsp a) (some jumpSails) 45 = .ok [⟨0, some (1 / 2), some 0⟩, ⟨90, some (1 / 2), some 2⟩] ∧
    convexDirection [0, 1, 2, 3] jumpWa (jumpBsp a) (some jumpSails) 45 = .ok [⟨0, some 0, some 0⟩, ⟨45, some 1, some 1⟩] := by
  have h2 : (0 : ℝ) < √2 := Real.sqrt_pos.mpr (by norm_num)
  constructor
  · have hc : chooseEdge jumpWa 45 (([0, 2, 3] : List (Fin 4)).insertionSort (· ≤ ·)) = .ok (0, 2) := by
      rw [show ([0, 2, 3] : List (Fin 4)).insertionSort (· ≤ ·) = [0, 2, 3] by decide]
      unfold chooseEdge findEdge
      rw [if_pos (by simp [jumpWa]; norm_num)]
    have hf : firstProportion (polarPoint (jumpWa 0) (jumpBsp a 0)) (polarPoint (jumpWa 2) (jumpBsp a 2)) 45 = .ok (some (1 / 2)) := by
      unfold firstProportion solve2
      rw [polarPoint_velocity, polarPoint_velocity, jump0, jump2, unit_eq, heading_45]
      norm_num
      field_simp
    unfold convexDirection
    rw [hc]
    simp only
    rw [if_neg (by simp), hf]
    simp only [correct, Option.map_some]
    rw [if_neg (by norm_num)]
    simp only [Option.map_some, Except.ok.injEq]
    norm_num [jumpWa, jumpSails]
    exact ⟨rfl, rfl⟩
  · have hc : chooseEdge jumpWa 45 (([0, 1, 2, 3] : List (Fin 4)).insertionSort (· ≤ ·)) = .ok (0, 1) := by
      rw [show ([0, 1, 2, 3] : List (Fin 4)).insertionSort (· ≤ ·) = [0, 1, 2, 3] by decide]
      unfold chooseEdge findEdge
      rw [if_pos (by simp [jumpWa])]
    have hf : firstProportion (polarPoint (jumpWa 0) (jumpBsp a 0)) (polarPoint (jumpWa 1) (jumpBsp a 1)) 45 = .ok (some 0) := by
      unfold firstProportion solve2
      rw [polarPoint_velocity, polarPoint_velocity, jump0, jump1, unit_eq, heading_45]
      simp only
      rw [if_neg (by simpa using h0.ne')]
      simp only [Except.ok.injEq]
      rw [if_neg]
      · rw [show √2 / 2 * a - a * (√2 / 2) = 0 by ring]; simp
      · rw [show √2 / 2 * a - a * (√2 / 2) = 0 by ring]
        have : 0 < (1 * (√2 / 2) - √2 / 2 * 0) / (1 * a - a * 0) := by
          rw [one_mul, one_mul, mul_zero, mul_zero, sub_zero, sub_zero]; positivity
        rw [zero_div, zero_add]
        exact this.ne'
    unfold convexDirection
    rw [hc]
    simp only
    rw [if_neg (by simp [jumpSails]), hf]
    simp only [correct, Option.map_some]
    rw [if_neg (by norm_num)]
    simp only [Option.map_some, Except.ok.injEq]
    norm_num [jumpWa, jumpSails]

/-- **C179 is false** for the times returned by `cruise`: however small `d` is, there are diagrams which differ by `3 d` at most
but whose times for the same way differ by more than a quarter. -/
theorem C179_cruise_false {d dist : ℝ} (hd : 0 < d) (hd' : d ≤ 1 / 20) (hdist : 0 < dist) :
    ∃ (vertices vertices' : List (Fin 4)) (wa bsp bsp' : Fin 4 → ℝ) (da db : List (Direction Nat)) (t1 t2 t1' t2' : ℝ),
      Sailable vertices wa bsp ∧ Sailable vertices' wa bsp' ∧ (∀ i, |bsp i - bsp' i| ≤ 3 * d) ∧
      convexDirection vertices wa bsp (some jumpSails) 45 = .ok da ∧
      convexDirection vertices' wa bsp' (some jumpSails) 45 = .ok db ∧
      cruiseTimes wa bsp dist da = .ok [(0, some t1), (90, some t2)] ∧
      cruiseTimes wa bsp' dist db = .ok [(0, some t1'), (45, some t2')] ∧
      t1 + t2 = dist ∧ 5 / 4 * dist < t1' + t2' := by
  have hs : (0 : ℝ) < √2 := Real.sqrt_pos.mpr (by norm_num)
  have hs2 : √2 < 72 / 50 := (Real.sqrt_lt' (by norm_num)).2 (by norm_num)
  have a1 : (0 : ℝ) < 1 / 2 - d := by linarith
  have a2 : (0 : ℝ) < 1 / 2 + d := by linarith
  have hinj := jumpMono.injective
  have s0 : ∀ b, speedAt jumpWa b 0 = .ok (b 0) := fun b => speedAt_eq hinj 0
  have s1 : ∀ b, speedAt jumpWa b 45 = .ok (b 1) := fun b => speedAt_eq hinj 1
  have s2 : ∀ b, speedAt jumpWa b 90 = .ok (b 2) := fun b => speedAt_eq hinj 2
  have hp : 0 < √2 * (1 / 2 + d) := by positivity
  refine ⟨_, _, _, _, _, _, _, dist / 2, dist / 2, 0, dist / (√2 * (1 / 2 + d)), jumpBelow a1.le (by linarith),
    jumpAbove (a := 1 / 2 + d) (by linarith) (by linarith), ?_, (jumpCourses a1).1, (jumpCourses a2).2, ?_, ?_, by ring, ?_⟩
  · intro i
    fin_cases i
    · simpa [jumpBsp] using hd.le
    · simp only [jumpBsp, Fin.mk_one, Matrix.cons_val_one, Matrix.cons_val_zero]
      rw [← mul_sub, show 1 / 2 - d - (1 / 2 + d) = -(2 * d) by ring, mul_neg, abs_neg, abs_of_pos (by positivity)]
      nlinarith
    · simpa [jumpBsp] using hd.le
    · simpa [jumpBsp] using hd.le
  · simp only [cruiseTimes, s0, s2]
    simp [jumpBsp]
    ring
  · simp only [cruiseTimes, s0, s1]
    simp [jumpBsp, hs.ne']
    intro h; norm_num at h
    linarith
  · rw [zero_add, lt_div_iff₀ hp]
    have : √2 * (1 / 2 + d) ≤ 72 / 50 * (11 / 20) := mul_le_mul hs2.le (by linarith) a2.le (by norm_num)
    nlinarith

theorem jumpBall (a x : ℝ) : (1 / 4 : ℝ) • heading x ∈ convexHull ℝ (Set.range (velocity jumpWa (jumpBsp a))) := by
  have hc := convex_convexHull ℝ (Set.range (velocity jumpWa (jumpBsp a)))
  have m0 : ((1, 0) : ℝ × ℝ) ∈ convexHull ℝ (Set.range (velocity jumpWa (jumpBsp a))) :=
    subset_convexHull ℝ (Set.range (velocity jumpWa (jumpBsp a))) ⟨0, jump0 a⟩
  have m2 : ((0, 1) : ℝ × ℝ) ∈ convexHull ℝ (Set.range (velocity jumpWa (jumpBsp a))) :=
    subset_convexHull ℝ (Set.range (velocity jumpWa (jumpBsp a))) ⟨2, jump2 a⟩
  have m3 : ((-1, -1) : ℝ × ℝ) ∈ convexHull ℝ (Set.range (velocity jumpWa (jumpBsp a))) :=
    subset_convexHull ℝ (Set.range (velocity jumpWa (jumpBsp a))) ⟨3, jump3 a⟩
  have c1 := Real.neg_one_le_cos (x * Real.pi / 180)
  have c2 := Real.cos_le_one (x * Real.pi / 180)
  have s1 := Real.neg_one_le_sin (x * Real.pi / 180)
  have s2 := Real.sin_le_one (x * Real.pi / 180)
  unfold heading
  generalize Real.cos (x * Real.pi / 180) = c at *
  generalize Real.sin (x * Real.pi / 180) = s at *
  -- the weights of the three points
  have e : (1 + c / 2 - s / 4) / 3 + (1 + s / 2 - c / 4) / 3 = 1 - (1 - c / 4 - s / 4) / 3 := by ring
  have hpos : 0 < (1 + c / 2 - s / 4) / 3 + (1 + s / 2 - c / 4) / 3 := by rw [e]; linarith
  have k1 := hc m0 m2 (a := (1 + c / 2 - s / 4) / 3 / ((1 + c / 2 - s / 4) / 3 + (1 + s / 2 - c / 4) / 3))
    (b := (1 + s / 2 - c / 4) / 3 / ((1 + c / 2 - s / 4) / 3 + (1 + s / 2 - c / 4) / 3))
    (div_nonneg (by linarith) hpos.le) (div_nonneg (by linarith) hpos.le) (by rw [← add_div, div_self hpos.ne'])
  have k2 := hc k1 m3 (a := (1 + c / 2 - s / 4) / 3 + (1 + s / 2 - c / 4) / 3) (b := (1 - c / 4 - s / 4) / 3) hpos.le
    (by linarith) (by rw [e]; ring)
  convert k2 using 1
  ext
  · simp only [Prod.smul_mk, Prod.mk_add_mk, smul_eq_mul, mul_one, mul_zero, add_zero, mul_neg]
    rw [mul_div_cancel₀ _ hpos.ne']
    ring
  · simp only [Prod.smul_mk, Prod.mk_add_mk, smul_eq_mul, mul_one, mul_zero, zero_add, mul_neg]
    rw [mul_div_cancel₀ _ hpos.ne']
    ring

/-- The two diagrams of `C179_cruise_false`: the speeds made good are close, though the times returned by `cruise` are not. -/
example {d : ℝ} (hd : 0 < d) (hd' : d ≤ 1 / 20) : ∃ (u v : ℝ) (da db : List (Direction Nat)),
    convexDirection [0, 2, 3] jumpWa (jumpBsp (1 / 2 - d)) (some jumpSails) 45 = .ok da ∧
    convexDirection [0, 1, 2, 3] jumpWa (jumpBsp (1 / 2 + d)) (some jumpSails) 45 = .ok db ∧
    MakesGood jumpWa (jumpBsp (1 / 2 - d)) 45 u da ∧ MakesGood jumpWa (jumpBsp (1 / 2 + d)) 45 v db ∧
    v ≤ (1 + 3 * d / (1 / 4)) * u := by
  have a1 : (0 : ℝ) < 1 / 2 - d := by linarith
  have a2 : (0 : ℝ) < 1 / 2 + d := by linarith
  have hS := jumpBelow a1.le (by linarith)
  have hS' := jumpAbove (a := 1 / 2 + d) (by linarith) (by linarith)
  obtain ⟨i1, i2, lam, s, g1, g2, -, -, g3, g4, -, -, hs, g5, -⟩ :=
    C71_two_partial hS.hull hS.mono hS.range hS.pos hS.around (by norm_num) (jumpCourses a1).1
  obtain ⟨j1, j2, mu, s', k1, k2, -, -, k3, k4, -, -, hs', k5, -⟩ :=
    C71_two_partial hS'.hull hS'.mono hS'.range hS'.pos hS'.around (by norm_num) (jumpCourses a2).2
  have ma : MakesGood jumpWa (jumpBsp (1 / 2 - d)) 45 s _ := .two g1 g2 g3 g4 g5
  have mb : MakesGood jumpWa (jumpBsp (1 / 2 + d)) 45 s' _ := .two k1 k2 k3 k4 k5
  refine ⟨s, s', _, _, (jumpCourses a1).1, (jumpCourses a2).2, ma, mb, ?_⟩
  have hs2 : √2 < 72 / 50 := (Real.sqrt_lt' (by norm_num)).2 (by norm_num)
  refine C179_direction hS' hS (by norm_num) (by linarith) (fun i => ?_) (jumpBall _) (by norm_num) (jumpCourses a2).2
    (jumpCourses a1).1 mb ma
  fin_cases i <;> simp [jumpBsp, hd.le] <;> nlinarith

end Verif.Convex

namespace Verif.Cruising

/-- Solutions of initial value problems whose right hand sides differ by at most `δ`. -/
theorem paths_close {v v' : ℝ → ℝ → ℝ} {L δ : ℝ} (hL : 0 ≤ L) (hv : ∀ t x y, |v t x - v t y| ≤ L * |x - y|)
    (hδ : ∀ t x, |v t x - v' t x| ≤ δ) {f g : ℝ → ℝ} (hf : ∀ t, HasDerivAt f (v t (f t)) t)
    (hg : ∀ t, HasDerivAt g (v' t (g t)) t) (h0 : f 0 = g 0) {t : ℝ} (ht : 0 ≤ t) :
    |f t - g t| ≤ δ * t * Real.exp (L * t) := by
  have hd0 : 0 ≤ δ := (abs_nonneg _).trans (hδ 0 0)
  have h := dist_le_of_approx_trajectories_ODE (v := v) (K := ⟨L, hL⟩) (f := f) (g := g) (f' := fun t => v t (f t))
    (g' := fun t => v' t (g t)) (εf := 0) (εg := δ) (δ := 0) (a := 0) (b := t)
    (fun t => LipschitzWith.of_dist_le_mul fun x y => by rw [Real.dist_eq, Real.dist_eq]; exact hv t x y)
    (fun y _ => (hf y).continuousAt.continuousWithinAt) (fun y _ => (hf y).hasDerivWithinAt) (fun y _ => by simp)
    (fun y _ => (hg y).continuousAt.continuousWithinAt) (fun y _ => (hg y).hasDerivWithinAt)
    (fun y _ => by rw [Real.dist_eq, abs_sub_comm]; exact hδ _ _) (by simp [h0]) t ⟨ht, le_rfl⟩
  rw [Real.dist_eq, zero_add, sub_zero] at h
  refine h.trans ?_
  change gronwallBound 0 L δ t ≤ _
  have hE := Real.exp_pos (L * t)
  rcases hL.eq_or_lt with rfl | hL'
  · rw [gronwallBound_K0]; simp
  · rw [gronwallBound_of_K_ne_0 hL'.ne']
    have h1 := Real.add_one_le_exp (-(L * t))
    have h2 : Real.exp (-(L * t)) * Real.exp (L * t) = 1 := by rw [← Real.exp_add]; simp
    have h3 : Real.exp (L * t) - 1 ≤ L * t * Real.exp (L * t) := by nlinarith
    simp only [zero_mul, zero_add]
    calc δ / L * (Real.exp (L * t) - 1) ≤ δ / L * (L * t * Real.exp (L * t)) :=
          mul_le_mul_of_nonneg_left h3 (by positivity)
      _ = _ := by field_simp

/-- **C179.** Two boats whose speeds differ by at most `δ` everywhere and always are at no time farther apart than
`δ t exp (L t)`. -/
theorem C179_voyage {b b' : ℝ → ℝ → ℝ} {lo hi L δ : ℝ} (hb : Steady b lo hi L) (hδ : ∀ s t, |b s t - b' s t| ≤ δ)
    {x x' : ℝ → ℝ} (hx : Voyage b x) (hx' : Voyage b' x') {t : ℝ} (ht : 0 ≤ t) :
    |x t - x' t| ≤ δ * t * Real.exp (L * t) :=
  paths_close (v := fun t s => b s t) (v' := fun t s => b' s t) hb.nonneg
    (fun t x y => by simpa using hb.lip x y t t) (fun t x => hδ x t) hx.deriv hx'.deriv (by rw [hx.start, hx'.start]) ht

/-- **C179.** The distances calculated by `isochrone` for two boats whose speeds differ by at most `δ`: beside the errors of
the steps, which vanish with the number of nodes, they differ by at most `δ T exp (L T)`. -/
theorem C179_isochrone {b b' : ℝ → ℝ → ℝ} {lo hi L lo' hi' L' δ : ℝ} (hb : Steady b lo hi L) (hb' : Steady b' lo' hi' L')
    (hδ : ∀ s t, |b s t - b' s t| ≤ δ) {x x' : ℝ → ℝ} (hx : Voyage b x) (hx' : Voyage b' x') {total : ℝ} (h0 : 0 < total)
    {minNodes fuel fuel' : Nat} (hn : 2 ≤ minNodes) {s s' : ℝ} (h : isochrone (pace b) total minNodes fuel = some (.ok s))
    (h' : isochrone (pace b') total minNodes fuel' = some (.ok s')) :
    |s - s'| ≤ δ * total * Real.exp (L * total) +
      (L * (1 + hi) * (hi / lo) * Real.exp (L * total) + L' * (1 + hi') * (hi' / lo') * Real.exp (L' * total)) *
        (total ^ 2 / ((minNodes : ℝ) - 1)) := by
  have e1 := C133_error hb hx h0 hn h
  have e2 := C133_error hb' hx' h0 hn h'
  have e3 := C179_voyage hb hδ hx hx' h0.le
  have : s - s' = (s - x total) + (x total - x' total) - (s' - x' total) := by ring
  rw [this]
  refine ((abs_sub _ _).trans (add_le_add_left (abs_add_le _ _) _)).trans ?_
  calc |s - x total| + |x total - x' total| + |s' - x' total|
      ≤ L * (1 + hi) * (hi / lo) * total ^ 2 * Real.exp (L * total) / ((minNodes : ℝ) - 1) +
        δ * total * Real.exp (L * total) +
        L' * (1 + hi') * (hi' / lo') * total ^ 2 * Real.exp (L' * total) / ((minNodes : ℝ) - 1) := by linarith
    _ = _ := by ring

/-- **C179.** For more and more nodes the distances of `isochrone` differ by at most `δ T exp (L T)` and any `ε > 0`. -/
theorem C179_isochrone_limit {b b' : ℝ → ℝ → ℝ} {lo hi L lo' hi' L' δ : ℝ} (hb : Steady b lo hi L)
    (hb' : Steady b' lo' hi' L') (hδ : ∀ s t, |b s t - b' s t| ≤ δ) {x x' : ℝ → ℝ} (hx : Voyage b x) (hx' : Voyage b' x')
    {total : ℝ} (h0 : 0 < total) {ε : ℝ} (hε : 0 < ε) : ∃ N : Nat, ∀ minNodes ≥ N,
      (∃ fuel fuel' s s', isochrone (pace b) total minNodes fuel = some (.ok s) ∧
        isochrone (pace b') total minNodes fuel' = some (.ok s')) ∧
      ∀ fuel fuel' s s', isochrone (pace b) total minNodes fuel = some (.ok s) →
        isochrone (pace b') total minNodes fuel' = some (.ok s') → |s - s'| ≤ δ * total * Real.exp (L * total) + ε := by
  obtain ⟨N, hN⟩ := C133_limit hb hx h0 (half_pos hε)
  obtain ⟨N', hN'⟩ := C133_limit hb' hx' h0 (half_pos hε)
  refine ⟨max N N', fun m hm => ⟨?_, fun fuel fuel' s s' h h' => ?_⟩⟩
  · obtain ⟨fuel, s, h⟩ := (hN m (le_trans (le_max_left _ _) hm)).1
    obtain ⟨fuel', s', h'⟩ := (hN' m (le_trans (le_max_right _ _) hm)).1
    exact ⟨fuel, fuel', s, s', h, h'⟩
  · have e1 := abs_le.1 ((hN m (le_trans (le_max_left _ _) hm)).2 _ _ h)
    have e2 := abs_le.1 ((hN' m (le_trans (le_max_right _ _) hm)).2 _ _ h')
    have e3 := abs_le.1 (C179_voyage hb hδ hx hx' h0.le)
    exact abs_le.2 ⟨by linarith, by linarith⟩

/-- **C179.** The exact times of arrival of two boats whose speeds differ by at most `δ` and are at least `lo` and `lo'`. -/
theorem C179_arrival {b b' : ℝ → ℝ → ℝ} {lo hi L lo' hi' L' δ : ℝ} (hb : Steady b lo hi L) (hb' : Steady b' lo' hi' L')
    (hδ : ∀ s t, |b s t - b' s t| ≤ δ) {T T' : ℝ → ℝ} (hT : Arrival b T) (hT' : Arrival b' T') {s : ℝ} (hs : 0 ≤ s) :
    |T s - T' s| ≤ δ / (lo * lo') * s * Real.exp (L / lo ^ 2 * s) := by
  have hL := hb.nonneg
  have hlo := hb.lo_pos
  have hlo' := hb'.lo_pos
  have diff : ∀ p q : ℝ, 0 < p → 0 < q → |invSpeed p - invSpeed q| = |q - p| / (p * q) := by
    intro p q hp hq
    unfold invSpeed
    rw [if_pos hp.ne', if_pos hq.ne', show (1 : ℝ) / p - 1 / q = (q - p) / (p * q) by field_simp, abs_div,
      abs_of_pos (mul_pos hp hq)]
  refine paths_close (v := fun s t => pace b s t) (v' := fun s t => pace b' s t) (by positivity) (fun s t t' => ?_)
    (fun s t => ?_) hT.deriv hT'.deriv (by rw [hT.start, hT'.start]) hs
  · have p1 := hlo.trans_le (hb.le s t)
    have p2 := hlo.trans_le (hb.le s t')
    unfold pace
    rw [diff _ _ p1 p2, abs_sub_comm, div_mul_eq_mul_div]
    have := hb.lip s s t t'
    rw [sub_self, abs_zero, zero_add] at this
    exact div_le_div₀ (by positivity) this (by positivity)
      (by rw [pow_two]; exact mul_le_mul (hb.le _ _) (hb.le _ _) hlo.le p1.le)
  · have p1 := hlo.trans_le (hb.le s t)
    have p2 := hlo'.trans_le (hb'.le s t)
    unfold pace
    rw [diff _ _ p1 p2, abs_sub_comm]
    exact div_le_div₀ ((abs_nonneg _).trans (hδ s t)) (hδ s t) (by positivity)
      (mul_le_mul (hb.le _ _) (hb'.le _ _) hlo'.le p1.le)

/-- **C179.** The default cost of `cost_cruise`, if the times of arrival of the solver are exact up to `del`. -/
theorem C179_cost {P : Type} {place : ℝ → P} {b b' : ℝ → ℝ → ℝ} {lo hi L lo' hi' L' δ del total : ℝ}
    (hb : Steady b lo hi L) (hb' : Steady b' lo' hi' L')
    (hδ : ∀ s t, |b s t - b' s t| ≤ δ) {T T' : ℝ → ℝ} (hT : Arrival b T) (hT' : Arrival b' T') (h0 : 0 ≤ total)
    {nodes nodes' : List (ℝ × ℝ)} {last last' : ℝ × ℝ} (hl : |last.2 - T total| ≤ del) (hl' : |last'.2 - T' total| ≤ del) :
    ∃ c c', Verif.Course.costCruise (nodes ++ [last]) place total (fun t _ => t) none = .ok c ∧
      Verif.Course.costCruise (nodes' ++ [last']) place total (fun t _ => t) none = .ok c' ∧
      |c - c'| ≤ δ / (lo * lo') * total * Real.exp (L / lo ^ 2 * total) + 2 * del := by
  refine ⟨_, _, (Verif.Course.C76_absolute (abs := fun t _ => t) nodes last).2,
    (Verif.Course.C76_absolute (abs := fun t _ => t) nodes' last').2, ?_⟩
  have h1 := abs_le.1 (C179_arrival hb hb' hδ hT hT' h0)
  have h2 := abs_le.1 hl
  have h3 := abs_le.1 hl'
  exact abs_le.2 ⟨by linarith, by linarith⟩

/-! Boats with the speeds 2 + sin t and 2.1 + sin t; and steady boats with 5 and 5.5 knots. -/

example : |((2 * 3 + 1 - Real.cos 3) - (21 / 10 * 3 + 1 - Real.cos 3) : ℝ)| ≤ 1 / 10 * 3 * Real.exp (1 * 3) :=
  C179_voyage (δ := 1 / 10) (swell_steady one_lt_two) (fun s t => by
    rw [show (2 + Real.sin t) - (21 / 10 + Real.sin t) = -(1 / 10) by ring, abs_neg, abs_of_pos (by norm_num)])
    (swell_voyage 2) (swell_voyage (21 / 10)) (by norm_num)

example {ε : ℝ} (hε : 0 < ε) := C179_isochrone_limit (δ := 1 / 10) (swell_steady one_lt_two)
  (swell_steady (c := 21 / 10) (by norm_num)) (fun s t => by
    rw [show (2 + Real.sin t) - (21 / 10 + Real.sin t) = -(1 / 10) by ring, abs_neg, abs_of_pos (by norm_num)])
    (swell_voyage 2) (swell_voyage (21 / 10)) one_pos hε

theorem even_steady {c : ℝ} (hc : 0 < c) : Steady (fun _ _ => c) c c 0 ∧ Arrival (fun _ _ => c) fun s => s / c := by
  refine ⟨⟨hc, fun _ _ => le_rfl, fun _ _ => le_rfl, by simp⟩, ⟨by simp, fun s => ?_⟩⟩
  have : pace (fun _ _ => c) s (s / c) = 1 / c := by simp [pace, invSpeed, hc.ne']
  rw [this]
  exact (hasDerivAt_id s).div_const c

/-- The bound is attained. -/
example : |(10 / 5 - 10 / (11 / 2) : ℝ)| = 1 / 2 / (5 * (11 / 2)) * 10 * Real.exp (0 / 5 ^ 2 * 10) ∧
    |(10 / 5 - 10 / (11 / 2) : ℝ)| ≤ 1 / 2 / (5 * (11 / 2)) * 10 * Real.exp (0 / 5 ^ 2 * 10) := by
  refine ⟨?_, C179_arrival (even_steady (by norm_num)).1 (even_steady (by norm_num)).1 ?_ (even_steady (by norm_num)).2
    (even_steady (by norm_num)).2 (by norm_num)⟩
  · rw [zero_div, zero_mul, Real.exp_zero, abs_of_pos (by norm_num)]; norm_num
  · intro s t
    rw [abs_le]; norm_num

end Verif.Cruising
