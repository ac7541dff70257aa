import Mathlib.Analysis.Calculus.Deriv.Inverse
import Mathlib.Topology.Order.MonotoneContinuity
import Verif.Model.AgreeCruise
import Verif.Props.Course
import Verif.Props.CruiseSym
import Verif.Props.IsochroneLimit

/-!
# Property C173: isochrone and cost_cruise agree
-/

set_option linter.unusedSectionVars false

namespace Verif.Course

open Verif.Cruising

/-- The projection of the end of `isochrone`. -/
theorem mercator_isoEnd (latMp : ℝ) (start : ℝ × ℝ) (direction s : ℝ) :
    Cruising.mercator latMp (isoEnd start direction s) =
      ((Cruising.mercator latMp start).1 + s * (isoDirection direction).1,
        (Cruising.mercator latMp start).2 + s * (isoDirection direction).2) := by
  have h := C46_inverse start.1 ((Cruising.mercator start.1 start).1 + s * (isoDirection direction).1)
    ((Cruising.mercator start.1 start).2 + s * (isoDirection direction).2)
  have h1 := congrArg Prod.fst h
  have h2 := congrArg Prod.snd h
  unfold isoEnd
  simp only [Cruising.mercator] at h1 h2 ⊢
  refine Prod.ext ?_ ?_
  · simp only
    linarith
  · simpa only using h2

theorem isoDirection_unit (direction : ℝ) : (isoDirection direction).1 ^ 2 + (isoDirection direction).2 ^ 2 = 1 := by
  simp only [isoDirection]
  exact Real.cos_sq_add_sin_sq _

/-- **C173.** `cost_cruise` from the start to the end of an isochrone uses the same distance. -/
theorem C173_distance (start : ℝ × ℝ) (direction s : ℝ) : totalS start (isoEnd start direction s) = |s| := by
  unfold totalS
  simp only [mercator_isoEnd]
  rw [← Real.sqrt_sq_eq_abs]
  congr 1
  have := isoDirection_unit direction
  linear_combination s ^ 2 * this

/-- **C173.** … and passes the same places. -/
theorem C173_places (start : ℝ × ℝ) (direction : ℝ) {s : ℝ} (hs : 0 < s) (r : ℝ) :
    costPlace start (isoEnd start direction s) r = some (isoEnd start direction r) := by
  have h0 : ¬ totalS start (isoEnd start direction s) = 0 := by
    rw [C173_distance, abs_of_pos hs]
    exact hs.ne'
  unfold costPlace position
  simp only [h0, if_false, Option.map_some, Option.some.injEq]
  rw [C173_distance, abs_of_pos hs, mercator_isoEnd]
  unfold isoEnd
  simp only [inverseMercator, Cruising.mercator]
  refine Prod.ext ?_ ?_
  · simp only
    field_simp
    ring
  · simp only
    congr 3
    field_simp
    ring

/-- **C173** (partial: boats whose speed does not depend on the heading, see `C173_heading_false`). The time per distance is the
same. -/
theorem C173_pace_partial (speed : ℝ × ℝ → ℝ → ℝ → ℝ) (start : ℝ × ℝ) (direction : ℝ) {s : ℝ} (hs : 0 < s)
    (hh : ∀ p t h h', speed p t h = speed p t h') {hdt : ℝ}
    (hc : rightHandingCourse start (isoEnd start direction s) = some hdt) (r t : ℝ) :
    costPace speed start (isoEnd start direction s) r t = some (isoPace speed start direction r t) := by
  unfold costPace
  rw [C173_places start direction hs, hc]
  simp only [isoPace, isoEnd, Option.some.injEq]
  rw [hh _ _ hdt direction]

/-- A boat with 5 knots from the place (0, 0) eastwards. -/
example : (0 : ℝ) < 5 ∧ ∀ (p : ℝ × ℝ) (t h h' : ℝ), (fun _ _ _ => 5 : ℝ × ℝ → ℝ → ℝ → ℝ) p t h = (fun _ _ _ => 5 : ℝ × ℝ → ℝ → ℝ → ℝ) p t h' :=
  ⟨by norm_num, fun _ _ _ _ => rfl⟩

/-- **C173.** The headings: those of `cost_cruise` are numbers from 0 to π (or nan). -/
theorem C173_heading {a b : ℝ × ℝ} {c : ℝ} (h : rightHandingCourse a b = some c) : 0 ≤ c ∧ c ≤ Real.pi := by
  unfold rightHandingCourse at h
  simp only at h
  split at h
  · simp at h
  · split at h
    · simp at h
    · rw [← Option.some.inj h]
      exact ⟨Real.arccos_nonneg _, Real.arccos_le_pi _⟩

/-- **C173 is false** for all directions of more than π degrees: `cost_cruise` uses another heading than `isochrone`. -/
theorem C173_heading_false (start : ℝ × ℝ) {direction : ℝ} (hd : Real.pi < direction) (s : ℝ) :
    rightHandingCourse start (isoEnd start direction s) ≠ some direction := fun h =>
  absurd (C173_heading h).2 (not_le.2 hd)

/-- **C173 is false**: for a boat with 5 knots in the direction 90 and 10 knots in the directions up to 4 degrees, the isochrone
from the place (0, 0) in the direction 90 reaches 5 miles in an hour, and `cost_cruise` calculates the pace of 10 knots for this way. -/
theorem C173_boat_false {minNodes : Nat} (hn : 0 < minNodes) :
    let speed : ℝ × ℝ → ℝ → ℝ → ℝ := fun _ _ h => if h ≤ 4 then 10 else 5
    (∃ fuel, isochrone (isoPace speed (0, 0) 90) 1 minNodes fuel = some (.ok 5)) ∧
    ∀ r t, costPace speed (0, 0) (isoEnd (0, 0) 90 5) r t = some (1 / 10) := by
  intro speed
  constructor
  · have hp : isoPace speed (0, 0) 90 = fun _ _ => 1 / 5 := by
      funext s t
      simp only [isoPace, speed, invSpeed]
      norm_num
    rw [hp]
    obtain ⟨fuel, s, h⟩ := C45_terminates_partial (dtds := fun _ _ => (1 / 5 : ℝ)) (total := 1) (m := 1 / 5) (M := 1 / 5)
      (by norm_num) (by norm_num) (fun _ _ => le_rfl) (fun _ _ => le_rfl) hn
    have := C122_constant (d := (1 / 5 : ℝ)) (total := 1) (by norm_num) (by omega) (by norm_num) (h 0)
    refine ⟨fuel + 0, (h 0).trans ?_⟩
    rw [this]
    norm_num
  · intro r t
    have he : isoEnd (0, 0) 90 5 = (5 / 69, 0) := by
      have := C75_east_false (0, 0) 5 (by norm_num) (by norm_num)
      simpa using this
    have hc : rightHandingCourse (0, 0) (isoEnd (0, 0) 90 5) = some (Real.pi / 2) := by
      rw [he, C74_course_partial 0 (5 / 69, 0)]
      · congr 1
        unfold trueCourse
        have hs : 0 < Real.sin (5 / 69) := Real.sin_pos_of_pos_of_lt_pi (by norm_num) (by linarith [Real.pi_gt_three])
        simp only [Real.cos_zero, Real.sin_zero, mul_zero, zero_mul, sub_zero, mul_one]
        exact Complex.arg_eq_pi_div_two_iff.2 ⟨rfl, hs⟩
      · simp only [sub_zero]
        exact (Real.sin_pos_of_pos_of_lt_pi (by norm_num) (by linarith [Real.pi_gt_three])).le
      · simp
      · right
        simp only [sub_zero]
        exact Real.sin_pos_of_pos_of_lt_pi (by norm_num) (by linarith [Real.pi_gt_three])
    unfold costPace
    rw [C173_places (0, 0) 90 (by norm_num), hc]
    have h4 : Real.pi / 2 ≤ 4 := by linarith [Real.pi_le_four]
    simp only [speed, h4, if_true, invSpeed]
    norm_num

end Verif.Course

namespace Verif.Cruising

/-- The times of arrival of a boat with the speed `b`, the exact solution of the initial value problem of `cost_cruise`. -/
structure Arrival (b : ℝ → ℝ → ℝ) (T : ℝ → ℝ) : Prop where
  start : T 0 = 0
  deriv : ∀ s, HasDerivAt T (pace b s (T s)) s

/-- The way of the boat is the inverse of the times of arrival. -/
theorem Arrival.voyage {b : ℝ → ℝ → ℝ} {lo hi L : ℝ} (hb : Steady b lo hi L) {T : ℝ → ℝ} (hT : Arrival b T) :
    ∃ x, Voyage b x ∧ ∀ s, x (T s) = s := by
  have hhi : 0 < hi := hb.lo_pos.trans_le hb.lo_le_hi
  have hlow : ∀ s t, 1 / hi ≤ pace b s t := by
    intro s t
    have : 0 < b s t := hb.lo_pos.trans_le (hb.le s t)
    rw [pace, invSpeed, if_pos this.ne']
    exact one_div_le_one_div_of_le this (hb.ge s t)
  have hpos : ∀ s t, 0 < pace b s t := fun s t => lt_of_lt_of_le (by positivity) (hlow s t)
  have hcont : Continuous T := continuous_iff_continuousAt.2 fun s => (hT.deriv s).continuousAt
  have hmono : StrictMono T := strictMono_of_hasDerivAt_pos hT.deriv fun s => hpos s (T s)
  have hgrow : ∀ s u, s ≤ u → (u - s) / hi ≤ T u - T s := by
    intro s u h
    rcases h.lt_or_eq with h | rfl
    · obtain ⟨c, -, e⟩ := exists_hasDerivAt_eq_slope T (fun s => pace b s (T s)) h hcont.continuousOn
        (fun y _ => hT.deriv y)
      have h1 := hlow c (T c)
      rw [e, le_div_iff₀ (by linarith)] at h1
      rw [div_eq_inv_mul, ← one_div]
      exact h1
    · simp
  have hsurj : Function.Surjective T := by
    apply hcont.surjective
    · refine Filter.tendsto_atTop_mono' _ ?_ (Filter.tendsto_id.atTop_div_const hhi)
      filter_upwards [Filter.eventually_ge_atTop 0] with s hs
      have := hgrow 0 s hs
      rw [hT.start] at this
      simpa using this
    · refine Filter.tendsto_atBot_mono' _ ?_ (Filter.tendsto_id.atBot_div_const hhi)
      filter_upwards [Filter.eventually_le_atBot 0] with s hs
      have := hgrow s 0 hs
      rw [hT.start, zero_sub, zero_sub, neg_div] at this
      simp only [id]
      linarith
  let e := hmono.orderIsoOfSurjective T hsurj
  have he : ∀ s, e s = T s := fun s => rfl
  refine ⟨e.symm, ⟨?_, fun t => ?_⟩, fun s => ?_⟩
  · have h := e.symm_apply_apply 0
    rwa [he, hT.start] at h
  · have hcs : ContinuousAt e.symm t := e.symm.continuous.continuousAt
    have h1 : HasDerivAt T (pace b (e.symm t) (T (e.symm t))) (e.symm t) := hT.deriv _
    have h2 := HasDerivAt.of_local_left_inverse hcs h1 (hpos _ _).ne'
      (Filter.Eventually.of_forall fun y => by rw [← he, OrderIso.apply_symm_apply])
    have h3 : T (e.symm t) = t := by rw [← he, OrderIso.apply_symm_apply]
    rw [h3] at h2
    have hp : 0 < b (e.symm t) t := hb.lo_pos.trans_le (hb.le _ _)
    have h4 : (pace b (e.symm t) t)⁻¹ = b (e.symm t) t := by
      rw [pace, invSpeed, if_pos hp.ne', one_div, inv_inv]
    rwa [h4] at h2
  · rw [← he, OrderIso.symm_apply_apply]

/-- **C173.** For the same pace (see `C173_pace_partial`) the time of arrival at the distance returned by `isochrone` differs from
`total_time` at most by the given bound, which goes to zero with more nodes. -/
theorem C173_time {b : ℝ → ℝ → ℝ} {lo hi L : ℝ} (hb : Steady b lo hi L) {T : ℝ → ℝ} (hT : Arrival b T) {total : ℝ}
    (h0 : 0 < total) {minNodes fuel : Nat} (hn : 2 ≤ minNodes) {s : ℝ}
    (h : isochrone (pace b) total minNodes fuel = some (.ok s)) :
    |T s - total| ≤ L * (1 + hi) * (hi / lo) * total ^ 2 * Real.exp (L * total) / ((minNodes : ℝ) - 1) / lo := by
  obtain ⟨x, hx, hinv⟩ := hT.voyage hb
  have he := C133_error hb hx h0 hn h
  have hlo := hb.lo_pos
  rw [le_div_iff₀ hlo]
  refine le_trans ?_ he
  have key : ∀ t u, t ≤ u → lo * (u - t) ≤ x u - x t := by
    intro t u htu
    obtain ⟨c, -, -, e⟩ := hx.between htu
    rw [e]
    exact mul_le_mul_of_nonneg_right (hb.le _ _) (by linarith)
  rcases le_total (T s) total with h1 | h1
  · have := key _ _ h1
    rw [hinv] at this
    rw [abs_of_nonpos (by linarith), abs_of_nonpos (by nlinarith)]
    linarith
  · have := key _ _ h1
    rw [hinv] at this
    rw [abs_of_nonneg (by linarith), abs_of_nonneg (by nlinarith)]
    linarith

/-- **C173** (partial: boats whose speed does not depend on the heading). From end to end: if `isochrone` returns the distance `s`,
and `T` solves the initial value problem of `cost_cruise` for the way to the end of the isochrone, then the time which `cost_cruise`
gives for the whole way differs from `total_time` at most by the given bound. -/
theorem C173_agree_partial (speed : ℝ × ℝ → ℝ → ℝ → ℝ) (start : ℝ × ℝ) (direction : ℝ) {lo hi L : ℝ}
    (hh : ∀ p t h h', speed p t h = speed p t h')
    (hb : Steady (fun s t => speed (Course.isoEnd start direction s) t direction) lo hi L) {total : ℝ}
    (h0 : 0 < total) {minNodes fuel : Nat} (hn : 2 ≤ minNodes) {s : ℝ} (hs : 0 < s)
    (h : isochrone (Course.isoPace speed start direction) total minNodes fuel = some (.ok s))
    {hdt : ℝ} (hc : Course.rightHandingCourse start (Course.isoEnd start direction s) = some hdt) {T : ℝ → ℝ} (hT0 : T 0 = 0)
    (hT : ∀ r, ∃ p, Course.costPace speed start (Course.isoEnd start direction s) r (T r) = some p ∧ HasDerivAt T p r) :
    |T (Course.totalS start (Course.isoEnd start direction s)) - total| ≤
      L * (1 + hi) * (hi / lo) * total ^ 2 * Real.exp (L * total) / ((minNodes : ℝ) - 1) / lo := by
  rw [Course.C173_distance, abs_of_pos hs]
  refine C173_time hb ⟨hT0, fun r => ?_⟩ h0 hn h
  obtain ⟨p, hp, hd⟩ := hT r
  rw [Course.C173_pace_partial speed start direction hs hh hc] at hp
  rw [← Option.some.inj hp] at hd
  exact hd

/-- A boat with 5 knots. -/
example : Steady (fun _ _ => 5) 5 5 0 ∧ Arrival (fun _ _ => 5) fun s => s / 5 := by
  refine ⟨⟨by norm_num, fun _ _ => le_rfl, fun _ _ => le_rfl, by simp⟩, ⟨by simp, fun s => ?_⟩⟩
  have : pace (fun _ _ => 5) s (s / 5) = 1 / 5 := by simp [pace, invSpeed]
  rw [this]
  exact (hasDerivAt_id s).div_const 5

end Verif.Cruising
