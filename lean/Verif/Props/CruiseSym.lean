import Verif.Props.Convex
import Verif.Props.Cruising

set_option linter.unusedSectionVars false

/-! # C122: units of boat speeds, distances and times in cruises -/

namespace Verif.Convex

open scoped Pointwise

section
variable {n : Nat} {σ : Type} [DecidableEq σ] {vertices : List (Fin n)} {wa bsp : Fin n → ℝ}
  {info : Option (Fin n → σ)} {direction : ℝ}

theorem velocity_scale (c : ℝ) : velocity wa (fun i => c * bsp i) = fun i => c • velocity wa bsp i := by
  funext i
  simp only [velocity, mul_smul]

/-- **C122.** Boat speeds in other units have the same vertices of the convex hull. -/
theorem C122_hull {c : ℝ} (hc : 0 < c) :
    IsHull (velocity wa fun i => c * bsp i) vertices ↔ IsHull (velocity wa bsp) vertices := by
  have key : ∀ (P : Fin n → ℝ × ℝ) (S : Set (Fin n)) (i : Fin n),
      c • P i ∈ convexHull ℝ ((fun i => c • P i) '' S) ↔ P i ∈ convexHull ℝ (P '' S) := by
    intro P S i
    have : (fun i => c • P i) '' S = c • (P '' S) := by
      ext x
      simp only [Set.mem_image, Set.mem_smul_set]
      constructor
      · rintro ⟨j, hj, rfl⟩
        exact ⟨_, ⟨j, hj, rfl⟩, rfl⟩
      · rintro ⟨_, ⟨j, hj, rfl⟩, rfl⟩
        exact ⟨j, hj, rfl⟩
    rw [this, convexHull_smul]
    exact Set.smul_mem_smul_set_iff₀ hc.ne' _ _
  rw [velocity_scale]
  constructor
  · rintro ⟨h1, h2, h3⟩
    exact ⟨h1, fun i => (key _ _ _).1 (h2 i), fun v hv h => h3 v hv ((key _ _ _).2 h)⟩
  · rintro ⟨h1, h2, h3⟩
    exact ⟨h1, fun i => (key _ _ _).2 (h2 i), fun v hv h => h3 v hv ((key _ _ _).1 h)⟩

theorem firstProportion_scale {c : ℝ} (hc : 0 < c) (p q : ℝ × ℝ) (d : ℝ) :
    firstProportion (c • p) (c • q) d = firstProportion p q d := by
  unfold firstProportion solve2
  simp only [Prod.smul_fst, Prod.smul_snd, smul_eq_mul]
  have e : c * p.1 * (c * q.2) - c * q.1 * (c * p.2) = c ^ 2 * (p.1 * q.2 - q.1 * p.2) := by ring
  rw [e]
  by_cases h : p.1 * q.2 - q.1 * p.2 = 0
  · simp [h]
  · rw [if_neg h, if_neg (by positivity)]
    simp only
    have e1 : ((unit d).1 * (c * q.2) - c * q.1 * (unit d).2) / (c ^ 2 * (p.1 * q.2 - q.1 * p.2)) =
        c⁻¹ * (((unit d).1 * q.2 - q.1 * (unit d).2) / (p.1 * q.2 - q.1 * p.2)) := by
      field_simp
    have e2 : (c * p.1 * (unit d).2 - (unit d).1 * (c * p.2)) / (c ^ 2 * (p.1 * q.2 - q.1 * p.2)) =
        c⁻¹ * ((p.1 * (unit d).2 - (unit d).1 * p.2) / (p.1 * q.2 - q.1 * p.2)) := by
      field_simp
    rw [e1, e2, ← mul_add, mul_div_mul_left _ _ (inv_ne_zero hc.ne')]
    simp only [mul_eq_zero, inv_eq_zero, hc.ne', false_or]

/-- **C122.** The recommended directions, sails and proportions do not depend on the unit of the boat speeds. -/
theorem C122_directions {c : ℝ} (hc : 0 < c) :
    convexDirection vertices wa (fun i => c * bsp i) info direction = convexDirection vertices wa bsp info direction := by
  unfold convexDirection
  split
  · rfl
  · rename_i i1 i2 _
    have e : ∀ i, polarPoint (wa i) (c * bsp i) = c • polarPoint (wa i) (bsp i) := by
      intro i
      ext <;> simp [polarPoint, mul_assoc]
    simp only [e, firstProportion_scale hc]

/-- Times in another unit. -/
def scaleTimes (c : ℝ) (l : List (ℝ × Option ℝ)) : List (ℝ × Option ℝ) := l.map fun p => (p.1, p.2.map fun t => c * t)

theorem speedAt_scale (c x : ℝ) : speedAt wa (fun i => c * bsp i) x = (speedAt wa bsp x).map fun b => c * b := by
  unfold speedAt
  split <;> rfl

/-- **C122.** A boat which is `c` times as fast needs, for the same directions, `1 / c` of the time; the time is proportional
to the distance. -/
theorem C122_times {c : ℝ} (hc : 0 < c) (dist : ℝ) (ds : List (Direction σ)) :
    cruiseTimes wa (fun i => c * bsp i) dist ds = (cruiseTimes wa bsp dist ds).map (scaleTimes (1 / c)) ∧
    cruiseTimes wa bsp (c * dist) ds = (cruiseTimes wa bsp dist ds).map (scaleTimes c) := by
  match ds with
  | [] => exact ⟨rfl, rfl⟩
  | [d1] =>
    simp only [cruiseTimes, speedAt_scale]
    cases speedAt wa bsp d1.angle with
    | error e => exact ⟨rfl, rfl⟩
    | ok b =>
      by_cases hb : b = 0
      · simp [Except.map, hb, scaleTimes]
      · simp only [Except.map, mul_eq_zero, hc.ne', hb, or_self, if_false, scaleTimes, List.map_cons, List.map_nil,
          Option.map_some]
        constructor
        · congr 4
          field_simp
        · congr 4
          ring
  | d1 :: d2 :: l =>
    simp only [cruiseTimes, speedAt_scale]
    cases speedAt wa bsp d1.angle with
    | error e => exact ⟨rfl, rfl⟩
    | ok b1 =>
      cases speedAt wa bsp d2.angle with
      | error e => exact ⟨rfl, rfl⟩
      | ok b2 =>
        simp only [Except.map]
        cases d1.proportion with
        | none => simp [scaleTimes]
        | some l1 =>
          cases d2.proportion with
          | none => simp [scaleTimes]
          | some l2 =>
            have e : l1 * (c * b1) + l2 * (c * b2) = c * (l1 * b1 + l2 * b2) := by ring
            simp only [e, mul_eq_zero, hc.ne', false_or]
            by_cases hb : l1 * b1 + l2 * b2 = 0
            · simp [hb, scaleTimes]
            · have e1 : ∀ x : ℝ, x * (dist / (c * (l1 * b1 + l2 * b2))) = 1 / c * (x * (dist / (l1 * b1 + l2 * b2))) := by
                intro x
                field_simp
              have e2 : ∀ x : ℝ, x * (c * dist / (l1 * b1 + l2 * b2)) = c * (x * (dist / (l1 * b1 + l2 * b2))) := by
                intro x
                field_simp
              simp only [if_neg hb, Option.map_some, scaleTimes, List.map_cons, List.map_nil, e1, e2, and_self]

example : convexDirection sqVertices sqWa (fun i => 2 * sqBsp i) (some sqSails) 45
    = .ok [⟨0, some (1 / 2), some 0⟩, ⟨90, some (1 / 2), some 1⟩] := by
  rw [C122_directions (by norm_num), sqTwo]

end

/-- **C122 is false** for port and starboard: a boat which is equally fast on the courses 0, 90, 180 and 270 degrees is told
to sail to 0 degrees only if asked for 45 degrees, but is given a mixture of 0 and 270 degrees if asked for the mirrored
direction of 315 degrees. -/
theorem C122_mirror_false :
    (∀ i, ∃ j, sqBsp j = sqBsp i ∧ heading (sqWa j) = heading (360 - sqWa i)) ∧
    convexDirection sqVertices sqWa sqBsp (none : Option (Fin 4 → Nat)) 45 = .ok [⟨0, some 1, none⟩] ∧
    convexDirection sqVertices sqWa sqBsp (none : Option (Fin 4 → Nat)) (360 - 45)
      = .ok [⟨0, some (1 / 2), none⟩, ⟨270, some (1 / 2), none⟩] := by
  refine ⟨?_, ?_, ?_⟩
  · have h360 : heading (360 - 0) = heading 0 := by
      simp only [heading]
      rw [show (360 - 0) * Real.pi / 180 = 2 * Real.pi by ring, zero_mul, zero_div]
      simp
    intro i
    fin_cases i
    · exact ⟨0, rfl, h360.symm⟩
    · refine ⟨3, rfl, ?_⟩
      show heading 270 = heading (360 - 90)
      norm_num
    · refine ⟨2, rfl, ?_⟩
      show heading 180 = heading (360 - 180)
      norm_num
    · refine ⟨1, rfl, ?_⟩
      show heading 90 = heading (360 - 270)
      norm_num
  · unfold convexDirection
    rw [sqChoose45]
    simp only
    rw [if_pos (by simp)]
    simp [sqWa]
  · have h2 : (0 : ℝ) < Real.sqrt 2 := Real.sqrt_pos.mpr (by norm_num)
    have hch : chooseEdge sqWa (360 - 45) (sqVertices.insertionSort (· ≤ ·)) = .ok (0, 3) := by
      rw [sqSorted]
      unfold chooseEdge
      have : findEdge sqWa (360 - 45) [0, 1, 2, 3] = none := by
        simp only [findEdge]
        rw [if_neg (by simp [sqWa]; norm_num), if_neg (by simp [sqWa]; norm_num), if_neg (by simp [sqWa]; norm_num)]
      rw [this]
      simp only [List.head?_cons, List.getLast?_cons_cons, List.getLast?_singleton]
      rw [if_neg (by simp [sqWa]; norm_num)]
    have hf : firstProportion (polarPoint (sqWa 0) (sqBsp 0)) (polarPoint (sqWa 3) (sqBsp 3)) (360 - 45)
        = .ok (some (1 / 2)) := by
      unfold firstProportion solve2
      rw [polarPoint_velocity, polarPoint_velocity, sq0, sq3, unit_eq, show (360 - 45 : ℝ) = 315 by norm_num, heading_315]
      norm_num
      field_simp
    unfold convexDirection
    rw [hch]
    simp only
    rw [if_neg (by simp), hf]
    simp only [correct, Option.map_some]
    rw [if_neg (by norm_num)]
    simp only [Option.map_some, Option.map_none, Except.ok.injEq]
    norm_num [sqWa]
    rfl

end Verif.Convex

namespace Verif.Cruising

variable {K : Type} [Field K] [LinearOrder K] [IsStrictOrderedRing K]

/-- **C122.** If boat speeds are `c` times as large, the time per distance is `1 / c` of it, for places with weather data. -/
theorem C122_inverse_partial {W : Type} (w : W) {speed : W → Except PyErr K} {c : K} (hc : 0 < c) {x : K}
    (h : inverseBsp (.ok w) speed = .ok x) :
    inverseBsp (.ok w) (fun w => (speed w).map fun b => c * b) = .ok (1 / c * x) := by
  unfold inverseBsp at *
  simp only at *
  cases hs : speed w with
  | error e => simp [hs] at h
  | ok b =>
    simp only [hs, Except.ok.injEq] at h
    subst h
    simp only [Except.map, invSpeed]
    by_cases hb : b = 0
    · simp [hb]
    · rw [if_pos hb, if_pos (mul_ne_zero hc.ne' hb)]
      congr 1
      field_simp

example : inverseBsp (.ok ()) (fun _ => .ok (4 : Rat)) = .ok (1 / 4) := by decide +kernel

/-- **C122 is false** for places without weather data: the time per distance is 1000 whatever the units are. -/
theorem C122_weather_false {W : Type} (speed : W → Except PyErr K) (c : K) :
    inverseBsp (.error .valueError) (fun w => (speed w).map fun b => c * b) = inverseBsp (.error .valueError) speed := rfl

/-- The local variables of `isochrone` with times multiplied by `a` and distances multiplied by `b`. -/
def Iso.scale (a b : K) (st : Iso K) : Iso K := ⟨b * st.step, b * st.s, a * st.t, st.steps, a / b * st.der⟩

theorem isoLoop_scale {dtds dtds' : K → K → K} {a b : K} (ha : 0 < a) (hb : 0 < b)
    (h : ∀ s t, dtds' (b * s) (a * t) = a / b * dtds s t) (total : K) (minNodes fuel : Nat) (st : Iso K) :
    isoLoop dtds' (a * total) minNodes fuel (st.scale a b) = (isoLoop dtds total minNodes fuel st).map (Iso.scale a b) := by
  induction fuel generalizing st with
  | zero => rfl
  | succ fuel ih =>
    simp only [isoLoop]
    have e1 : (st.scale a b).t < a * total ↔ st.t < total := by
      simp only [Iso.scale]
      exact mul_lt_mul_iff_right₀ ha
    have e2 : a * total ≤ (st.scale a b).t ↔ total ≤ st.t := by
      simp only [Iso.scale]
      exact mul_le_mul_iff_right₀ ha
    have e3 : (st.scale a b).steps = st.steps := rfl
    have e4 : restart minNodes (st.scale a b) = (restart minNodes st).scale a b := by
      simp [restart, Iso.scale, mul_assoc]
    have e5 : advance dtds' (st.scale a b) = (advance dtds st).scale a b := by
      simp only [advance, Iso.scale, h, Iso.mk.injEq, true_and, and_true]
      refine ⟨by ring, by field_simp⟩
    simp only [e1, e2, e3, e4, e5]
    split
    · split
      · exact ih _
      · exact ih _
    · rfl

/-- **C122** (partial: if times and distances are multiplied by the same number). The distance sailed in a given time does not
depend on the units. -/
theorem C122_isochrone_partial {dtds : K → K → K} {c : K} (hc : 0 < c) (total : K) (minNodes fuel : Nat) :
    isochrone (fun s t => dtds (s / c) (t / c)) (c * total) minNodes fuel =
      (isochrone dtds total minNodes fuel).map (Except.map fun s => c * s) := by
  have hs : isoStart (c * total) minNodes = (isoStart total minNodes).scale c c := by
    simp only [isoStart, Iso.scale, mul_zero, Iso.mk.injEq, and_true]
    ring
  have hl := isoLoop_scale (dtds := dtds) (dtds' := fun s t => dtds (s / c) (t / c)) hc hc
    (by intro s t; simp only [mul_div_cancel_left₀ _ hc.ne', div_self hc.ne', one_mul]) total minNodes fuel
    (isoStart total minNodes)
  unfold isochrone
  rw [hs, hl]
  split
  · rfl
  · cases isoLoop dtds total minNodes fuel (isoStart total minNodes) with
    | none => rfl
    | some st =>
      simp only [Option.map_some, Iso.scale, div_self hc.ne', one_mul]
      by_cases hd : st.der = 0
      · simp [hd, Except.map]
      · simp only [if_neg hd, Option.map_some, Except.map]
        congr 2
        field_simp

example : isochrone (fun s _ => 1 + s) (1 : Rat) 2 20 = some (.ok (89 / 104)) := by decide +kernel

/-- **C122.** A boat with constant speed sails the product of speed and time, in all units. -/
theorem C122_constant {d total : K} (hd : d ≠ 0) {minNodes fuel : Nat} {x : Except PyErr K} (hm : minNodes ≠ 0) (h0 : 0 < total)
    (h : isochrone (fun _ _ => d) total minNodes fuel = some x) : x = .ok (total / d) := by
  have key : ∀ (fuel : Nat) (st st' : Iso K), st.t = d * st.s → (st.steps = 0 ∨ st.der = d) → (st.steps = 0 → st.t = 0) →
      isoLoop (fun _ _ => d) total minNodes fuel st = some st' → st'.t = d * st'.s ∧ st'.der = d := by
    intro fuel
    induction fuel with
    | zero => intro st st' _ _ _ h; simp [isoLoop] at h
    | succ fuel ih =>
      intro st st' h1 h2 h3 h
      simp only [isoLoop] at h
      split at h
      · split at h
        · exact ih _ _ (by simp [restart]) (.inl rfl) (by simp [restart]) h
        · exact ih _ _ (by simp only [advance, h1]; ring) (.inr rfl) (by simp [advance]) h
      · rename_i hn
        cases h
        rcases h2 with h2 | h2
        · exact absurd (Or.inl (by rw [h3 h2]; exact h0)) hn
        · exact ⟨h1, h2⟩
  unfold isochrone at h
  rw [if_neg hm] at h
  cases hl : isoLoop (fun _ _ => d) total minNodes fuel (isoStart total minNodes) with
  | none => simp [hl] at h
  | some st =>
    obtain ⟨k1, k2⟩ := key _ _ _ (by simp [isoStart]) (.inl rfl) (fun _ => rfl) hl
    simp only [hl, k2, if_neg hd, Option.some.injEq] at h
    rw [← h, k1]
    congr 2
    ring

example : isochrone (fun _ _ => (1 / 4 : Rat)) 3 2 20 = some (.ok 12) := by decide +kernel

/-- **C122 is false** for `isochrone` if only the unit of the times is changed: the first step is chosen for a boat of 5
distances per time. Here times are given in tenths of the former unit. -/
theorem C122_isochrone_false :
    ∃ (dtds : Rat → Rat → Rat) (x y : Rat), isochrone dtds 1 2 20 = some (.ok x) ∧
      isochrone (fun s t => 10 * dtds s (t / 10)) (10 * 1) 2 20 = some (.ok y) ∧ x ≠ y :=
  ⟨fun s _ => 1 + s, 89 / 104, 1649 / 1824, by decide +kernel, by decide +kernel, by decide +kernel⟩

end Verif.Cruising
