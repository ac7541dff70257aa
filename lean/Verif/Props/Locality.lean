import Verif.Model.ExtensionMask
import Verif.Props.Extension
import Verif.Props.Neighbourhood

/-!
# C131: interpolated speeds depend only on the measurements nearby
-/

set_option linter.unusedSectionVars false

namespace Verif.Ext

open Verif.Interp

variable {K : Type} [Field K] [LinearOrder K] [IsStrictOrderedRing K]

theorem selectMask_map (f : Pt K × K → Bool) (points : List (Pt K × K)) :
    selectMask points (points.map f) = points.filter f := by
  induction points with
  | nil => rfl
  | cons p ps ih =>
    simp only [selectMask, List.map_cons, List.zip_cons_cons, List.filter_cons] at ih ⊢
    cases f p <;> simp [ih]

theorem any_map_id (f : Pt K × K → Bool) (points : List (Pt K × K)) :
    (points.map f).any id = !(points.filter f).isEmpty := by
  induction points with
  | nil => rfl
  | cons p ps ih =>
    rw [List.map_cons, List.any_cons, List.filter_cons]
    cases h : f p <;> simp [ih]

/-- What an extension computes is determined by the measurements selected by the mask. -/
theorem interpolatePointMask_eq {nbh : List (K × K) → Except PyErr Nbh.Mask}
    (interpolate : List (Pt K × K) → K × K → Except PyErr K) {points : List (Pt K × K)} {g : K × K} {f : K × K → Bool}
    (h : nbh (points.map fun p => p.1.1 - g) = .ok (.arr ((points.map fun p => p.1.1 - g).map f))) :
    interpolatePointMask nbh interpolate points g = interpolatePoint f interpolate points g := by
  have e : (points.map fun p => p.1.1 - g).map f = points.map fun p => f (p.1.1 - g) := by simp [Function.comp_def]
  unfold interpolatePointMask interpolatePoint
  rw [h, e]
  simp only [selectMask_map, any_map_id]
  cases points.filter (fun p => f (p.1.1 - g)) <;> rfl

/-- **C131.** With a `Ball` of given radius, the value at a wind is computed from the measurements whose distance from it is
at most the radius: the neighbourhood of the other model, deciding for single points, describes it exactly. -/
theorem C131_ball (norm : Nbh.Norm K) {f : K × K → K} (hn : ∀ pts, norm.array pts = .ok (pts.map f)) (radius : K)
    (interpolate : List (Pt K × K) → K × K → Except PyErr K) (points : List (Pt K × K)) (g : K × K) :
    interpolatePointMask (Nbh.ball norm radius) interpolate points g =
      interpolatePoint (fun d => decide (f d ≤ radius)) interpolate points g := by
  apply interpolatePointMask_eq
  simp [Nbh.ball, hn, Function.comp_def]

/-- **C131.** The value at a wind depends only on the measurements in its neighbourhood. -/
theorem C131_local {nbh : K × K → Bool} (interpolate : List (Pt K × K) → K × K → Except PyErr K)
    {points points' : List (Pt K × K)} {g : K × K}
    (h : points.filter (fun p => nbh (p.1.1 - g)) = points'.filter fun p => nbh (p.1.1 - g)) :
    interpolatePoint nbh interpolate points g = interpolatePoint nbh interpolate points' g := by
  unfold interpolatePoint
  rw [h]

/-- **C131.** Adding a measurement outside of the neighbourhood of a wind, anywhere in the data, does not change the value
there, and neither does changing one outside into another one outside. -/
theorem C131_far {nbh : K × K → Bool} (interpolate : List (Pt K × K) → K × K → Except PyErr K)
    (before after : List (Pt K × K)) {p q : Pt K × K} {g : K × K} (hp : nbh (p.1.1 - g) = false)
    (hq : nbh (q.1.1 - g) = false) :
    interpolatePoint nbh interpolate (before ++ p :: after) g = interpolatePoint nbh interpolate (before ++ after) g ∧
    interpolatePoint nbh interpolate (before ++ p :: after) g = interpolatePoint nbh interpolate (before ++ q :: after) g := by
  constructor <;> refine C131_local interpolate ?_ <;> simp [List.filter_cons, hp, hq]

/-! ### `ScalingBall` -/

theorem insertionSort_insert (x : K) (l m : List K) :
    (l ++ x :: m).insertionSort (· ≤ ·) = ((l ++ m).insertionSort (· ≤ ·)).orderedInsert (· ≤ ·) x := by
  refine List.Perm.eq_of_pairwise' (r := (· ≤ ·)) (List.pairwise_insertionSort _ _)
    ((List.pairwise_insertionSort _ _).orderedInsert _ _) ?_
  refine (List.perm_insertionSort _ _).trans (List.perm_middle.trans ?_)
  exact ((List.perm_insertionSort _ _).symm.cons x).trans (List.perm_orderedInsert _ _ _).symm

/-- In a sorted list with at least `n + 1` entries less than `x`, the entry at `n` is less than `x` and does not change if `x` is
inserted. -/
theorem getElem?_orderedInsert {s : List K} (hs : s.Pairwise (· ≤ ·)) {x : K} {n : Nat}
    (h : n < s.countP fun y => decide (y < x)) :
    ∃ r, s[n]? = some r ∧ r < x ∧ (s.orderedInsert (· ≤ ·) x)[n]? = some r := by
  induction s generalizing n with
  | nil => simp at h
  | cons y s ih =>
    rw [List.pairwise_cons] at hs
    have hyx : y < x := by
      by_contra hy
      rw [List.countP_eq_zero.2] at h
      · omega
      · intro z hz
        have : y ≤ z := by
          rcases List.mem_cons.1 hz with rfl | hz
          · exact le_refl _
          · exact hs.1 z hz
        simpa using (not_lt.1 hy).trans this
    have hins : (y :: s).orderedInsert (· ≤ ·) x = y :: s.orderedInsert (· ≤ ·) x := by
      simp [List.orderedInsert, not_le.2 hyx]
    cases n with
    | zero => exact ⟨y, rfl, hyx, by rw [hins]; rfl⟩
    | succ n =>
      rw [List.countP_cons_of_pos (by simpa using hyx)] at h
      obtain ⟨r, h1, h2, h3⟩ := ih hs.2 (n := n) (by omega)
      exact ⟨r, by simpa using h1, h2, by rw [hins]; simpa using h3⟩

/-- **C131.** With a `ScalingBall` holding `m` points, adding a measurement further away from a wind than `m` others, anywhere
in the data, does not change the value there. -/
theorem C131_scaling_ball (norm : K × K → K) {m : Nat} (hm : 0 < m) (interpolate : List (Pt K × K) → K × K → Except PyErr K)
    (before after : List (Pt K × K)) {q : Pt K × K} {g : K × K}
    (h : m ≤ (before ++ after).countP fun p => decide (norm (p.1.1 - g) < norm (q.1.1 - g))) :
    interpolatePointMask (Nbh.scalingBall norm m) interpolate (before ++ q :: after) g =
      interpolatePointMask (Nbh.scalingBall norm m) interpolate (before ++ after) g := by
  set d : Pt K × K → K := fun p => norm (p.1.1 - g) with hd
  have hlen : (before ++ after).length ≠ 0 := by
    have := List.countP_le_length (p := fun p => decide (norm (p.1.1 - g) < norm (q.1.1 - g))) (l := before ++ after)
    omega
  have hmap : ∀ l : List (Pt K × K), (l.map fun p => p.1.1 - g).map norm = l.map d := by
    intro l; simp [hd, Function.comp_def]
  obtain ⟨r, h1, h2, h3⟩ := getElem?_orderedInsert (s := ((before ++ after).map d).insertionSort (· ≤ ·)) (x := d q) (n := m - 1)
    (List.pairwise_insertionSort _ _) (by
      rw [(List.perm_insertionSort _ _).countP_eq, List.countP_map]
      have : ((fun y => decide (y < d q)) ∘ d) = fun p : Pt K × K => decide (norm (p.1.1 - g) < norm (q.1.1 - g)) := rfl
      rw [this]
      omega)
  have hins : ((before ++ q :: after).map d).insertionSort (· ≤ ·) =
      (((before ++ after).map d).insertionSort (· ≤ ·)).orderedInsert (· ≤ ·) (d q) := by
    rw [List.map_append, List.map_cons, insertionSort_insert, List.map_append]
  have hpy : ∀ s : List K, s[m - 1]? = some r → pyIndex s ((m : Int) - 1) = some r := by
    intro s hs
    have h0 : (0 : Int) ≤ (m : Int) - 1 := by omega
    have h1 : ((m : Int) - 1).toNat = m - 1 := by omega
    simp only [pyIndex, h0, if_true, h1, hs]
  have key : ∀ l : List (Pt K × K), l.length ≠ 0 → ((l.map d).insertionSort (· ≤ ·))[m - 1]? = some r →
      interpolatePointMask (Nbh.scalingBall norm m) interpolate l g =
        interpolatePoint (fun x => decide (norm x ≤ r)) interpolate l g := by
    intro l hl hr
    apply interpolatePointMask_eq
    have hl' : ¬ (l.map fun p => p.1.1 - g).length = 0 := by simpa using hl
    simp only [Nbh.scalingBall, hl', if_false, hmap, hpy _ hr, List.map_map]
    rfl
  rw [key _ (by simp) (by rw [hins]; exact h3), key _ hlen h1]
  exact (C131_far interpolate before after (p := q) (q := q) (by simpa using h2) (by simpa using h2)).1

/-- Three measurements near and one far away. -/
example : (2 : Nat) ≤ (([((((10 : ℚ), 90), 5), 1), (((11, 90), 6), 1)] : List (Pt ℚ × ℚ)) ++ [(((12, 90), 7), 1)]).countP
      (fun p : Pt ℚ × ℚ => decide (|(p.1.1 - ((10 : ℚ), (90 : ℚ))).1| < |(((20 : ℚ), (90 : ℚ)) - (10, 90)).1|)) ∧
    interpolatePointMask (Nbh.scalingBall (fun x : ℚ × ℚ => |x.1|) 2) (fun l _ => .ok (l.map fun p : Pt ℚ × ℚ => p.1.2).sum)
      [(((10, 90), 5), 1), (((11, 90), 6), 1), (((20, 90), 100), 1), (((12, 90), 7), 1)] (10, 90) = .ok ((10, 90), 11) := by
  decide +kernel

section Tables

variable [FloorRing K]

/-- **C131.** Tables with given wind speeds and wind angles, made from two data sets: wherever the measurements in the
neighbourhood of a wind of the table are the same, so is the entry. -/
theorem C131_table {nbh : K × K → Bool} {interpolate : List (Pt K × K) → K × K → Except PyErr K}
    {points points' : List (Pt K × K)} {ws wa : List K} (hws : ws ≠ []) (hwa : wa ≠ []) (h0 : ∀ w ∈ ws, 0 ≤ w)
    (hwsn : ws.Nodup) (hwan : (wa.map fun a => pmod a 360).Nodup) {v v' : K × K → K}
    (hv : ∀ w ∈ ws, ∀ a ∈ wa, IsValue nbh interpolate points (w, pmod a 360) (v (w, pmod a 360)))
    (hv' : ∀ w ∈ ws, ∀ a ∈ wa, IsValue nbh interpolate points' (w, pmod a 360) (v' (w, pmod a 360))) :
    ∃ t t', tableProcess (.pair (.values ws) (.values wa)) nbh interpolate points = .ok t ∧
      tableProcess (.pair (.values ws) (.values wa)) nbh interpolate points' = .ok t' ∧
      ∀ w ∈ ws, ∀ a ∈ wa,
        (points.filter (fun p => nbh (p.1.1 - (w, pmod a 360))) = points'.filter fun p => nbh (p.1.1 - (w, pmod a 360))) →
        t.get w (pmod a 360) = t'.get w (pmod a 360) ∧ ∃ x, t.get w (pmod a 360) = .ok x := by
  obtain ⟨t, t1, -, -, t2⟩ := C82_given hws hwa h0 hwsn hwan hv
  obtain ⟨t', t1', -, -, t2'⟩ := C82_given hws hwa h0 hwsn hwan hv'
  refine ⟨t, t', t1, t1', fun w hw a ha h => ?_⟩
  have e := C131_local interpolate h
  rw [interpolatePoint_eq (hv w hw a ha), interpolatePoint_eq (hv' w hw a ha)] at e
  simp only [Except.ok.injEq, Prod.mk.injEq, true_and] at e
  rw [t2 w hw a ha, t2' w hw a ha, e]
  exact ⟨rfl, _, rfl⟩

/-- Changing the measurement at wind speed 7 changes nothing at wind speed 5. -/
example : ((tableProcess (.pair (.values [5, 7]) (.values [90, 30])) (fun d => decide (|d.1| ≤ 1) && decide (|d.2| ≤ 1))
      (fun ps _ => .ok (ps.map fun p => p.1.2).sum) [((((5 : ℚ), 90), 3), 1), (((7, 90), 4), 1)]).bind fun t => t.get 5 90) = .ok 3 ∧
    ((tableProcess (.pair (.values [5, 7]) (.values [90, 30])) (fun d => decide (|d.1| ≤ 1) && decide (|d.2| ≤ 1))
      (fun ps _ => .ok (ps.map fun p => p.1.2).sum) [((((5 : ℚ), 90), 3), 1), (((7, 90), 40), 1)]).bind fun t => t.get 5 90) = .ok 3 := by
  decide +kernel

end Tables

end Verif.Ext
