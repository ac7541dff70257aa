import Verif.Model.FloatNeighbourhood
import Verif.Props.FloatIdw
import Verif.Props.Neighbourhood

/-!
# Property C172: neighbourhoods of grid points in double precision
-/

set_option linter.unusedSectionVars false

namespace Verif.F64

open Verif.Nbh (Describes Mask)

section

variable {K : Type} [Field K] [LinearOrder K] [IsStrictOrderedRing K] [FloorRing K]

/-- Doubles are multiples of a power of two with less than 53 bits. -/
theorem exists_dyadic (x : K) : ∃ m k : ℤ, |m| < 2 ^ 53 ∧ fl x = (m : K) * 2 ^ k := by
  by_cases hx : x = 0
  · exact ⟨0, 0, by norm_num, by simp [hx, fl_zero]⟩
  obtain ⟨h1, h2⟩ := log_bounds hx
  have hb : |pyRound (x / 2 ^ (Int.log 2 |x| - 52))| ≤ 2 ^ 53 := by
    have hd : |x / 2 ^ (Int.log 2 |x| - 52)| < 2 ^ (53 : ℤ) := by
      rwa [abs_div, abs_of_pos (two_zpow_pos (K := K) _)]
    have h3 := abs_lt.1 hd
    have h4 : pyRound (x / 2 ^ (Int.log 2 |x| - 52)) ≤ pyRound (((2 ^ 53 : ℤ) : K)) :=
      pyRound_mono (h3.2.le.trans (by norm_num))
    have h5 : pyRound ((-(2 ^ 53) : ℤ) : K) ≤ pyRound (x / 2 ^ (Int.log 2 |x| - 52)) :=
      pyRound_mono (le_trans (by norm_num) h3.1.le)
    rw [pyRound_int] at h4 h5
    exact abs_le.2 ⟨h5, h4⟩
  have he : fl x = (pyRound (x / 2 ^ (Int.log 2 |x| - 52)) : K) * 2 ^ (Int.log 2 |x| - 52) := by
    simp [fl, hx]
  rcases lt_or_eq_of_le hb with h | h
  · exact ⟨_, _, h, he⟩
  · rcases abs_eq (by norm_num) |>.1 h with h | h
    · refine ⟨2 ^ 52, Int.log 2 |x| - 52 + 1, by norm_num, ?_⟩
      rw [he, h, zpow_add_one₀ (by norm_num)]
      push_cast
      ring
    · refine ⟨-2 ^ 52, Int.log 2 |x| - 52 + 1, by norm_num, ?_⟩
      rw [he, h, zpow_add_one₀ (by norm_num)]
      push_cast
      ring

/-- The difference of doubles which are not far apart is exact (Sterbenz). -/
theorem sub_exact {x y : K} (hx : fl x = x) (hy : fl y = y) (h1 : y ≤ 2 * x) (h2 : x ≤ 2 * y) : fl (x - y) = x - y := by
  obtain ⟨m, k, hm, ex⟩ := exists_dyadic x
  obtain ⟨n, l, hn, ey⟩ := exists_dyadic y
  rw [hx] at ex
  rw [hy] at ey
  have hx0 : 0 ≤ x := by linarith
  have hy0 : 0 ≤ y := by linarith
  rcases le_total k l with hkl | hkl
  · obtain ⟨j, rfl⟩ := Int.le.dest hkl
    have e : x - y = ((m - n * 2 ^ j : ℤ) : K) * 2 ^ k := by
      rw [ex, ey, zpow_add₀ (by norm_num)]
      push_cast
      rw [zpow_natCast]
      ring
    have hp := two_zpow_pos (K := K) k
    have hb : |((m - n * 2 ^ j : ℤ) : K)| ≤ ((|m| : ℤ) : K) := by
      have : |x - y| ≤ |x| := by
        rw [abs_of_nonneg hx0]
        exact abs_le.2 ⟨by linarith, by linarith⟩
      rw [e, ex, abs_mul, abs_mul, abs_of_pos hp] at this
      have := le_of_mul_le_mul_right this hp
      rwa [Int.cast_abs]
    rw [e]
    apply fl_exact
    rw [← Int.cast_abs] at hb
    have : |m - n * 2 ^ j| ≤ |m| := by exact_mod_cast hb
    omega
  · obtain ⟨j, rfl⟩ := Int.le.dest hkl
    have e : x - y = ((m * 2 ^ j - n : ℤ) : K) * 2 ^ l := by
      rw [ex, ey, zpow_add₀ (by norm_num)]
      push_cast
      rw [zpow_natCast]
      ring
    have hp := two_zpow_pos (K := K) l
    have hb : |((m * 2 ^ j - n : ℤ) : K)| ≤ ((|n| : ℤ) : K) := by
      have : |x - y| ≤ |y| := by
        rw [abs_of_nonneg hy0]
        exact abs_le.2 ⟨by linarith, by linarith⟩
      rw [e, ey, abs_mul, abs_mul, abs_of_pos hp] at this
      have := le_of_mul_le_mul_right this hp
      rwa [Int.cast_abs]
    rw [e]
    apply fl_exact
    rw [← Int.cast_abs] at hb
    have : |m * 2 ^ j - n| ≤ |n| := by exact_mod_cast hb
    omega

theorem fl_abs (x : K) : fl |x| = |fl x| := by
  rcases le_total 0 x with h | h
  · rw [abs_of_nonneg h, abs_of_nonneg (fl_nonneg h)]
  · rw [abs_of_nonpos h, fl_neg, abs_of_nonpos]
    have := fl_nonneg (neg_nonneg.2 h)
    rw [fl_neg] at this
    linarith

/-- The masks of the shifted points. -/
theorem describes_shift {mask : Mask} {g : K × K} {pts : List (K × K)} {S : K × K → Prop} (h : Describes mask (shift g pts) S) :
    Describes mask pts fun p => S (fl (p.1 - g.1), fl (p.2 - g.2)) := by
  cases mask with
  | all => simpa [Describes, shift] using h
  | arr l =>
    obtain ⟨h1, h2⟩ := h
    refine ⟨by simpa [shift] using h1, fun i p hp => h2 i _ ?_⟩
    simp [shift, hp]

theorem describes_congr {mask : Mask} {pts : List (K × K)} {S T : K × K → Prop} (h : Describes mask pts S)
    (hST : ∀ p ∈ pts, (S p ↔ T p)) : Describes mask pts T := by
  cases mask with
  | all => exact h
  | arr l => exact ⟨h.1, fun i p hp => (h.2 i p hp).trans (hST p (List.mem_of_getElem? hp))⟩

theorem nearCuboid_describes (b g : K × K) (pts : List (K × K)) :
    Describes (nearCuboid b g pts) pts fun p => |fl (p.1 - g.1)| ≤ b.1 ∧ |fl (p.2 - g.2)| ≤ b.2 :=
  describes_shift (S := fun x => |x.1| ≤ b.1 ∧ |x.2| ≤ b.2) (Nbh.C19_cuboid (fun x => |x|) b (shift g pts))

/-- The marked points of one coordinate: none is missing, and if the grid point is larger than the double of the side then all
of them are right. -/
theorem side_exact {p g b : K} (hp : fl p = p) (hg : fl g = g) (hbg : g = 0 ∨ 2 * b < g) :
    |fl (p - g)| ≤ b ↔ |p - g| ≤ b := by
  rcases hbg with rfl | hbg
  · rw [sub_zero, hp]
  by_cases hb : b < 0
  · exact ⟨fun h => absurd (h.trans_lt hb) (not_lt.2 (abs_nonneg _)), fun h => absurd (h.trans_lt hb) (not_lt.2 (abs_nonneg _))⟩
  have hb := not_lt.1 hb
  by_cases h1 : g ≤ 2 * p
  · by_cases h2 : p ≤ 2 * g
    · rw [sub_exact hp hg h1 h2]
    · have hd : g ≤ |p - g| := by
        rw [abs_of_nonneg (by linarith)]
        linarith
      have hd' : g ≤ |fl (p - g)| := by
        rw [← fl_abs]
        have := fl_mono hd
        rwa [hg] at this
      exact ⟨fun h => absurd (hd'.trans h) (by linarith), fun h => absurd (hd.trans h) (by linarith)⟩
  · have hd : g / 2 ≤ |p - g| := by
      rw [abs_of_nonpos (by linarith)]
      linarith
    have hh : fl (g / 2) = g / 2 := by
      obtain ⟨m, k, hm, e⟩ := exists_dyadic g
      rw [hg] at e
      have : g / 2 = (m : K) * 2 ^ (k - 1) := by
        rw [e, zpow_sub_one₀ (by norm_num)]
        ring
      rw [this, fl_exact hm]
    have hd' : g / 2 ≤ |fl (p - g)| := by
      rw [← fl_abs]
      have := fl_mono hd
      rwa [hh] at this
    exact ⟨fun h => absurd (hd'.trans h) (by linarith), fun h => absurd (hd.trans h) (by linarith)⟩

/-- **C172.** Rounding does not change which measurements (given as doubles) are in a cuboid around a grid point, provided the
coordinates of the grid point are zero or larger than the sides. -/
theorem C172_cuboid {b g : K × K} {pts : List (K × K)} (hg : fl g.1 = g.1 ∧ fl g.2 = g.2)
    (hp : ∀ p ∈ pts, fl p.1 = p.1 ∧ fl p.2 = p.2) (hb1 : g.1 = 0 ∨ 2 * b.1 < g.1)
    (hb2 : g.2 = 0 ∨ 2 * b.2 < g.2) :
    Describes (nearCuboid b g pts) pts fun p => |p.1 - g.1| ≤ b.1 ∧ |p.2 - g.2| ≤ b.2 := by
  refine describes_congr (nearCuboid_describes b g pts) fun p hpp => ?_
  obtain ⟨h1, h2⟩ := hp p hpp
  rw [side_exact h1 hg.1 hb1, side_exact h2 hg.2 hb2]

/-- **C172.** For all grid points and measurements: no measurement in the cuboid is missed, and those marked are at most half a
unit in the last place outside. -/
theorem C172_cuboid_all {b g : K × K} (hb : fl b.1 = b.1 ∧ fl b.2 = b.2) (pts : List (K × K)) :
    ∃ S : K × K → Prop, Describes (nearCuboid b g pts) pts S ∧
      ∀ p, (|p.1 - g.1| ≤ b.1 ∧ |p.2 - g.2| ≤ b.2 → S p) ∧
        (S p → (1 - u K) * |p.1 - g.1| ≤ b.1 ∧ (1 - u K) * |p.2 - g.2| ≤ b.2) := by
  refine ⟨_, nearCuboid_describes b g pts, fun p => ⟨fun h => ⟨?_, ?_⟩, fun h => ⟨?_, ?_⟩⟩⟩
  · rw [← fl_abs, ← hb.1]
    exact fl_mono h.1
  · rw [← fl_abs, ← hb.2]
    exact fl_mono h.2
  · exact (fl_lower (abs_nonneg _)).trans (by rw [fl_abs]; exact h.1)
  · exact (fl_lower (abs_nonneg _)).trans (by rw [fl_abs]; exact h.2)

/-- **C172.** Measurements on opposite sides of the grid point and exactly as far from it are treated in the same way. -/
theorem C172_symmetric {b g : K × K} {pts qts : List (K × K)}
    (h : List.Forall₂ (fun p q => p.1 - g.1 = g.1 - q.1 ∧ p.2 - g.2 = g.2 - q.2) pts qts) :
    nearCuboid b g pts = nearCuboid b g qts := by
  have e : ∀ pts : List (K × K), nearCuboid b g pts =
      .arr (pts.map fun p => decide (|fl (p.1 - g.1)| ≤ b.1) && decide (|fl (p.2 - g.2)| ≤ b.2)) := by
    intro pts
    unfold nearCuboid Nbh.cuboid shift
    congr 1
    induction pts with
    | nil => rfl
    | cons p pts ih => simpa [List.replicate_succ] using ih
  rw [e, e]
  congr 1
  induction h with
  | nil => rfl
  | cons hpq _ ih =>
    rw [List.map_cons, List.map_cons, ih, hpq.1, hpq.2, ← neg_sub, fl_neg, abs_neg, ← neg_sub (_ : K × K).2, fl_neg, abs_neg]

end

/-- **C172.** Measurements written with decimal digits are rounded before: of the wind speeds 7.95 and 8.05, both at the border
of the default cuboid around the grid point (8, 90), only the first one is marked. -/
theorem C172_decimal_false : nearCuboid (K := ℚ) cuboidDefault (8, 90) [(fl (795 / 100), 90), (fl (805 / 100), 90)] =
    .arr [true, false] := by decide +kernel

section

variable {K : Type} [Field K] [LinearOrder K] [IsStrictOrderedRing K] [FloorRing K]

/-- Products with unit vectors are exact. -/
theorem unit_dot {dot : K × K → K × K → K} (hd : ∀ a x, RoundedDot a x (dot a x)) {x : K × K} (h1 : fl x.1 = x.1)
    (h2 : fl x.2 = x.2) :
    dot (1, 0) x = x.1 ∧ dot (0, 1) x = x.2 ∧ dot (-1, 0) x = -x.1 ∧ dot (0, -1) x = -x.2 := by
  have n1 : fl (-x.1) = -x.1 := by rw [fl_neg, h1]
  have n2 : fl (-x.2) = -x.2 := by rw [fl_neg, h2]
  refine ⟨?_, ?_, ?_, ?_⟩
  · rcases hd (1, 0) x with h | h | h <;> simpa [h1, h2, fl_zero] using h
  · rcases hd (0, 1) x with h | h | h <;> simpa [h1, h2, fl_zero] using h
  · rcases hd (-1, 0) x with h | h | h <;> simpa [h1, h2, n1, fl_zero] using h
  · rcases hd (0, -1) x with h | h | h <;> simpa [h1, h2, n2, fl_zero] using h

/-- **C172.** The default polytope marks the same measurements as the default cuboid, however the products are rounded. -/
theorem C172_polytope {dot : K × K → K × K → K} (hd : ∀ a x, RoundedDot a x (dot a x)) (g : K × K) {pts : List (K × K)}
    (hp : pts ≠ []) : nearPolytope dot polytopeDefault g pts = nearCuboid cuboidDefault g pts := by
  have hl : ¬ (shift g pts).length = 0 := by simpa [shift] using hp
  simp only [nearPolytope, hl, if_false, nearCuboid, Nbh.cuboid, polytopeDefault, polytopeLoop, cuboidDefault]
  congr 1
  have hs : ∀ x ∈ shift g pts, fl x.1 = x.1 ∧ fl x.2 = x.2 := by
    intro x hx
    obtain ⟨p, -, rfl⟩ := List.mem_map.1 hx
    exact ⟨fl_fl _, fl_fl _⟩
  generalize shift g pts = l at hs
  clear hl
  induction l with
  | nil => rfl
  | cons x l ih =>
    obtain ⟨d1, d2, d3, d4⟩ := unit_dot hd (hs x (by simp)).1 (hs x (by simp)).2
    have := ih fun y hy => hs y (by simp [hy])
    simp only [List.length_cons, List.replicate_succ, List.map_cons, List.zipWith_cons_cons, this, d1, d2, d3, d4]
    congr 1
    rw [Bool.eq_iff_iff]
    simp only [Bool.and_eq_true, decide_eq_true_eq, abs_le]
    constructor
    · rintro ⟨⟨⟨⟨-, h1⟩, h2⟩, h3⟩, h4⟩
      exact ⟨⟨trivial, by linarith, h1⟩, by linarith, h2⟩
    · rintro ⟨⟨-, h1, h2⟩, h3, h4⟩
      exact ⟨⟨⟨⟨trivial, h2⟩, h4⟩, by linarith⟩, by linarith⟩

end

/-- **C172.** Balls of the default norm: measurements are marked if they are in a ball that is smaller by the factor `1 - 6u`
and not marked if they are outside one that is larger by the factor `1 + 7u`. -/
theorem C172_ball {radius : ℝ} (hr : 0 ≤ radius) (g : ℝ × ℝ) (pts : List (ℝ × ℝ)) :
    ∃ mask S, nearBall radius g pts = .ok mask ∧ Describes mask pts S ∧
      ∀ p, (Interp.scaledEuclidean (p - g) ≤ (1 - 6 * u ℝ) * radius → S p) ∧
        (S p → Interp.scaledEuclidean (p - g) ≤ (1 + 7 * u ℝ) * radius) := by
  obtain ⟨mask, h1, h2⟩ := Nbh.C19_ball (norm := ⟨fun l => .ok (l.map scaledEuclidean), fun p => .ok (scaledEuclidean p)⟩)
    (n := scaledEuclidean) (.inl fun _ => rfl) radius (shift g pts)
  refine ⟨mask, _, h1, describes_shift h2, fun p => ?_⟩
  have hu0 := u_pos (K := ℝ)
  have hu : u ℝ ≤ 1 / 1000 := by
    unfold u
    norm_num
  have he := abs_le.1 (C156_distance (p - g))
  have hd0 : 0 ≤ Interp.scaledEuclidean (p - g) := Real.sqrt_nonneg _
  have er : scaledEuclidean (fl (p.1 - g.1), fl (p.2 - g.2)) = rdist scaledEuclidean (p - g) := rfl
  simp only [er]
  generalize Interp.scaledEuclidean (p - g) = d at *
  generalize rdist scaledEuclidean (p - g) = d' at *
  generalize u ℝ = v at *
  constructor
  · intro h
    have h6 : d ≤ radius := h.trans (by nlinarith)
    nlinarith
  · intro h
    by_contra hc
    push Not at hc
    have : (1 - 6 * v) * ((1 + 7 * v) * radius) ≤ radius := by nlinarith
    have : (1 - 6 * v) * ((1 + 7 * v) * radius) < (1 - 6 * v) * d := by nlinarith
    nlinarith

example : nearCuboid (K := ℚ) (1 / 2, 4) (8, 90) [(7, 91), (8 + 1 / 4, 87), (8 + 1 / 2, 94)] = .arr [false, true, true] := by
  decide +kernel

end Verif.F64
