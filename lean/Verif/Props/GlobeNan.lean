import Verif.Props.GlobePath

/-!
# Properties C67 and C104: places without a projection

`np.arcsin` of numbers above 1 is `nan`, and the poles of the projection are mapped to infinity.
-/

namespace Verif.Globe

open Verif.Curve (rad2deg deg2rad)

theorem projectNan_some {f : Flat} {p : ℝ × ℝ} : (f.projectNan p).isSome ↔ |(f.apply (onBall p)).z| < 1 := by
  unfold Flat.projectNan
  split_ifs with h <;> simp [h]

theorem projectNan_none {f : Flat} {p : ℝ × ℝ} : f.projectNan p = none ↔ 1 ≤ |(f.apply (onBall p)).z| := by
  unfold Flat.projectNan
  split_ifs with h
  · simpa using h
  · simpa using h

theorem projectNan_eq {f : Flat} {p : ℝ × ℝ} (h : (f.projectNan p).isSome) : f.projectNan p = some (f.project p) := by
  unfold Flat.projectNan
  rw [if_pos (projectNan_some.mp h)]

theorem distanceNan_eq {f : Flat} {p q : ℝ × ℝ} (hp : (f.projectNan p).isSome) (hq : (f.projectNan q).isSome) :
    f.distanceNan p q = some (f.distance p q) := by
  unfold Flat.distanceNan
  rw [projectNan_eq hp, projectNan_eq hq]
  rfl

theorem distanceNan_none {f : Flat} {p q : ℝ × ℝ} :
    f.distanceNan p q = none ↔ f.projectNan p = none ∨ f.projectNan q = none := by
  unfold Flat.distanceNan
  cases f.projectNan p <;> cases f.projectNan q <;> simp

/-- **C67.** The distance of a `FlatMercatorProjection` is symmetric, not negative and satisfies the triangle inequality for all
places which have a projection. -/
theorem C67_distance {f : Flat} {p q r : ℝ × ℝ} (hp : (f.projectNan p).isSome) (hq : (f.projectNan q).isSome)
    (hr : (f.projectNan r).isSome) :
    ∃ a b c, f.distanceNan p q = some a ∧ f.distanceNan q p = some a ∧ f.distanceNan q r = some b ∧ f.distanceNan p r = some c ∧
      f.distanceNan p p = some 0 ∧ 0 ≤ a ∧ c ≤ a + b := by
  obtain ⟨h1, h2, h3, h4⟩ := distance_metric f p q r
  exact ⟨_, _, _, distanceNan_eq hp hq, by rw [distanceNan_eq hq hp, h1], distanceNan_eq hq hr, distanceNan_eq hp hr,
    by rw [distanceNan_eq hp hp, h3], h2, h4⟩

/-- With the default arguments all places except the poles have a projection. -/
theorem default_some {radius : ℝ} (hr : 0 < radius) {f : Flat} (hf : mkFlat (90, 0) (0, 0) radius = .ok f) {p : ℝ × ℝ}
    (h1 : -90 < p.1) (h2 : p.1 < 90) : (f.projectNan p).isSome := by
  obtain ⟨f', e, ho, hid⟩ := C67_default hr
  rw [hf] at e
  simp only [Except.ok.injEq] at e
  subst e
  rw [projectNan_some, hid]
  have hpi := Real.pi_pos
  have a1 : -(Real.pi / 2) < deg2rad p.1 := by unfold deg2rad; rw [lt_div_iff₀ (by norm_num)]; nlinarith
  have a2 : deg2rad p.1 < Real.pi / 2 := by unfold deg2rad; rw [div_lt_iff₀ (by norm_num)]; nlinarith
  have hc := Real.cos_pos_of_mem_Ioo ⟨a1, a2⟩
  have := Real.sin_sq_add_cos_sq (deg2rad p.1)
  simp only [onBall]
  rw [← sq_lt_one_iff_abs_lt_one]
  nlinarith

example : ∃ f, mkFlat (90, 0) (0, 0) 3440 = .ok f ∧ ∃ a b c, f.distanceNan (54, 10) (60, 20) = some a ∧
    f.distanceNan (60, 20) (54, 10) = some a ∧ f.distanceNan (60, 20) (40, -30) = some b ∧ f.distanceNan (54, 10) (40, -30) = some c ∧
    f.distanceNan (54, 10) (54, 10) = some 0 ∧ 0 ≤ a ∧ c ≤ a + b := by
  have h0 : (0 : ℝ) < 3440 := by norm_num
  obtain ⟨f, hf, -, -⟩ := C67_default h0
  exact ⟨f, hf, C67_distance (default_some h0 hf (by norm_num) (by norm_num)) (default_some h0 hf (by norm_num) (by norm_num))
    (default_some h0 hf (by norm_num) (by norm_num))⟩

/-- **C67**, exactly: all places have a projection if and only if the sum of the squares of the heights of the virtual zero point,
its right neighbour and the virtual north pole is less than 1. -/
theorem C67_everywhere_exactly (f : Flat) :
    (∀ p, ∃ a, f.distanceNan p p = some a) ↔ f.zero.z ^ 2 + f.east.z ^ 2 + f.pole.z ^ 2 < 1 := by
  have hz : ∀ v, (f.apply v).z = f.zero.z * v.x + f.east.z * v.y + f.pole.z * v.z := fun v => by
    simp [Flat.apply, Vec.smul, Vec.add]
    ring
  have hs : ∀ p, (∃ a, f.distanceNan p p = some a) ↔ |(f.apply (onBall p)).z| < 1 := fun p => by
    rw [← projectNan_some, ← Option.isSome_iff_exists, ← not_iff_not, Option.not_isSome_iff_eq_none, Option.not_isSome_iff_eq_none,
      distanceNan_none, or_self]
  simp only [hs]
  set a := f.zero.z
  set b := f.east.z
  set c := f.pole.z
  constructor
  · intro h
    by_contra hc
    have hc : 1 ≤ a ^ 2 + b ^ 2 + c ^ 2 := not_lt.mp hc
    have hpos : 0 < Real.sqrt (a ^ 2 + b ^ 2 + c ^ 2) := Real.sqrt_pos.mpr (by linarith)
    have hsq := Real.sq_sqrt (show 0 ≤ a ^ 2 + b ^ 2 + c ^ 2 by positivity)
    set s := Real.sqrt (a ^ 2 + b ^ 2 + c ^ 2) with hsdef
    have hs1 : 1 ≤ s := by
      rw [hsdef, Real.one_le_sqrt]
      exact hc
    let v : Vec := ⟨a / s, b / s, c / s⟩
    have hv : v.dot v = 1 := by
      simp only [Vec.dot, v]
      field_simp
      linarith
    have := h (onLatLon v)
    rw [onBall_onLatLon hv, hz] at this
    have e : a * v.x + b * v.y + c * v.z = s := by
      simp only [v]
      field_simp
      linarith
    rw [e, abs_of_pos hpos] at this
    linarith
  · intro h p
    have hu := onBall_dot_self p
    rw [hz, ← sq_lt_one_iff_abs_lt_one]
    generalize onBall p = v at *
    unfold Vec.dot at hu
    have := sq_nonneg (a * v.y - b * v.x)
    have := sq_nonneg (a * v.z - c * v.x)
    have := sq_nonneg (b * v.z - c * v.y)
    have key : (a * v.x + b * v.y + c * v.z) ^ 2 + (a * v.y - b * v.x) ^ 2 + (a * v.z - c * v.x) ^ 2 + (b * v.z - c * v.y) ^ 2 =
        (a ^ 2 + b ^ 2 + c ^ 2) * (v.x * v.x + v.y * v.y + v.z * v.z) := by ring
    rw [hu] at key
    linarith

/-- **C67**, exactly: if the virtual zero point is on the virtual equator, then there are exactly two places without a projection; they
are opposite to each other. -/
theorem C67_poles_exactly {f : Flat} (h : f.Orthogonal) (p : ℝ × ℝ) :
    f.projectNan p = none ↔ onBall p = ⟨f.zero.z, f.east.z, f.pole.z⟩ ∨ onBall p = ⟨-f.zero.z, -f.east.z, -f.pole.z⟩ := by
  have hz : ∀ v, (f.apply v).z = f.zero.z * v.x + f.east.z * v.y + f.pole.z * v.z := fun v => by
    simp [Flat.apply, Vec.smul, Vec.add]
    ring
  have hu := onBall_dot_self p
  have hrow : f.zero.z ^ 2 + f.east.z ^ 2 + f.pole.z ^ 2 = 1 := by
    have e := h.applyInv_apply
    have hx := congrArg Vec.z (h.applyInv_apply ⟨0, 0, 1⟩)
    have h1 := h.zero
    have h2 := h.pole
    have h3 := h.right
    rw [h.east]
    unfold Vec.dot at h1 h2 h3
    simp only [Vec.cross]
    generalize f.zero = z at *
    generalize f.pole = n at *
    linear_combination (1 - n.z ^ 2) * h1 + (z.x ^ 2 + z.y ^ 2) * h2 - (z.x * n.x + z.y * n.y - z.z * n.z) * h3
  rw [projectNan_none, hz]
  generalize onBall p = v at *
  unfold Vec.dot at hu
  set a := f.zero.z
  set b := f.east.z
  set c := f.pole.z
  have key : (a * v.x + b * v.y + c * v.z) ^ 2 + (a * v.y - b * v.x) ^ 2 + (a * v.z - c * v.x) ^ 2 + (b * v.z - c * v.y) ^ 2 =
      (a ^ 2 + b ^ 2 + c ^ 2) * (v.x * v.x + v.y * v.y + v.z * v.z) := by ring
  rw [hu, hrow] at key
  have hd : ∀ e : ℝ, (v.x - e * a) ^ 2 + (v.y - e * b) ^ 2 + (v.z - e * c) ^ 2 = 1 - 2 * e * (a * v.x + b * v.y + c * v.z) + e ^ 2 := by
    intro e
    linear_combination hu + e ^ 2 * hrow
  have zero3 : ∀ x y z : ℝ, x ^ 2 + y ^ 2 + z ^ 2 ≤ 0 → x = 0 ∧ y = 0 ∧ z = 0 := fun x y z h =>
    ⟨by nlinarith [sq_nonneg x, sq_nonneg y, sq_nonneg z], by nlinarith [sq_nonneg x, sq_nonneg y, sq_nonneg z],
      by nlinarith [sq_nonneg x, sq_nonneg y, sq_nonneg z]⟩
  constructor
  · intro hge
    rcases le_abs.mp hge with hge | hge
    · left
      obtain ⟨e1, e2, e3⟩ := zero3 _ _ _ (show (v.x - 1 * a) ^ 2 + (v.y - 1 * b) ^ 2 + (v.z - 1 * c) ^ 2 ≤ 0 by rw [hd]; linarith)
      ext <;> simp only <;> linarith
    · right
      obtain ⟨e1, e2, e3⟩ := zero3 _ _ _ (show (v.x - (-1) * a) ^ 2 + (v.y - (-1) * b) ^ 2 + (v.z - (-1) * c) ^ 2 ≤ 0 by
        rw [hd]; linarith)
      ext <;> simp only <;> linarith
  · rintro (e | e)
    · rw [e]
      simp only
      rw [show a * a + b * b + c * c = 1 by linarith, abs_one]
    · rw [e]
      simp only
      rw [show a * -a + b * -b + c * -c = -1 by linarith, abs_neg, abs_one]

example : ∃ f, mkFlat (90, 0) (0, 0) 3440 = .ok f ∧ f.projectNan (90, 0) = none ∧ f.projectNan (54, 10) ≠ none := by
  have h0 : (0 : ℝ) < 3440 := by norm_num
  obtain ⟨f, hf, ho, hid⟩ := C67_default h0
  have e : (90 : ℝ) * Real.pi / 180 = Real.pi / 2 := by ring
  have hp : onBall (90, 0) = ⟨0, 0, 1⟩ := by simp [onBall, deg2rad, e]
  refine ⟨f, hf, (C67_poles_exactly ho _).mpr (.inl ?_), fun h => ?_⟩
  · have hz := hid ⟨1, 0, 0⟩
    have hy := hid ⟨0, 1, 0⟩
    have hx := hid ⟨0, 0, 1⟩
    simp [Flat.apply, Vec.smul, Vec.add] at hz hy hx
    rw [hp, hz.2.2, hy.2.2, hx.2.2]
  · have := default_some h0 hf (p := (54, 10)) (by norm_num) (by norm_num)
    rw [h] at this
    simp at this

/-- **C67 is false** if only the virtual zero point is moved, e.g. to 60 degrees north: the place 60N 0E is not mapped to infinity, but
its distance to itself is `nan`. -/
theorem C67_nan_false (radius : ℝ) : ∃ f, mkFlat (90, 0) (60, 0) radius = .ok f ∧ 1 < |(f.apply (onBall (60, 0))).z| ∧
    f.distanceNan (60, 0) (60, 0) = none := by
  have e60 : (60 : ℝ) * Real.pi / 180 = Real.pi / 3 := by ring
  have e90 : (90 : ℝ) * Real.pi / 180 = Real.pi / 2 := by ring
  have hz : onBall (60, 0) = ⟨1 / 2, 0, Real.sqrt 3 / 2⟩ := by simp [onBall, deg2rad, e60]
  have hp : onBall (90, 0) = ⟨0, 0, 1⟩ := by simp [onBall, deg2rad, e90]
  have hf : mkFlat (90, 0) (60, 0) radius = .ok ⟨⟨1 / 2, 0, Real.sqrt 3 / 2⟩, ⟨0, 1 / 2, 0⟩, ⟨0, 0, 1⟩, radius⟩ := by
    unfold mkFlat
    rw [hp, hz]
    simp [Vec.dot, Vec.cross]
  have h3 : 4 / 3 < Real.sqrt 3 := by
    rw [Real.lt_sqrt (by norm_num)]
    norm_num
  have hw : 1 < |(Flat.apply ⟨⟨1 / 2, 0, Real.sqrt 3 / 2⟩, ⟨0, 1 / 2, 0⟩, ⟨0, 0, 1⟩, radius⟩ (onBall (60, 0))).z| := by
    rw [hz]
    simp only [Flat.apply, Vec.smul, Vec.add]
    rw [lt_abs]
    left
    linarith
  exact ⟨_, hf, hw, distanceNan_none.mpr (.inl (projectNan_none.mpr hw.le))⟩

/-- The length of a way over several places, `none` if a distance is `nan` or infinite. -/
noncomputable def Flat.wayLengthNan (f : Flat) : List (ℝ × ℝ) → Option ℝ
  | a :: b :: l =>
    match f.distanceNan a b, f.wayLengthNan (b :: l) with
    | some d, some e => some (d + e)
    | _, _ => none
  | _ => some 0

/-- **C104.** No way over finitely many places is shorter than the distance of its ends. -/
theorem C104_shortest {f : Flat} {way : List (ℝ × ℝ)} {p q : ℝ × ℝ} (hp : way.head? = some p) (hq : way.getLast? = some q)
    {d l : ℝ} (hd : f.distanceNan p q = some d) (hl : f.wayLengthNan way = some l) : d ≤ l := by
  have hsome : ∀ {a b : ℝ × ℝ} {d : ℝ}, f.distanceNan a b = some d → d = f.distance a b := by
    intro a b d h
    have h1 : (f.projectNan a).isSome := by
      by_contra hn
      rw [Option.not_isSome_iff_eq_none] at hn
      rw [distanceNan_none.mpr (.inl hn)] at h
      cases h
    have h2 : (f.projectNan b).isSome := by
      by_contra hn
      rw [Option.not_isSome_iff_eq_none] at hn
      rw [distanceNan_none.mpr (.inr hn)] at h
      cases h
    rw [distanceNan_eq h1 h2] at h
    exact (Option.some.inj h).symm
  have hway : ∀ (w : List (ℝ × ℝ)) (l : ℝ), f.wayLengthNan w = some l → l = f.wayLength w := by
    intro w
    induction w with
    | nil => intro l h; simpa [Flat.wayLengthNan, Flat.wayLength] using h.symm
    | cons a w ih =>
      cases w with
      | nil => intro l h; simpa [Flat.wayLengthNan, Flat.wayLength] using h.symm
      | cons b w =>
        intro l h
        simp only [Flat.wayLengthNan] at h
        split at h
        · rename_i d e h1 h2
          rw [← Option.some.inj h, hsome h1, ih e h2]
          rfl
        · cases h
  rw [hsome hd, hway _ _ hl]
  exact wayLength_ge f way hp hq

/-- A way over places with projections has a length. -/
theorem wayLengthNan_some {f : Flat} : ∀ {way : List (ℝ × ℝ)}, (∀ p ∈ way, (f.projectNan p).isSome) →
    ∃ l, f.wayLengthNan way = some l
  | [], _ => ⟨0, rfl⟩
  | [_], _ => ⟨0, rfl⟩
  | a :: b :: w, h => by
    obtain ⟨l, hl⟩ := wayLengthNan_some (way := b :: w) fun p hp => h p (List.mem_cons_of_mem _ hp)
    refine ⟨f.distance a b + l, ?_⟩
    simp only [Flat.wayLengthNan]
    rw [distanceNan_eq (h a (by simp)) (h b (by simp)), hl]

example : ∃ f d l, mkFlat (90, 0) (0, 0) 3440 = .ok f ∧ f.distanceNan (0, 0) (10, 20) = some d ∧
    f.wayLengthNan [(0, 0), (-5, 70), (10, 20)] = some l ∧ d ≤ l := by
  have h0 : (0 : ℝ) < 3440 := by norm_num
  obtain ⟨f, hf, -, -⟩ := C67_default h0
  have hs : ∀ p ∈ [((0 : ℝ), (0 : ℝ)), (-5, 70), (10, 20)], (f.projectNan p).isSome := by
    intro p hp
    simp only [List.mem_cons, List.not_mem_nil, or_false] at hp
    rcases hp with rfl | rfl | rfl <;> exact default_some h0 hf (by norm_num) (by norm_num)
  obtain ⟨l, hl⟩ := wayLengthNan_some hs
  have hd := distanceNan_eq (hs (0, 0) (by simp)) (hs (10, 20) (by simp))
  exact ⟨f, _, l, hf, hd, hl, C104_shortest rfl rfl hd hl⟩

end Verif.Globe
