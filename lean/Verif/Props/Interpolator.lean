import Verif.Lemmas.Interpolator
import Verif.Model.Pointcloud

/-!
# Properties C20 to C23: interpolators
-/

set_option linter.unusedSectionVars false

namespace Verif.Interp

variable {K : Type} [Field K] [LinearOrder K] [IsStrictOrderedRing K]

/-- What is used of a norm: it is non-negative and vanishes exactly at zero. -/
def IsDist (norm : K × K → K) : Prop := (∀ x, 0 ≤ norm x) ∧ ∀ x, norm x = 0 ↔ x = 0

/-- `v` is stored at `g` by the first point with these coordinates. -/
def FirstStored (pts : List (Pt K)) (g : K × K) (v : K) : Prop :=
  ∃ i, pts[i]? = some (g, v) ∧ ∀ (j : Nat) (q : Pt K), j < i → pts[j]? = some q → q.1 ≠ g

/-- No point has the coordinates `g`. -/
def NotStored (pts : List (Pt K)) (g : K × K) : Prop := ∀ p ∈ pts, p.1 ≠ g

/-- `v` lies between all lower and all upper bounds of the stored values. -/
def InRange (pts : List (Pt K)) (v : K) : Prop :=
  ∀ lo hi, (∀ p ∈ pts, lo ≤ p.2 ∧ p.2 ≤ hi) → lo ≤ v ∧ v ≤ hi

theorem firstAtZero_stored {norm : K × K → K} (hn : IsDist norm) {pts : List (Pt K)} {g : K × K} {v : K}
    (h : FirstStored pts g v) : firstAtZero norm g pts = some v := by
  obtain ⟨i, hi, hf⟩ := h
  exact firstAtZero_spec (p := (g, v)) hi (by simp [hn.2]) fun j q hj hq h0 =>
    hf j q hj hq (sub_eq_zero.1 ((hn.2 _).1 h0))

theorem firstAtZero_notStored {norm : K × K → K} (hn : IsDist norm) {pts : List (Pt K)} {g : K × K}
    (h : NotStored pts g) : firstAtZero norm g pts = none :=
  firstAtZero_eq_none.2 fun p hp h0 => h p hp (sub_eq_zero.1 ((hn.2 _).1 h0))

theorem dist_pos {norm : K × K → K} (hn : IsDist norm) {pts : List (Pt K)} {g : K × K} (h : NotStored pts g) :
    ∀ p ∈ pts, 0 < norm (p.1 - g) := fun p hp =>
  lt_of_le_of_ne (hn.1 _) fun h0 => h p hp (sub_eq_zero.1 ((hn.2 _).1 h0.symm))

/-! ## C20 -/

/-- **C20.** Without points a `ValueError` is raised. -/
theorem C20_empty (norm : K × K → K) (p : Nat) (g : K × K) : idw norm p [] g = .error .valueError := by
  simp [idw]

/-- **C20.** The interpolator returns the stored value at a data point. -/
theorem C20_exact {norm : K × K → K} (hn : IsDist norm) (p : Nat) {pts : List (Pt K)} {g : K × K} {v : K}
    (h : FirstStored pts g v) : idw norm p pts g = .ok (some v) := by
  have hl : ¬ pts.length = 0 := by
    obtain ⟨i, hi, -⟩ := h
    intro h0
    rw [List.length_eq_zero_iff.1 h0] at hi
    simp at hi
  simp [idw, hl, firstAtZero_stored hn h]

/-- **C20.** Elsewhere it returns the mean of the stored values weighted by the inverse distances to the power
`p`, a number between the smallest and the largest stored value. -/
theorem C20_mean {norm : K × K → K} (hn : IsDist norm) (p : Nat) {pts : List (Pt K)} {g : K × K}
    (hp : pts ≠ []) (h : NotStored pts g) :
    ∃ v, idw norm p pts g = .ok (some v) ∧ InRange pts v ∧
      v * (pts.map fun q => 1 / norm (q.1 - g) ^ p).sum = (pts.map fun q => q.2 / norm (q.1 - g) ^ p).sum := by
  have hl : ¬ pts.length = 0 := by simpa using hp
  have hd := dist_pos hn h
  set w := (dists norm pts g).map fun d => 1 / d ^ p with hw
  have hw' : w = pts.map fun q => 1 / norm (q.1 - g) ^ p := by
    simp [hw, dists, Function.comp_def]
  have hpos : ∀ x ∈ w, 0 < x := by
    intro x hx
    rw [hw'] at hx
    obtain ⟨q, hq, rfl⟩ := List.mem_map.1 hx
    have := hd q hq
    positivity
  have hs : 0 < w.sum := by
    obtain ⟨q, qs, rfl⟩ := List.exists_cons_of_ne_nil hp
    have hm : 1 / norm (q.1 - g) ^ p ∈ w := by rw [hw']; simp
    exact sum_pos_of_mem (fun x hx => (hpos x hx).le) hm (hpos _ hm)
  have hlen : w.length = (pts.map Prod.snd).length := by simp [hw']
  refine ⟨dot w (pts.map Prod.snd) / w.sum, ?_, ?_, ?_⟩
  · simp only [idw, hl, if_false, firstAtZero_notStored hn h, ← hw, normalisedDot, hs.ne', dot_map_div]
  · intro lo hi hb
    exact mean_bounds hlen (fun x hx => (hpos x hx).le) hs
      (by intro x hx; obtain ⟨q, hq, rfl⟩ := List.mem_map.1 hx; exact (hb q hq).1)
      (by intro x hx; obtain ⟨q, hq, rfl⟩ := List.mem_map.1 hx; exact (hb q hq).2)
  · rw [← hw', div_mul_cancel₀ _ hs.ne', hw']
    simp only [dot, List.zipWith_map, List.zipWith_self]
    congr 1
    apply List.map_congr_left
    intro q _
    ring

/-- **C20.** Constants are reproduced at every query point. -/
theorem C20_constant {norm : K × K → K} (hn : IsDist norm) (p : Nat) {pts : List (Pt K)} (hp : pts ≠ []) (g : K × K)
    {c : K} (hc : ∀ q ∈ pts, q.2 = c) : idw norm p pts g = .ok (some c) := by
  by_cases h : NotStored pts g
  · obtain ⟨v, hv, hr, -⟩ := C20_mean hn p hp h
    have := hr c c fun q hq => ⟨(hc q hq).ge, (hc q hq).le⟩
    rw [hv, le_antisymm this.2 this.1]
  · have hl : ¬ pts.length = 0 := by simpa using hp
    have hne : firstAtZero norm g pts ≠ none := by
      intro h0
      rw [firstAtZero_eq_none] at h0
      apply h
      intro p hp hpg
      exact h0 p hp (by simp [hpg, hn.2])
    obtain ⟨z, hz⟩ := Option.ne_none_iff_exists'.1 hne
    obtain ⟨q, hq, rfl, -⟩ := firstAtZero_mem hz
    simp [idw, hl, hz, hc q hq]

/-- **C20.** Exactly the non-negative exponents are accepted. -/
theorem C20_init (p : Int) : (∃ n, idwInit p = .ok n) ↔ 0 ≤ p := by
  by_cases h : p < 0
  · simp [idwInit, h]
  · simp [idwInit, h, not_lt.1 h]

/-- The hypotheses of C20 are satisfied by the maximum norm and two points. -/
example : IsDist (K := Rat) (fun x => max |x.1| |x.2|) := by
  refine ⟨fun x => le_max_of_le_left (abs_nonneg _), fun x => ⟨fun h => ?_, fun h => by simp [h]⟩⟩
  have h1 : |x.1| ≤ 0 := by rw [← h]; exact le_max_left _ _
  have h2 : |x.2| ≤ 0 := by rw [← h]; exact le_max_right _ _
  exact Prod.ext (abs_nonpos_iff.1 h1) (abs_nonpos_iff.1 h2)

example : NotStored (K := Rat) [((0, 0), 1), ((3, 0), 7)] (1, 0) ∧
    FirstStored (K := Rat) [((0, 0), 1), ((3, 0), 7)] (3, 0) 7 ∧
    idw (K := Rat) (fun x => max |x.1| |x.2|) 1 [((0, 0), 1), ((3, 0), 7)] (1, 0) = .ok (some 3) := by
  refine ⟨by unfold NotStored; decide +kernel, ⟨1, by decide +kernel, ?_⟩, by decide +kernel⟩
  intro j q hj hq
  have : j = 0 := by omega
  subst this
  simp only [List.getElem?_cons_zero, Option.some.injEq] at hq
  subst hq
  decide +kernel

/-! ## C21 -/

/-- **C21.** The interpolator returns the stored value at a data point. -/
theorem C21_exact {norm : K × K → K} (hn : IsDist norm) (s : K) (distr : K → K → K) {pts : List (Pt K)}
    (weights : List K) {g : K × K} {v : K} (h : FirstStored pts g v) :
    arith norm s distr pts weights g = .ok v := by
  simp [arith, firstAtZero_stored hn h]

/-- **C21.** Elsewhere it returns `s` times a number between the smallest and the largest stored value, namely the
mean weighted by the distribution of the distances and the given weights; this number does not depend on `s`. -/
theorem C21_scaled_mean {norm : K × K → K} (hn : IsDist norm) {distr : K → K → K}
    (hdistr : ∀ d w, 0 < distr d w) {pts : List (Pt K)} (hp : pts ≠ []) {weights : List K}
    (hw : weights.length = pts.length) {g : K × K} (h : NotStored pts g) :
    ∃ v, (∀ s, arith norm s distr pts weights g = .ok (s * v)) ∧ InRange pts v ∧
      v * (List.zipWith (fun (q : Pt K) w => distr (norm (q.1 - g)) w) pts weights).sum =
        (List.zipWith (fun (q : Pt K) w => distr (norm (q.1 - g)) w * q.2) pts weights).sum := by
  set w := List.zipWith distr (dists norm pts g) weights with hwd
  have hlen : w.length = (pts.map Prod.snd).length := by simp [hwd, dists, hw]
  have hpos : ∀ x ∈ w, 0 < x := by
    intro x hx
    obtain ⟨i, hi, rfl⟩ := List.getElem_of_mem hx
    simp only [hwd, List.getElem_zipWith]
    exact hdistr _ _
  have hs : 0 < w.sum := by
    have hne : w ≠ [] := by
      rw [← List.length_pos_iff, hlen]
      simpa using List.length_pos_iff.2 hp
    obtain ⟨a, l, hal⟩ := List.exists_cons_of_ne_nil hne
    have hm : a ∈ w := by simp [hal]
    exact sum_pos_of_mem (fun x hx => (hpos x hx).le) hm (hpos _ hm)
  refine ⟨dot w (pts.map Prod.snd) / w.sum, ?_, ?_, ?_⟩
  · intro s
    simp only [arith, firstAtZero_notStored hn h, ← hwd, average, hs.ne', if_false, dot_comm w]
  · intro lo hi hb
    exact mean_bounds hlen (fun x hx => (hpos x hx).le) hs
      (by intro x hx; obtain ⟨q, hq, rfl⟩ := List.mem_map.1 hx; exact (hb q hq).1)
      (by intro x hx; obtain ⟨q, hq, rfl⟩ := List.mem_map.1 hx; exact (hb q hq).2)
  · have e1 : List.zipWith (fun (q : Pt K) w => distr (norm (q.1 - g)) w) pts weights = w := by
      simp only [hwd, dists, List.zipWith_map_left]
    have e2 : (List.zipWith (fun (q : Pt K) w => distr (norm (q.1 - g)) w * q.2) pts weights).sum =
        dot w (pts.map Prod.snd) := by
      clear hlen hpos hs e1
      simp only [hwd, dists, dot, List.zipWith_map_left, List.zipWith_map_right]
      clear hwd w h hp
      induction pts generalizing weights with
      | nil => simp
      | cons q qs ih =>
        cases weights with
        | nil => simp
        | cons a as => simp at hw; simp [ih hw]
    rw [e1, e2, div_mul_cancel₀ _ hs.ne']

/-- **C21.** The default distribution is positive. -/
theorem C21_gauss_positive (alpha d w : ℝ) : 0 < gauss alpha d w := Real.exp_pos _

/-- **C21.** With the default `s = 1` the interpolated value lies between the smallest and the largest stored
value. -/
theorem C21_in_range {norm : K × K → K} (hn : IsDist norm) {distr : K → K → K}
    (hdistr : ∀ d w, 0 < distr d w) {pts : List (Pt K)} (hp : pts ≠ []) {weights : List K}
    (hw : weights.length = pts.length) {g : K × K} (h : NotStored pts g) :
    ∃ v, arith norm 1 distr pts weights g = .ok v ∧ InRange pts v := by
  obtain ⟨v, h1, h2, -⟩ := C21_scaled_mean hn hdistr hp hw h
  exact ⟨v, by simpa using h1 1, h2⟩

/-- **C21.** Exactly the positive scaling factors are accepted, with `ValueError` for the others. -/
theorem C21_factor (s : K) : (0 < s → arithInit s = .ok s) ∧ (s ≤ 0 → arithInit s = .error .valueError) := by
  unfold arithInit
  exact ⟨fun h => if_neg (not_le.2 h), fun h => if_pos h⟩

example : arithInit (0 : ℚ) = .error .valueError ∧ arithInit (1 / 2 : ℚ) = .ok (1 / 2) := by
  constructor <;> decide +kernel

/-- The scaled euclidean norm is a distance. -/
theorem isDist_scaledEuclidean : IsDist scaledEuclidean := by
  refine ⟨fun x => Real.sqrt_nonneg _, fun x => ⟨fun h => ?_, fun h => by simp [h, scaledEuclidean]⟩⟩
  unfold scaledEuclidean at h
  rw [Real.sqrt_eq_zero (by positivity)] at h
  have h1 : (1 / 40 * x.1) ^ 2 = 0 := by nlinarith [sq_nonneg (1 / 40 * x.1), sq_nonneg (1 / 360 * x.2)]
  have h2 : (1 / 360 * x.2) ^ 2 = 0 := by nlinarith [sq_nonneg (1 / 40 * x.1), sq_nonneg (1 / 360 * x.2)]
  rw [pow_eq_zero_iff two_ne_zero, mul_eq_zero] at h1 h2
  exact Prod.ext (h1.resolve_left (by norm_num)) (h2.resolve_left (by norm_num))

/-- All hypotheses of C21 are met by the default norm and distribution. -/
example : ∃ v, arith scaledEuclidean 1 (gauss 100) [((10, 90), 5), ((12, 90), 6)] [1, 1] (11, 90) = .ok v ∧
    InRange [((10, 90), 5), ((12, 90), 6)] v :=
  C21_in_range isDist_scaledEuclidean (C21_gauss_positive 100) (by simp) rfl (by
    intro p hp
    simp only [List.mem_cons, List.not_mem_nil, or_false] at hp
    rcases hp with rfl | rfl <;> simp [Prod.ext_iff] <;> norm_num)

/-- Selecting by a mask that is computed from the members is filtering. -/
theorem select_map {α β : Type} (l : List α) (f : α → Bool) (g : α → β) :
    Cloud.select (l.map f) (l.map g) = (l.filter f).map g := by
  induction l with
  | nil => rfl
  | cons a l ih =>
    simp only [List.map_cons, Cloud.select, List.filter_cons]
    cases f a <;> simp [ih]

/-- **C37.** Away from its points the value of a cloud is determined by the points at distance at most 1 from the wind, with
the wind speed divided by 40 and the wind angle by 360, and by all of these: it is 50 times a mean of their boat speeds with
positive weights. If there is no such point, an exception is raised. -/
theorem C37_default {cloud : List (Pt ℝ)} {ws wa : ℝ} (hws : 0 < ws)
    (hnew : ∀ p ∈ cloud, p.1 ≠ (ws, pmod wa 360)) :
    (∀ p ∈ cloud, 1 < scaledEuclidean (p.1 - (ws, pmod wa 360))) ∧
      Cloud.call Cloud.defaultInterpolate Cloud.defaultNbh cloud ws wa = .error .zeroDivisionError ∨
    ∃ near : List (Pt ℝ), near ≠ [] ∧ near.Sublist cloud ∧
      (∀ p ∈ cloud, p ∈ near ↔ ((p.1.1 - ws) / 40) ^ 2 + ((p.1.2 - pmod wa 360) / 360) ^ 2 ≤ 1) ∧
      ∃ v, InRange near v ∧ Cloud.call Cloud.defaultInterpolate Cloud.defaultNbh cloud ws wa = .ok (50 * v) := by
  classical
  set g : ℝ × ℝ := (ws, pmod wa 360) with hg
  have hfil : (cloud.filter fun p => decide (p.1.1 = ws) && decide (p.1.2 = pmod wa 360)) = [] := by
    rw [List.filter_eq_nil_iff]
    intro p hp
    have := hnew p hp
    simp only [hg, ne_eq, Prod.ext_iff] at this
    simpa using this
  set near := cloud.filter fun p => decide (scaledEuclidean (p.1 - g) ≤ 1) with hnear
  have hsel1 : Cloud.select (cloud.map fun p => decide (scaledEuclidean (p.1 - g) ≤ 1)) cloud = near := by
    have := select_map cloud (fun p => decide (scaledEuclidean (p.1 - g) ≤ 1)) id
    simpa using this
  have hsel2 : Cloud.select (cloud.map fun p => decide (scaledEuclidean (p.1 - g) ≤ 1))
      (List.replicate cloud.length (1 : ℝ)) = near.map fun _ => 1 := by
    have := select_map cloud (fun p => decide (scaledEuclidean (p.1 - g) ≤ 1)) (fun _ => (1 : ℝ))
    simpa [List.map_const'] using this
  have hcall : Cloud.call Cloud.defaultInterpolate Cloud.defaultNbh cloud ws wa =
      arith scaledEuclidean 50 (gauss 100) near (near.map fun _ => 1) g := by
    unfold Cloud.call
    rw [if_neg (not_le.2 hws)]
    simp only [hfil, Cloud.defaultNbh, List.map_map]
    rw [← hsel2]
    conv_rhs => rw [← hsel1]
    rfl
  have hne : ∀ p ∈ near, p.1 ≠ g := fun p hp => hnew p (List.mem_filter.1 hp).1
  by_cases h0 : near = []
  · left
    refine ⟨?_, ?_⟩
    · intro p hp
      have := List.filter_eq_nil_iff.1 (hnear ▸ h0) p hp
      simpa using this
    · rw [hcall, h0]
      simp [arith, firstAtZero, average]
  · right
    refine ⟨near, h0, List.filter_sublist, ?_, ?_⟩
    · intro p hp
      rw [hnear, List.mem_filter]
      simp only [hp, true_and]
      rw [decide_eq_true_eq, scaledEuclidean, Real.sqrt_le_left zero_le_one]
      simp only [hg, Prod.fst_sub, Prod.snd_sub]
      constructor <;> intro h <;> nlinarith
    · obtain ⟨v, h1, h2, -⟩ := C21_scaled_mean (K := ℝ) isDist_scaledEuclidean (C21_gauss_positive 100)
        h0 (weights := near.map fun _ => 1) (by simp) hne
      exact ⟨v, h2, by rw [hcall, h1 50]⟩

example : ∀ p ∈ [(((10 : ℝ), (90 : ℝ)), (5 : ℝ)), ((50, 100), 7)], p.1 ≠ ((11 : ℝ), pmod (90 : ℝ) 360) := by
  intro p hp
  simp only [List.mem_cons, List.not_mem_nil, or_false] at hp
  rcases hp with rfl | rfl <;> intro h <;> have := congrArg Prod.fst h <;> norm_num at this

/-- **C21** refuted for the defaults of a point cloud: `PolarDiagramPointcloud.__call__` uses
`ArithmeticMeanInterpolator(50)`, i.e. the scaling factor 50, so a cloud whose only boat speed is 5 yields 250. -/
theorem C21_pointcloud_false :
    Cloud.call Cloud.defaultInterpolate Cloud.defaultNbh [(((10 : ℝ), (90 : ℝ)), (5 : ℝ))] 11 90 = .ok 250 := by
  have hm : pmod (90 : ℝ) 360 = 90 := by
    have : ⌊(90 / 360 : ℝ)⌋ = 0 := by
      rw [Int.floor_eq_iff]; norm_num
    simp [pmod, this]
  have hd : scaledEuclidean (((10 : ℝ), (90 : ℝ)) - (11, 90)) ≤ 1 := by
    unfold scaledEuclidean
    rw [Real.sqrt_le_left zero_le_one]
    norm_num
  have h := (C21_scaled_mean (K := ℝ) isDist_scaledEuclidean (C21_gauss_positive 100)
    (pts := [(((10 : ℝ), (90 : ℝ)), (5 : ℝ))]) (by simp) (weights := [1]) rfl (g := (11, 90)) (by
      intro p hp
      simp only [List.mem_cons, List.not_mem_nil, or_false] at hp
      subst hp
      simp [Prod.ext_iff]))
  obtain ⟨v, h1, h2, -⟩ := h
  have h3 := h2 5 5 (by simp)
  have hv : v = 5 := le_antisymm h3.2 h3.1
  subst hv
  have hne : ¬ ((10 : ℝ) = 11) := by norm_num
  simp only [Cloud.call, hm, Cloud.defaultNbh, List.map_cons, List.map_nil, hd, decide_true, Cloud.select, if_true,
    List.length_cons, List.length_nil, List.replicate, List.filter_cons, List.filter_nil, hne, decide_false,
    Bool.false_and, Cloud.defaultInterpolate, h1]
  norm_num

/-! ## C22 -/

/-- **C22.** At a data point the stored value is returned. -/
theorem C22_exact {norm : K × K → K} (hn : IsDist norm) {pts : List (Pt K)} {g : K × K} {v : K}
    (h : FirstStored pts g v) : improved norm pts g = .ok (some v) := by
  simp [improved, firstAtZero_stored hn h]

theorem improved_eq {norm : K × K → K} (hn : IsDist norm) {pts : List (Pt K)} {g : K × K} (hp : pts ≠ [])
    (h : NotStored pts g) : ∃ r ∈ dists norm pts g, (∀ d ∈ dists norm pts g, d ≤ r) ∧
      improved norm pts g =
        .ok (normalisedDot (((dists norm pts g).map (setWeight r)).map (· ^ 2)) (pts.map Prod.snd)) := by
  obtain ⟨q, qs, rfl⟩ := List.exists_cons_of_ne_nil hp
  have hd : dists norm (q :: qs) g = norm (q.1 - g) :: dists norm qs g := rfl
  refine ⟨maxOf (norm (q.1 - g)) (dists norm qs g), ?_, ?_, ?_⟩
  · rw [hd]; exact maxOf_mem _ _
  · rw [hd]; exact le_maxOf _ _
  · simp only [improved, firstAtZero_notStored hn h, hd, setWeights]

/-- **C22** (partial: it is assumed that not all points are equally far away, see `C22_equidistant_false`). Away from
the data points a number between the smallest and the largest stored value is returned. -/
theorem C22_in_range_partial {norm : K × K → K} (hn : IsDist norm) {pts : List (Pt K)} {g : K × K}
    (h : NotStored pts g) {p q : Pt K} (hp : p ∈ pts) (hq : q ∈ pts) (hpq : norm (p.1 - g) < norm (q.1 - g)) :
    ∃ v, improved norm pts g = .ok (some v) ∧ InRange pts v := by
  have hne : pts ≠ [] := by rintro rfl; simp at hp
  obtain ⟨r, hr, hmax, heq⟩ := improved_eq hn hne h
  have hdpos : ∀ d ∈ dists norm pts g, 0 < d := by
    intro d hd
    obtain ⟨x, hx, rfl⟩ := List.mem_map.1 hd
    exact dist_pos hn h x hx
  set w := ((dists norm pts g).map (setWeight r)).map (· ^ 2) with hw
  have hnn : ∀ x ∈ w, 0 ≤ x := by
    intro x hx
    obtain ⟨y, -, rfl⟩ := List.mem_map.1 hx
    positivity
  have hpm : norm (p.1 - g) ∈ dists norm pts g := List.mem_map.2 ⟨p, hp, rfl⟩
  have hqm : norm (q.1 - g) ∈ dists norm pts g := List.mem_map.2 ⟨q, hq, rfl⟩
  have hwp : (setWeight r (norm (p.1 - g))) ^ 2 ∈ w :=
    List.mem_map.2 ⟨_, List.mem_map.2 ⟨_, hpm, rfl⟩, rfl⟩
  have hpos := setWeight_pos (hdpos _ hpm) (lt_of_lt_of_le hpq (hmax _ hqm))
  have hs : 0 < w.sum := sum_pos_of_mem hnn hwp (by positivity)
  have hlen : w.length = (pts.map Prod.snd).length := by simp [hw, dists]
  refine ⟨dot w (pts.map Prod.snd) / w.sum, ?_, ?_⟩
  · rw [heq]
    simp only [normalisedDot, hs.ne', if_false, dot_map_div]
  · intro lo hi hb
    exact mean_bounds hlen hnn hs
      (by intro x hx; obtain ⟨q, hq, rfl⟩ := List.mem_map.1 hx; exact (hb q hq).1)
      (by intro x hx; obtain ⟨q, hq, rfl⟩ := List.mem_map.1 hx; exact (hb q hq).2)

example : NotStored (K := Rat) [((0, 0), 1), ((3, 0), 7)] (1, 0) ∧
    improved (K := Rat) (fun x => max |x.1| |x.2|) [((0, 0), 1), ((3, 0), 7)] (1, 0) = .ok (some 1) :=
  ⟨by unfold NotStored; decide +kernel, by decide +kernel⟩

/-- **C22** refuted: if all points have the same distance to the query point (for instance if there is only one
point), all weights vanish and the result is `nan`. -/
theorem C22_equidistant_false {norm : K × K → K} (hn : IsDist norm) {pts : List (Pt K)} {g : K × K} (hp : pts ≠ [])
    (h : NotStored pts g) {r : K} (hr : ∀ p ∈ pts, norm (p.1 - g) = r) : improved norm pts g = .ok none := by
  obtain ⟨r', hr', -, heq⟩ := improved_eq hn hp h
  have hrr : r' = r := by
    obtain ⟨x, hx, rfl⟩ := List.mem_map.1 hr'
    exact hr x hx
  subst hrr
  have hpos : 0 < r' := by
    obtain ⟨x, hx, rfl⟩ := List.mem_map.1 hr'
    exact dist_pos hn h x hx
  have hw : ((dists norm pts g).map (setWeight r')).map (· ^ 2) = pts.map fun _ => (0 : K) := by
    simp only [dists, List.map_map]
    apply List.map_congr_left
    intro p hp
    simp [Function.comp, hr p hp, setWeight_max hpos]
  rw [heq, hw]
  simp [normalisedDot]

example : NotStored (K := Rat) [((0, 0), 1), ((2, 0), 7)] (1, 0) ∧
    (∀ p ∈ ([((0, 0), 1), ((2, 0), 7)] : List (Pt Rat)), max |(p.1 - (1, 0)).1| |(p.1 - (1, 0)).2| = 1) :=
  ⟨by unfold NotStored; decide +kernel, by decide +kernel⟩

/-- **C22.** Exactly when the result is not a number: away from the data points, if all points are equally far away. -/
theorem C22_nan_iff {norm : K × K → K} (hn : IsDist norm) {pts : List (Pt K)} {g : K × K} (hp : pts ≠ [])
    (h : NotStored pts g) : improved norm pts g = .ok none ↔ ∀ p ∈ pts, ∀ q ∈ pts, norm (p.1 - g) = norm (q.1 - g) := by
  constructor
  · intro he
    by_contra hc
    push Not at hc
    obtain ⟨p, hp, q, hq, hpq⟩ := hc
    rcases lt_or_gt_of_ne hpq with hlt | hlt
    · obtain ⟨v, hv, -⟩ := C22_in_range_partial hn h hp hq hlt
      rw [he] at hv; simp at hv
    · obtain ⟨v, hv, -⟩ := C22_in_range_partial hn h hq hp hlt
      rw [he] at hv; simp at hv
  · intro he
    obtain ⟨q, hq⟩ := List.exists_mem_of_ne_nil _ hp
    exact C22_equidistant_false hn hp h (r := norm (q.1 - g)) fun p hp => he p hp q hq

/-- **C22** refuted: one stored point and any other query point give `nan`. -/
theorem C22_single_false {norm : K × K → K} (hn : IsDist norm) {x g : K × K} (hx : x ≠ g) (z : K) :
    improved norm [(x, z)] g = .ok none :=
  C22_equidistant_false hn (by simp) (by simpa [NotStored] using hx) (r := norm (x - g)) (by simp)

example : ((0, 0) : Rat × Rat) ≠ (1, 0) := by decide +kernel

/-- **C22.** Without points a `ValueError` is raised. -/
theorem C22_empty (norm : K × K → K) (g : K × K) : improved norm [] g = .error .valueError := rfl

/-! ## C23 -/

/-- The first stored value at `(x, y)`. -/
def Stored (pts : List (Pt K)) (x y z : K) : Prop := FirstStored pts (x, y) z

/-- `a` and `b` are neighbouring values in `l`. -/
def Adjacent (l : List K) (a b : K) : Prop := a ∈ l ∧ b ∈ l ∧ a < b ∧ ∀ x ∈ l, x ≤ a ∨ b ≤ x

/-- The wind speeds of the points. -/
def wsOf (pts : List (Pt K)) : List K := pts.map fun p => p.1.1

/-- The wind angles of the points. -/
def waOf (pts : List (Pt K)) : List K := pts.map fun p => p.1.2

theorem bsInGrid_stored {pts : List (Pt K)} {x y z : K} (h : Stored pts x y z) : bsInGrid pts x y = .ok z := by
  obtain ⟨i, hi, hf⟩ := h
  unfold bsInGrid
  have key : ∃ l, pts.filter (fun p => decide (p.1.1 = x) && decide (p.1.2 = y)) = ((x, y), z) :: l := by
    induction pts generalizing i with
    | nil => simp at hi
    | cons p ps ih =>
      cases i with
      | zero =>
        simp only [List.getElem?_cons_zero, Option.some.injEq] at hi
        subst hi
        exact ⟨_, by simp; rfl⟩
      | succ i =>
        have hp : p.1 ≠ (x, y) := hf 0 p (by omega) rfl
        have : (decide (p.1.1 = x) && decide (p.1.2 = y)) = false := by
          rw [Bool.eq_false_iff]
          intro h
          simp only [Bool.and_eq_true, decide_eq_true_eq] at h
          exact hp (Prod.ext h.1 h.2)
        rw [List.filter_cons, this]
        simp only [Bool.false_eq_true, if_false]
        exact ih i (by simpa using hi) fun j q hj hq => hf (j + 1) q (by omega) (by simpa using hq)
  obtain ⟨l, hl⟩ := key
  rw [hl]

theorem bsInGrid_missing {pts : List (Pt K)} {x y : K} (h : NotStored pts (x, y)) :
    bsInGrid pts x y = .error .noGrid := by
  have : pts.filter (fun p => decide (p.1.1 = x) && decide (p.1.2 = y)) = [] := by
    rw [List.filter_eq_nil_iff]
    intro p hp hc
    simp only [Bool.and_eq_true, decide_eq_true_eq] at hc
    exact h p hp (Prod.ext hc.1 hc.2)
  simp [bsInGrid, this]

theorem Stored.mem_ws {pts : List (Pt K)} {x y z : K} (h : Stored pts x y z) : x ∈ wsOf pts := by
  obtain ⟨i, hi, -⟩ := h
  exact List.mem_map.2 ⟨_, List.mem_of_getElem? hi, rfl⟩

theorem Stored.mem_wa {pts : List (Pt K)} {x y z : K} (h : Stored pts x y z) : y ∈ waOf pts := by
  obtain ⟨i, hi, -⟩ := h
  exact List.mem_map.2 ⟨_, List.mem_of_getElem? hi, rfl⟩

theorem maxSmaller_self {l : List K} {x : K} (h : x ∈ l) : maxSmaller l x = .ok x :=
  maxSmaller_ok h le_rfl fun _ _ h => h

theorem minBigger_self {l : List K} {x : K} (h : x ∈ l) : minBigger l x = .ok x :=
  minBigger_ok h le_rfl fun _ _ h => h

theorem Adjacent.brackets {l : List K} {a b x : K} (h : Adjacent l a b) (h1 : a ≤ x) (h2 : x ≤ b) :
    (x = a ∧ maxSmaller l x = .ok a ∧ minBigger l x = .ok a) ∨
    (x = b ∧ maxSmaller l x = .ok b ∧ minBigger l x = .ok b) ∨
    (a < x ∧ x < b ∧ maxSmaller l x = .ok a ∧ minBigger l x = .ok b) := by
  obtain ⟨ha, hb, hab, hadj⟩ := h
  rcases eq_or_lt_of_le h1 with rfl | h1
  · exact .inl ⟨rfl, maxSmaller_self ha, minBigger_self ha⟩
  rcases eq_or_lt_of_le h2 with rfl | h2
  · exact .inr (.inl ⟨rfl, maxSmaller_self hb, minBigger_self hb⟩)
  refine .inr (.inr ⟨h1, h2, maxSmaller_ok ha h1.le ?_, minBigger_ok hb h2.le ?_⟩)
  · intro y hy hyx
    exact (hadj y hy).resolve_right fun h => absurd (lt_of_lt_of_le h2 h) (not_lt.2 hyx)
  · intro y hy hyx
    exact (hadj y hy).resolve_left fun h => absurd (lt_of_le_of_lt h h1) (not_lt.2 hyx)

/-- **C23.** The stored value is returned at every data point. -/
theorem C23_exact {pts : List (Pt K)} {x y z : K} (h : Stored pts x y z) : bilinear pts (x, y) = .ok z := by
  have e1 := maxSmaller_self h.mem_ws
  have e2 := minBigger_self h.mem_ws
  have e3 := maxSmaller_self h.mem_wa
  have e4 := minBigger_self h.mem_wa
  simp only [wsOf, waOf] at e1 e2 e3 e4
  simp [bilinear, e1, e2, e3, e4, convex1d, bsInGrid_stored h, pure, Except.pure, bind, Except.bind]

/-- The value in between of two values at parameter `t`. -/
def lerp (t a b : K) : K := (1 - t) * a + t * b

theorem convex1d_eq {pts : List (Pt K)} {x y y0 y1 z0 z1 : K} (h : Adjacent (waOf pts) y0 y1) (h1 : y0 ≤ y)
    (h2 : y ≤ y1) (s0 : Stored pts x y0 z0) (s1 : Stored pts x y1 z1) {lo up : K}
    (hlo : maxSmaller (waOf pts) y = .ok lo) (hup : minBigger (waOf pts) y = .ok up) :
    convex1d pts x y lo up = .ok (lerp ((y - y0) / (y1 - y0)) z0 z1) := by
  have hne : y1 - y0 ≠ 0 := sub_ne_zero.2 h.2.2.1.ne'
  rcases h.brackets h1 h2 with ⟨rfl, e1, e2⟩ | ⟨rfl, e1, e2⟩ | ⟨-, -, e1, e2⟩
  · rw [hlo] at e1; rw [hup] at e2; cases e1; cases e2
    simp [convex1d, bsInGrid_stored s0, pure, Except.pure, bind, Except.bind, lerp]
  · rw [hlo] at e1; rw [hup] at e2; cases e1; cases e2
    simp [convex1d, bsInGrid_stored s1, pure, Except.pure, bind, Except.bind, lerp, div_self hne]
  · rw [hlo] at e1; rw [hup] at e2; cases e1; cases e2
    simp [convex1d, bsInGrid_stored s0, bsInGrid_stored s1, pure, Except.pure, bind, Except.bind, lerp,
      h.2.2.1.ne]

/-- **C23.** In the closed cell spanned by neighbouring wind speeds and neighbouring wind angles with four stored
corners the bilinear interpolant of the corners is returned. -/
theorem C23_cell {pts : List (Pt K)} {x y x0 x1 y0 y1 z00 z01 z10 z11 : K}
    (hx : Adjacent (wsOf pts) x0 x1) (hy : Adjacent (waOf pts) y0 y1)
    (hx0 : x0 ≤ x) (hx1 : x ≤ x1) (hy0 : y0 ≤ y) (hy1 : y ≤ y1)
    (s00 : Stored pts x0 y0 z00) (s01 : Stored pts x0 y1 z01) (s10 : Stored pts x1 y0 z10)
    (s11 : Stored pts x1 y1 z11) :
    bilinear pts (x, y) = .ok (lerp ((x - x0) / (x1 - x0)) (lerp ((y - y0) / (y1 - y0)) z00 z01)
      (lerp ((y - y0) / (y1 - y0)) z10 z11)) := by
  have hne : x1 - x0 ≠ 0 := sub_ne_zero.2 hx.2.2.1.ne'
  obtain ⟨lo, hlo⟩ : ∃ lo, maxSmaller (waOf pts) y = .ok lo := by
    rcases hy.brackets hy0 hy1 with ⟨-, e1, -⟩ | ⟨-, e1, -⟩ | ⟨-, -, e1, -⟩ <;> exact ⟨_, e1⟩
  obtain ⟨up, hup⟩ : ∃ up, minBigger (waOf pts) y = .ok up := by
    rcases hy.brackets hy0 hy1 with ⟨-, -, e1⟩ | ⟨-, -, e1⟩ | ⟨-, -, -, e1⟩ <;> exact ⟨_, e1⟩
  have c0 := convex1d_eq hy hy0 hy1 s00 s01 hlo hup
  have c1 := convex1d_eq hy hy0 hy1 s10 s11 hlo hup
  simp only [waOf] at hlo hup
  rcases hx.brackets hx0 hx1 with ⟨rfl, e1, e2⟩ | ⟨rfl, e1, e2⟩ | ⟨-, -, e1, e2⟩
  · simp only [wsOf] at e1 e2
    simp [bilinear, e1, e2, hlo, hup, c0, pure, Except.pure, bind, Except.bind, lerp]
  · simp only [wsOf] at e1 e2
    simp [bilinear, e1, e2, hlo, hup, c1, pure, Except.pure, bind, Except.bind, lerp, div_self hne]
  · simp only [wsOf] at e1 e2
    simp [bilinear, e1, e2, hlo, hup, c0, c1, pure, Except.pure, bind, Except.bind, lerp, hx.2.2.1.ne']

theorem lerp_mem {t a b lo hi : K} (h0 : 0 ≤ t) (h1 : t ≤ 1) (ha : lo ≤ a ∧ a ≤ hi) (hb : lo ≤ b ∧ b ≤ hi) :
    lo ≤ lerp t a b ∧ lerp t a b ≤ hi := by
  unfold lerp
  constructor <;> nlinarith [ha.1, ha.2, hb.1, hb.2]

/-- **C23.** The interpolated value in a cell lies between the smallest and the largest of its corners. -/
theorem C23_cell_bounds {pts : List (Pt K)} {x y x0 x1 y0 y1 z00 z01 z10 z11 : K}
    (hx : Adjacent (wsOf pts) x0 x1) (hy : Adjacent (waOf pts) y0 y1)
    (hx0 : x0 ≤ x) (hx1 : x ≤ x1) (hy0 : y0 ≤ y) (hy1 : y ≤ y1)
    (s00 : Stored pts x0 y0 z00) (s01 : Stored pts x0 y1 z01) (s10 : Stored pts x1 y0 z10)
    (s11 : Stored pts x1 y1 z11) :
    ∃ v, bilinear pts (x, y) = .ok v ∧ min (min z00 z01) (min z10 z11) ≤ v ∧
      v ≤ max (max z00 z01) (max z10 z11) := by
  refine ⟨_, C23_cell hx hy hx0 hx1 hy0 hy1 s00 s01 s10 s11, ?_⟩
  have hdx : 0 < x1 - x0 := sub_pos.2 hx.2.2.1
  have hdy : 0 < y1 - y0 := sub_pos.2 hy.2.2.1
  have tx0 : 0 ≤ (x - x0) / (x1 - x0) := div_nonneg (sub_nonneg.2 hx0) hdx.le
  have tx1 : (x - x0) / (x1 - x0) ≤ 1 := (div_le_one hdx).2 (by linarith)
  have ty0 : 0 ≤ (y - y0) / (y1 - y0) := div_nonneg (sub_nonneg.2 hy0) hdy.le
  have ty1 : (y - y0) / (y1 - y0) ≤ 1 := (div_le_one hdy).2 (by linarith)
  apply lerp_mem tx0 tx1 <;> apply lerp_mem ty0 ty1 <;> simp

example : Adjacent (wsOf ([((0, 0), 1), ((0, 2), 3), ((4, 0), 5), ((4, 2), 9)] : List (Pt Rat))) 0 4 ∧
    Adjacent (waOf ([((0, 0), 1), ((0, 2), 3), ((4, 0), 5), ((4, 2), 9)] : List (Pt Rat))) 0 2 ∧
    bilinear ([((0, 0), 1), ((0, 2), 3), ((4, 0), 5), ((4, 2), 9)] : List (Pt Rat)) (1, 1) = .ok (13 / 4) :=
  ⟨by unfold Adjacent; decide +kernel, by unfold Adjacent; decide +kernel, by decide +kernel⟩

example : Stored ([((0, 0), 1), ((0, 2), 3), ((4, 0), 5), ((4, 2), 9)] : List (Pt Rat)) 0 2 3 :=
  ⟨1, by decide +kernel, fun j q hj hq => by
    have : j = 0 := by omega
    subst this
    simp only [List.getElem?_cons_zero, Option.some.injEq] at hq
    subst hq
    decide +kernel⟩

/-- **C23.** A query outside of the grid raises. -/
theorem C23_outside {pts : List (Pt K)} {x y : K}
    (h : (∀ p ∈ pts, x < p.1.1) ∨ (∀ p ∈ pts, p.1.1 < x) ∨ (∀ p ∈ pts, y < p.1.2) ∨ (∀ p ∈ pts, p.1.2 < y)) :
    bilinear pts (x, y) = .error .outsideGrid := by
  unfold bilinear
  rcases maxSmaller_cases (pts.map fun p => p.1.1) x with ⟨a, ha, hax, -, e1⟩ | ⟨-, e1⟩
  swap
  · simp [e1, bind, Except.bind]
  rcases minBigger_cases (pts.map fun p => p.1.1) x with ⟨b, hb, hbx, -, e2⟩ | ⟨-, e2⟩
  swap
  · simp [e1, e2, bind, Except.bind]
  rcases maxSmaller_cases (pts.map fun p => p.1.2) y with ⟨c, hc, hcy, -, e3⟩ | ⟨-, e3⟩
  swap
  · simp [e1, e2, e3, bind, Except.bind]
  rcases minBigger_cases (pts.map fun p => p.1.2) y with ⟨d, hd, hdy, -, e4⟩ | ⟨-, e4⟩
  swap
  · simp [e1, e2, e3, e4, bind, Except.bind]
  exfalso
  obtain ⟨p, hp, rfl⟩ := List.mem_map.1 ha
  obtain ⟨q, hq, rfl⟩ := List.mem_map.1 hb
  obtain ⟨r, hr, rfl⟩ := List.mem_map.1 hc
  obtain ⟨t, ht, rfl⟩ := List.mem_map.1 hd
  rcases h with h | h | h | h
  · exact absurd hax (not_le.2 (h p hp))
  · exact absurd hbx (not_le.2 (h q hq))
  · exact absurd hcy (not_le.2 (h r hr))
  · exact absurd hdy (not_le.2 (h t ht))

example : ∀ p ∈ ([((0, 0), 1), ((4, 2), 9)] : List (Pt Rat)), (-1 : Rat) < p.1.1 := by decide +kernel

/-- **C23.** Inside of a cell with a missing corner the interpolator raises. -/
theorem C23_missing {pts : List (Pt K)} {x y x0 x1 y0 y1 : K}
    (hx : Adjacent (wsOf pts) x0 x1) (hy : Adjacent (waOf pts) y0 y1)
    (hx0 : x0 < x) (hx1 : x < x1) (hy0 : y0 < y) (hy1 : y < y1)
    (h : NotStored pts (x0, y0) ∨ NotStored pts (x0, y1) ∨ NotStored pts (x1, y0) ∨ NotStored pts (x1, y1)) :
    bilinear pts (x, y) = .error .noGrid := by
  rcases hx.brackets hx0.le hx1.le with ⟨e, -⟩ | ⟨e, -⟩ | ⟨-, -, e1, e2⟩
  · exact absurd e hx0.ne'
  · exact absurd e hx1.ne
  rcases hy.brackets hy0.le hy1.le with ⟨e, -⟩ | ⟨e, -⟩ | ⟨-, -, e3, e4⟩
  · exact absurd e hy0.ne'
  · exact absurd e hy1.ne
  have hcase : ∀ a b, (∃ z, bsInGrid pts a b = .ok z) ∨ bsInGrid pts a b = .error .noGrid := by
    intro a b
    unfold bsInGrid
    split
    · exact .inr rfl
    · exact .inl ⟨_, rfl⟩
  have hc : ∀ a, (∃ z, convex1d pts a y y0 y1 = .ok z ∧ ¬ NotStored pts (a, y0) ∧ ¬ NotStored pts (a, y1)) ∨
      convex1d pts a y y0 y1 = .error .noGrid := by
    intro a
    rcases hcase a y0 with ⟨z, hz⟩ | hz
    · rcases hcase a y1 with ⟨w, hw⟩ | hw
      · left
        refine ⟨(1 - (y - y0) / (y1 - y0)) * z + (y - y0) / (y1 - y0) * w, by
          simp [convex1d, hz, hw, hy.2.2.1.ne, pure, Except.pure, bind, Except.bind], ?_, ?_⟩
        · intro hn; rw [bsInGrid_missing hn] at hz; cases hz
        · intro hn; rw [bsInGrid_missing hn] at hw; cases hw
      · right; simp [convex1d, hz, hw, bind, Except.bind]
    · right; simp [convex1d, hz, bind, Except.bind]
  simp only [wsOf, waOf] at e1 e2 e3 e4
  rcases hc x0 with ⟨z, hz, h1, h2⟩ | hz
  · rcases hc x1 with ⟨w, hw, h3, h4⟩ | hw
    · tauto
    · simp [bilinear, e1, e2, e3, e4, hz, hw, bind, Except.bind]
  · simp [bilinear, e1, e2, e3, e4, hz, bind, Except.bind]

example : NotStored ([((0, 0), 1), ((0, 2), 3), ((4, 2), 9)] : List (Pt Rat)) (4, 0) ∧
    bilinear ([((0, 0), 1), ((0, 2), 3), ((4, 2), 9)] : List (Pt Rat)) (1, 1) = .error .noGrid :=
  ⟨by unfold NotStored; decide +kernel, by decide +kernel⟩

end Verif.Interp
