import Verif.Props.Interpolator

/-!
# Property C120: interpolation does not depend on units, order and origin
-/

set_option linter.unusedSectionVars false

namespace Verif.Interp

variable {K : Type} [Field K] [LinearOrder K] [IsStrictOrderedRing K]

/-! ### Units of the boat speed -/

theorem firstAtZero_map (norm : K × K → K) (g : K × K) (pts : List (Pt K)) (f : K → K) :
    firstAtZero norm g (pts.map fun q => (q.1, f q.2)) = (firstAtZero norm g pts).map f := by
  induction pts with
  | nil => rfl
  | cons p ps ih =>
    simp only [List.map_cons, firstAtZero, ih]
    split <;> rfl

theorem dists_map (norm : K × K → K) (g : K × K) (pts : List (Pt K)) (f : K → K) :
    dists norm (pts.map fun q => (q.1, f q.2)) g = dists norm pts g := by
  simp [dists, Function.comp_def]

theorem dot_affine {v z : List K} (h : v.length = z.length) (a b : K) :
    dot v (z.map fun x => a * x + b) = a * dot v z + b * v.sum := by
  induction v generalizing z with
  | nil => simp [dot]
  | cons x v ih =>
    cases z with
    | nil => simp at h
    | cons y z =>
      simp only [List.map_cons, dot_cons, List.sum_cons]
      rw [ih (by simpa using h)]
      ring

theorem normalisedDot_affine {v z : List K} (h : v.length = z.length) (a b : K) :
    normalisedDot v (z.map fun x => a * x + b) = (normalisedDot v z).map fun x => a * x + b := by
  unfold normalisedDot
  split
  · rfl
  · rename_i hs
    rw [dot_map_div, dot_map_div, dot_affine h, Option.map_some]
    congr 1
    field_simp

/-- **C120.** Boat speeds in other units, or with a constant added, give values in the same units, or with the same
constant added (`IDWInterpolator`). -/
theorem C120_units_idw (norm : K × K → K) (p : Nat) (pts : List (Pt K)) (g : K × K) (a b : K) :
    idw norm p (pts.map fun q => (q.1, a * q.2 + b)) g = (idw norm p pts g).map (Option.map fun x => a * x + b) := by
  unfold idw
  simp only [List.length_map]
  split
  · rfl
  · rw [firstAtZero_map norm g pts (fun x => a * x + b), dists_map norm g pts (fun x => a * x + b)]
    cases firstAtZero norm g pts with
    | some z => rfl
    | none =>
      simp only [Option.map_none, Except.map, Except.ok.injEq]
      have e : List.map Prod.snd (pts.map fun q => (q.1, a * q.2 + b)) = (pts.map Prod.snd).map fun x => a * x + b := by
        simp [Function.comp_def]
      rw [e, normalisedDot_affine (by simp [dists])]

/-- **C120.** The same for `ImprovedIDWInterpolator`. -/
theorem C120_units_improved (norm : K × K → K) (pts : List (Pt K)) (g : K × K) (a b : K) :
    improved norm (pts.map fun q => (q.1, a * q.2 + b)) g = (improved norm pts g).map (Option.map fun x => a * x + b) := by
  unfold improved
  rw [firstAtZero_map norm g pts (fun x => a * x + b), dists_map norm g pts (fun x => a * x + b)]
  cases firstAtZero norm g pts with
  | some z => rfl
  | none =>
    simp only [Option.map_none]
    cases h : setWeights (dists norm pts g) with
    | error e => rfl
    | ok wts =>
      have hl : wts.length = pts.length := by
        cases pts with
        | nil => simp [dists, setWeights] at h
        | cons p ps =>
          simp only [dists, List.map_cons, setWeights, Except.ok.injEq] at h
          rw [← h]
          simp
      simp only [Except.map, Except.ok.injEq]
      have e : List.map Prod.snd (pts.map fun q => (q.1, a * q.2 + b)) = (pts.map Prod.snd).map fun x => a * x + b := by
        simp [Function.comp_def]
      rw [e, normalisedDot_affine (by simp [hl])]

/-- **C120.** The same for `ArithmeticMeanInterpolator` with `s = 1`, and for every `s` if nothing is added. -/
theorem C120_units_arith (norm : K × K → K) (distr : K → K → K) (pts : List (Pt K)) {weights : List K}
    (hw : weights.length = pts.length) (g : K × K) (s a b : K) (h : s = 1 ∨ b = 0) :
    arith norm s distr (pts.map fun q => (q.1, a * q.2 + b)) weights g =
      (arith norm s distr pts weights g).map fun x => a * x + b := by
  unfold arith
  rw [firstAtZero_map norm g pts (fun x => a * x + b), dists_map norm g pts (fun x => a * x + b)]
  cases firstAtZero norm g pts with
  | some z => rfl
  | none =>
    simp only [Option.map_none, average]
    by_cases hs : (List.zipWith distr (dists norm pts g) weights).sum = 0
    · rw [if_pos hs, if_pos hs]
      rfl
    · rw [if_neg hs, if_neg hs]
      simp only [Except.map, Except.ok.injEq]
      have e : List.map Prod.snd (pts.map fun q => (q.1, a * q.2 + b)) = (pts.map Prod.snd).map fun x => a * x + b := by
        simp [Function.comp_def]
      rw [e, dot_comm, dot_affine (by simp [dists, hw]), dot_comm]
      rcases h with rfl | rfl
      · field_simp
      · field_simp
        ring

example : idw (fun x : ℚ × ℚ => max |x.1| |x.2|) 2 ([((0, 0), 5), ((2, 0), 6)].map fun q : Pt ℚ => (q.1, 2 * q.2 + 1)) (1, 0) =
    .ok (some 12) := by decide +kernel

/-- **C120 is false** for `ArithmeticMeanInterpolator` with another `s`, e.g. the default 50 of point clouds: adding a
constant to all boat speeds does not add it to the value. -/
theorem C120_units_false {norm : K × K → K} (hn : IsDist norm) {distr : K → K → K} (hd : ∀ d w, 0 < distr d w)
    {pts : List (Pt K)} (hp : pts ≠ []) {weights : List K} (hw : weights.length = pts.length) {g : K × K}
    (h : NotStored pts g) {s b : K} (hs : s ≠ 1) (hb : b ≠ 0) :
    ∃ u v, arith norm s distr pts weights g = .ok u ∧
      arith norm s distr (pts.map fun q => (q.1, q.2 + b)) weights g = .ok v ∧ v ≠ u + b := by
  obtain ⟨v, hv, -, -⟩ := C21_scaled_mean hn hd hp hw h
  have h1 := C120_units_arith norm distr pts hw g 1 1 b (.inl rfl)
  rw [hv 1] at h1
  simp only [one_mul, Except.map] at h1
  have hp' : (pts.map fun q : Pt K => (q.1, q.2 + b)) ≠ [] := by simpa using hp
  have h' : NotStored (pts.map fun q : Pt K => (q.1, q.2 + b)) g := by
    intro q hq
    obtain ⟨r, hr, rfl⟩ := List.mem_map.1 hq
    exact h r hr
  obtain ⟨v', hv', -, -⟩ := C21_scaled_mean hn hd hp' (weights := weights) (by simpa using hw) h'
  rw [hv' 1] at h1
  have hvv : v' = v + b := by simpa using h1
  refine ⟨s * v, s * v', hv s, hv' s, ?_⟩
  rw [hvv]
  intro he
  have : (s - 1) * b = 0 := by linear_combination he
  rcases mul_eq_zero.1 this with h | h
  · exact hs (by linear_combination h)
  · exact hb h

/-- **C120.** The same for `BilinearGridInterpolator`. -/
theorem C120_units_bilinear (pts : List (Pt K)) (g : K × K) (a b : K) :
    bilinear (pts.map fun q => (q.1, a * q.2 + b)) g = (bilinear pts g).map fun x => a * x + b := by
  have hg : ∀ x y, bsInGrid (pts.map fun q => (q.1, a * q.2 + b)) x y = (bsInGrid pts x y).map fun z => a * z + b := by
    intro x y
    unfold bsInGrid
    rw [List.filter_map]
    simp only [Function.comp_def]
    cases pts.filter (fun p => decide (p.1.1 = x) && decide (p.1.2 = y)) <;> rfl
  have hc : ∀ x y lo up, convex1d (pts.map fun q => (q.1, a * q.2 + b)) x y lo up =
      (convex1d pts x y lo up).map fun z => a * z + b := by
    intro x y lo up
    unfold convex1d
    rw [hg, hg]
    cases bsInGrid pts x lo with
    | error e => rfl
    | ok zl =>
      cases bsInGrid pts x up with
      | error e => rfl
      | ok zu =>
        simp only [Except.map, bind, Except.bind, pure, Except.pure]
        split
        · rfl
        · simp only [Except.ok.injEq]
          ring
  unfold bilinear
  simp only [List.map_map, Function.comp_def, hc]
  cases maxSmaller (pts.map fun p => p.1.1) g.1 with
  | error e => rfl
  | ok wsl =>
    cases minBigger (pts.map fun p => p.1.1) g.1 with
    | error e => rfl
    | ok wsu =>
      cases maxSmaller (pts.map fun p => p.1.2) g.2 with
      | error e => rfl
      | ok wal =>
        cases minBigger (pts.map fun p => p.1.2) g.2 with
        | error e => rfl
        | ok wau =>
          simp only [bind, Except.bind]
          cases convex1d pts wsl g.2 wal wau with
          | error e => rfl
          | ok zl =>
            cases convex1d pts wsu g.2 wal wau with
            | error e => rfl
            | ok zu =>
              simp only [Except.map, pure, Except.pure]
              split
              · rfl
              · simp only [Except.ok.injEq]
                ring

/-! ### Order of the points -/

/-- Points with the same wind have the same boat speed. -/
def Consistent (pts : List (Pt K)) : Prop := ∀ p ∈ pts, ∀ q ∈ pts, p.1 = q.1 → p.2 = q.2

theorem dot_map_map {α : Type} (l : List α) (f z : α → K) : dot (l.map f) (l.map z) = (l.map fun x => f x * z x).sum := by
  induction l with
  | nil => simp [dot]
  | cons a l ih => simp only [List.map_cons, dot_cons, List.sum_cons, ih]

theorem normalisedDot_perm {α : Type} {l l' : List α} (h : l.Perm l') (f z : α → K) :
    normalisedDot (l.map f) (l.map z) = normalisedDot (l'.map f) (l'.map z) := by
  unfold normalisedDot
  rw [dot_map_div, dot_map_div, dot_map_map, dot_map_map, (h.map f).sum_eq, (h.map fun x => f x * z x).sum_eq]

theorem firstAtZero_perm {norm : K × K → K} (hn : IsDist norm) {pts pts' : List (Pt K)} (h : pts.Perm pts')
    (hc : Consistent pts) (g : K × K) : firstAtZero norm g pts = firstAtZero norm g pts' := by
  cases h1 : firstAtZero norm g pts with
  | none =>
    symm
    rw [firstAtZero_eq_none] at h1 ⊢
    exact fun p hp => h1 p (h.mem_iff.2 hp)
  | some z =>
    obtain ⟨p, hp, rfl, h0⟩ := firstAtZero_mem h1
    cases h2 : firstAtZero norm g pts' with
    | none => exact absurd h0 (firstAtZero_eq_none.1 h2 p (h.mem_iff.1 hp))
    | some z =>
      obtain ⟨q, hq, rfl, h0'⟩ := firstAtZero_mem h2
      rw [hc p hp q (h.mem_iff.2 hq)]
      rw [sub_eq_zero.1 ((hn.2 _).1 h0), sub_eq_zero.1 ((hn.2 _).1 h0')]

/-- **C120** (partial: if points with the same wind have the same boat speed). The order of the points does not matter
(`IDWInterpolator`). -/
theorem C120_order_idw_partial {norm : K × K → K} (hn : IsDist norm) (p : Nat) {pts pts' : List (Pt K)} (h : pts.Perm pts')
    (hc : Consistent pts) (g : K × K) : idw norm p pts g = idw norm p pts' g := by
  unfold idw
  rw [h.length_eq, firstAtZero_perm hn h hc g]
  have e : normalisedDot ((dists norm pts g).map fun d => 1 / d ^ p) (pts.map Prod.snd) =
      normalisedDot ((dists norm pts' g).map fun d => 1 / d ^ p) (pts'.map Prod.snd) := by
    simp only [dists, List.map_map]
    exact normalisedDot_perm h _ _
  rw [e]

/-- The greatest distance does not depend on the order. -/
theorem maxOf_perm {a b : K} {l m : List K} (h : (a :: l).Perm (b :: m)) : maxOf a l = maxOf b m :=
  le_antisymm (le_maxOf b m _ (h.mem_iff.1 (maxOf_mem a l))) (le_maxOf a l _ (h.mem_iff.2 (maxOf_mem b m)))

/-- **C120** (partial: if points with the same wind have the same boat speed). The same for `ImprovedIDWInterpolator`. -/
theorem C120_order_improved_partial {norm : K × K → K} (hn : IsDist norm) {pts pts' : List (Pt K)} (h : pts.Perm pts')
    (hc : Consistent pts) (g : K × K) : improved norm pts g = improved norm pts' g := by
  unfold improved
  rw [firstAtZero_perm hn h hc g]
  cases firstAtZero norm g pts' with
  | some z => rfl
  | none =>
    cases pts with
    | nil => rw [h.nil_eq]
    | cons p ps =>
      cases pts' with
      | nil => exact absurd h.eq_nil (by simp)
      | cons q qs =>
        have hp : (dists norm (p :: ps) g).Perm (dists norm (q :: qs) g) := h.map _
        have hm := maxOf_perm (a := norm (p.1 - g)) (b := norm (q.1 - g)) (l := dists norm ps g) (m := dists norm qs g) hp
        have e : ∀ (x : Pt K) (xs : List (Pt K)), setWeights (dists norm (x :: xs) g) =
            .ok ((dists norm (x :: xs) g).map (setWeight (maxOf (norm (x.1 - g)) (dists norm xs g)))) := fun _ _ => rfl
        rw [e, e, hm]
        simp only [dists, List.map_map, Except.ok.injEq]
        exact normalisedDot_perm h _ _

/-- **C120** (partial: if points with the same wind have the same boat speed). The same for `ArithmeticMeanInterpolator`,
whose points are reordered together with their weights. -/
theorem C120_order_arith_partial {norm : K × K → K} (hn : IsDist norm) (s : K) (distr : K → K → K) {l l' : List (Pt K × K)}
    (h : l.Perm l') (hc : Consistent (l.map Prod.fst)) (g : K × K) :
    arith norm s distr (l.map Prod.fst) (l.map Prod.snd) g = arith norm s distr (l'.map Prod.fst) (l'.map Prod.snd) g := by
  unfold arith
  rw [firstAtZero_perm hn (h.map Prod.fst) hc g]
  have e : ∀ l : List (Pt K × K), List.zipWith distr (dists norm (l.map Prod.fst) g) (l.map Prod.snd) =
      l.map fun x => distr (norm (x.1.1 - g)) x.2 := by
    intro l
    simp only [dists, List.map_map, List.zipWith_map, List.zipWith_self]
    rfl
  have ha : average ((l.map Prod.fst).map Prod.snd) (List.zipWith distr (dists norm (l.map Prod.fst) g) (l.map Prod.snd)) =
      average ((l'.map Prod.fst).map Prod.snd)
        (List.zipWith distr (dists norm (l'.map Prod.fst) g) (l'.map Prod.snd)) := by
    rw [e, e]
    unfold average
    simp only [List.map_map, dot_map_map]
    rw [(h.map fun x => distr (norm (x.1.1 - g)) x.2).sum_eq,
      (h.map fun x => (Prod.snd ∘ Prod.fst) x * distr (norm (x.1.1 - g)) x.2).sum_eq]
  rw [ha]

theorem maxSmaller_congr {l l' : List K} (h : ∀ x, x ∈ l ↔ x ∈ l') (t : K) : maxSmaller l t = maxSmaller l' t := by
  rcases maxSmaller_cases l t with ⟨v, h1, h2, h3, h4⟩ | ⟨h1, h2⟩
  · rw [h4, maxSmaller_ok ((h v).1 h1) h2 fun x hx => h3 x ((h x).2 hx)]
  · rw [h2, maxSmaller_error fun x hx => h1 x ((h x).2 hx)]

theorem minBigger_congr {l l' : List K} (h : ∀ x, x ∈ l ↔ x ∈ l') (t : K) : minBigger l t = minBigger l' t := by
  rcases minBigger_cases l t with ⟨v, h1, h2, h3, h4⟩ | ⟨h1, h2⟩
  · rw [h4, minBigger_ok ((h v).1 h1) h2 fun x hx => h3 x ((h x).2 hx)]
  · rw [h2, minBigger_error fun x hx => h1 x ((h x).2 hx)]

theorem bsInGrid_cases (pts : List (Pt K)) (x y : K) :
    (∃ z, ((x, y), z) ∈ pts ∧ bsInGrid pts x y = .ok z) ∨ (NotStored pts (x, y) ∧ bsInGrid pts x y = .error .noGrid) := by
  unfold bsInGrid
  cases h : pts.filter (fun p => decide (p.1.1 = x) && decide (p.1.2 = y)) with
  | nil =>
    right
    refine ⟨?_, rfl⟩
    intro p hp he
    have := List.filter_eq_nil_iff.1 h p hp
    simp [he] at this
  | cons p l =>
    left
    have hp : p ∈ pts.filter (fun p => decide (p.1.1 = x) && decide (p.1.2 = y)) := by rw [h]; simp
    obtain ⟨h1, h2⟩ := List.mem_filter.1 hp
    simp only [Bool.and_eq_true, decide_eq_true_eq] at h2
    refine ⟨p.2, ?_, rfl⟩
    rw [← h2.1, ← h2.2]
    exact h1

theorem bsInGrid_perm {pts pts' : List (Pt K)} (h : pts.Perm pts') (hc : Consistent pts) (x y : K) :
    bsInGrid pts x y = bsInGrid pts' x y := by
  rcases bsInGrid_cases pts x y with ⟨z, h1, h2⟩ | ⟨h1, h2⟩
  · rcases bsInGrid_cases pts' x y with ⟨z', h1', h2'⟩ | ⟨h1', h2'⟩
    · have e : z = z' := hc _ h1 _ (h.mem_iff.2 h1') rfl
      rw [h2, h2', e]
    · exact absurd rfl (h1' _ (h.mem_iff.1 h1))
  · rw [h2, bsInGrid_missing fun p hp => h1 p (h.mem_iff.2 hp)]

/-- **C120** (partial: if points with the same wind have the same boat speed). The same for `BilinearGridInterpolator`. -/
theorem C120_order_bilinear_partial {pts pts' : List (Pt K)} (h : pts.Perm pts') (hc : Consistent pts) (g : K × K) :
    bilinear pts g = bilinear pts' g := by
  have e : ∀ x y lo up, convex1d pts x y lo up = convex1d pts' x y lo up := by
    intro x y lo up
    unfold convex1d
    rw [bsInGrid_perm h hc, bsInGrid_perm h hc]
  unfold bilinear
  rw [maxSmaller_congr fun x => (h.map fun p : Pt K => p.1.1).mem_iff,
    minBigger_congr fun x => (h.map fun p : Pt K => p.1.1).mem_iff,
    maxSmaller_congr fun x => (h.map fun p : Pt K => p.1.2).mem_iff,
    minBigger_congr fun x => (h.map fun p : Pt K => p.1.2).mem_iff]
  simp only [e]

/-- The order of three measurements of different winds does not matter. -/
example : Consistent [((0, 0), 1), ((4, 0), 5), (((3, 0), 3) : Pt ℚ)] ∧
    idw (K := ℚ) (fun x => max |x.1| |x.2|) 2 [((0, 0), 1), ((4, 0), 5), ((3, 0), 3)] (1, 0) =
      idw (fun x => max |x.1| |x.2|) 2 [((4, 0), 5), ((0, 0), 1), ((3, 0), 3)] (1, 0) ∧
    improved (K := ℚ) (fun x => max |x.1| |x.2|) [((0, 0), 1), ((4, 0), 5), ((3, 0), 3)] (1, 0) = .ok (some (19 / 17)) := by
  have hc : Consistent [((0, 0), 1), ((4, 0), 5), (((3, 0), 3) : Pt ℚ)] := by unfold Consistent; decide +kernel
  have hn : IsDist (K := ℚ) (fun x => max |x.1| |x.2|) := by
    refine ⟨fun x => le_max_of_le_left (abs_nonneg _), fun x => ⟨fun h => ?_, fun h => by simp [h]⟩⟩
    exact Prod.ext (abs_nonpos_iff.1 (h ▸ le_max_left _ _)) (abs_nonpos_iff.1 (h ▸ le_max_right _ _))
  have hp : [((0, 0), 1), ((4, 0), 5), (((3, 0), 3) : Pt ℚ)].Perm [((4, 0), 5), ((0, 0), 1), ((3, 0), 3)] := List.Perm.swap ..
  refine ⟨hc, C120_order_idw_partial hn 2 hp hc _, ?_⟩
  rw [C120_order_improved_partial hn hp hc]
  decide +kernel

/-- The same for the weighted mean, with the weights moving along. -/
example : arith (K := ℚ) (fun x => max |x.1| |x.2|) 1 (fun d w => |w| + d) [((0, 0), 1), ((4, 0), 5)] [1, 2] (1, 0) =
    arith (fun x => max |x.1| |x.2|) 1 (fun d w => |w| + d) [((4, 0), 5), ((0, 0), 1)] [2, 1] (1, 0) := by
  have hn : IsDist (K := ℚ) (fun x => max |x.1| |x.2|) := by
    refine ⟨fun x => le_max_of_le_left (abs_nonneg _), fun x => ⟨fun h => ?_, fun h => by simp [h]⟩⟩
    exact Prod.ext (abs_nonpos_iff.1 (h ▸ le_max_left _ _)) (abs_nonpos_iff.1 (h ▸ le_max_right _ _))
  exact C120_order_arith_partial hn 1 _ (l := [(((0, 0), 1), 1), (((4, 0), 5), 2)]) (l' := [(((4, 0), 5), 2), (((0, 0), 1), 1)])
    (List.Perm.swap ..) (by unfold Consistent; decide +kernel) _

example : [((1, 2), 3), (((4, 5), 6) : Pt ℚ)].Perm [((4, 5), 6), ((1, 2), 3)] ∧ Consistent [((1, 2), 3), (((4, 5), 6) : Pt ℚ)] := by
  refine ⟨List.Perm.swap .., ?_⟩
  intro p hp q hq
  fin_cases hp <;> fin_cases hq <;> simp

/-- **C120 is false** for points with the same wind and different boat speeds: at this wind the value depends on the order. -/
theorem C120_order_false {norm : K × K → K} (hn : IsDist norm) (p : Nat) (g : K × K) (u v : K) :
    idw norm p [(g, u), (g, v)] g = .ok (some u) ∧ idw norm p [(g, v), (g, u)] g = .ok (some v) := by
  have h0 : norm 0 = 0 := (hn.2 _).2 rfl
  simp [idw, firstAtZero, h0]

/-! ### Origin and units of the wind -/

theorem firstAtZero_translate (norm : K × K → K) (pts : List (Pt K)) (g d : K × K) :
    firstAtZero norm (g + d) (pts.map fun q => (q.1 + d, q.2)) = firstAtZero norm g pts := by
  induction pts with
  | nil => rfl
  | cons p ps ih => simp only [List.map_cons, firstAtZero, ih, add_sub_add_right_eq_sub]

theorem dists_translate (norm : K × K → K) (pts : List (Pt K)) (g d : K × K) :
    dists norm (pts.map fun q => (q.1 + d, q.2)) (g + d) = dists norm pts g := by
  simp [dists, Function.comp_def]

/-- **C120.** Moving all points and the requested wind by the same amount does not change the value (all interpolators that
use distances, except `ShepardInterpolator`, see C86). -/
theorem C120_origin (norm : K × K → K) (p : Nat) (s : K) (distr : K → K → K) (pts : List (Pt K)) (weights : List K)
    (g d : K × K) :
    idw norm p (pts.map fun q => (q.1 + d, q.2)) (g + d) = idw norm p pts g ∧
    improved norm (pts.map fun q => (q.1 + d, q.2)) (g + d) = improved norm pts g ∧
    arith norm s distr (pts.map fun q => (q.1 + d, q.2)) weights (g + d) = arith norm s distr pts weights g := by
  have e : (pts.map fun q => (q.1 + d, q.2)).map Prod.snd = pts.map Prod.snd := by simp [Function.comp_def]
  refine ⟨?_, ?_, ?_⟩
  · simp only [idw, List.length_map, firstAtZero_translate, dists_translate, e]
  · simp only [improved, firstAtZero_translate, dists_translate, e]
  · simp only [arith, firstAtZero_translate, dists_translate, e]

/-- **C120.** Multiplying the norm by a positive constant does not change the values of `IDWInterpolator`. -/
theorem C120_norm_idw (norm : K × K → K) (p : Nat) (pts : List (Pt K)) (g : K × K) {c : K} (hc : 0 < c) :
    idw (fun x => c * norm x) p pts g = idw norm p pts g := by
  have e1 : firstAtZero (fun x => c * norm x) g pts = firstAtZero norm g pts := by
    induction pts with
    | nil => rfl
    | cons q qs ih => simp only [firstAtZero, ih, mul_eq_zero, hc.ne', false_or]
  unfold idw
  rw [e1]
  have e2 : normalisedDot ((dists (fun x => c * norm x) pts g).map fun d => 1 / d ^ p) (pts.map Prod.snd) =
      normalisedDot ((dists norm pts g).map fun d => 1 / d ^ p) (pts.map Prod.snd) := by
    unfold normalisedDot
    rw [dot_map_div, dot_map_div]
    simp only [dists, List.map_map]
    have e3 : ((fun d : K => 1 / d ^ p) ∘ fun q : Pt K => c * norm (q.1 - g)) =
        fun q => (1 / c ^ p) * ((fun d : K => 1 / d ^ p) ∘ fun q : Pt K => norm (q.1 - g)) q := by
      funext q
      simp only [Function.comp, mul_pow]
      ring
    have hcp : 1 / c ^ p ≠ 0 := by positivity
    rw [e3, List.sum_map_mul_left, dot_map_map, dot_map_map]
    rw [show (fun x : Pt K => 1 / c ^ p * ((fun d : K => 1 / d ^ p) ∘ fun q : Pt K => norm (q.1 - g)) x * x.2) =
      fun x => 1 / c ^ p * (((fun d : K => 1 / d ^ p) ∘ fun q : Pt K => norm (q.1 - g)) x * x.2) from
      funext fun x => mul_assoc .., List.sum_map_mul_left]
    simp only [mul_eq_zero, hcp, false_or]
    split
    · rfl
    · rw [mul_div_mul_left _ _ hcp]
  rw [e2]

example : idw (K := ℚ) (fun x => 2 * max |x.1| |x.2|) 2 [((0, 0), 5), ((2, 0), 6)] (1, 0) = .ok (some (11 / 2)) := by
  rw [C120_norm_idw (fun x : ℚ × ℚ => max |x.1| |x.2|) 2 _ _ (by norm_num : (0 : ℚ) < 2)]
  decide +kernel

theorem maxSmaller_map {l : List K} {f : K → K} (hf : StrictMono f) (t : K) :
    maxSmaller (l.map f) (f t) = (maxSmaller l t).map f := by
  rcases maxSmaller_cases l t with ⟨v, h1, h2, h3, h4⟩ | ⟨h1, h2⟩
  · rw [h4, maxSmaller_ok (List.mem_map_of_mem h1) (hf.le_iff_le.2 h2)]
    · rfl
    · intro x hx hxt
      obtain ⟨y, hy, rfl⟩ := List.mem_map.1 hx
      exact hf.le_iff_le.2 (h3 y hy (hf.le_iff_le.1 hxt))
  · rw [h2, maxSmaller_error]
    · rfl
    · intro x hx
      obtain ⟨y, hy, rfl⟩ := List.mem_map.1 hx
      exact hf (h1 y hy)

theorem minBigger_map {l : List K} {f : K → K} (hf : StrictMono f) (t : K) :
    minBigger (l.map f) (f t) = (minBigger l t).map f := by
  rcases minBigger_cases l t with ⟨v, h1, h2, h3, h4⟩ | ⟨h1, h2⟩
  · rw [h4, minBigger_ok (List.mem_map_of_mem h1) (hf.le_iff_le.2 h2)]
    · rfl
    · intro x hx hxt
      obtain ⟨y, hy, rfl⟩ := List.mem_map.1 hx
      exact hf.le_iff_le.2 (h3 y hy (hf.le_iff_le.1 hxt))
  · rw [h2, minBigger_error]
    · rfl
    · intro x hx
      obtain ⟨y, hy, rfl⟩ := List.mem_map.1 hx
      exact hf (h1 y hy)

theorem affine_strictMono {a : K} (ha : 0 < a) (b : K) : StrictMono fun x => a * x + b := by
  intro x y h
  have := mul_lt_mul_of_pos_left h ha
  simp only
  linarith

/-- **C120.** Wind speeds and wind angles in other units, or measured from another origin, do not change the values of
`BilinearGridInterpolator`. -/
theorem C120_wind_bilinear (pts : List (Pt K)) (g : K × K) {a c : K} (b d : K) (ha : 0 < a) (hc : 0 < c) :
    bilinear (pts.map fun q => ((a * q.1.1 + b, c * q.1.2 + d), q.2)) (a * g.1 + b, c * g.2 + d) = bilinear pts g := by
  have h1 := affine_strictMono ha b
  have h2 := affine_strictMono hc d
  have hg : ∀ x y, bsInGrid (pts.map fun q => ((a * q.1.1 + b, c * q.1.2 + d), q.2)) (a * x + b) (c * y + d) =
      bsInGrid pts x y := by
    intro x y
    unfold bsInGrid
    rw [List.filter_map]
    have e : ((fun p : Pt K => decide (p.1.1 = a * x + b) && decide (p.1.2 = c * y + d)) ∘
        fun q : Pt K => ((a * q.1.1 + b, c * q.1.2 + d), q.2)) =
        fun p => decide (p.1.1 = x) && decide (p.1.2 = y) := by
      funext p
      simp only [Function.comp]
      rw [decide_eq_decide.2 (h1.injective.eq_iff (a := p.1.1) (b := x)),
        decide_eq_decide.2 (h2.injective.eq_iff (a := p.1.2) (b := y))]
    rw [e]
    cases pts.filter (fun p => decide (p.1.1 = x) && decide (p.1.2 = y)) <;> rfl
  have hcv : ∀ x y lo up, convex1d (pts.map fun q => ((a * q.1.1 + b, c * q.1.2 + d), q.2)) (a * x + b) (c * y + d)
      (c * lo + d) (c * up + d) = convex1d pts x y lo up := by
    intro x y lo up
    unfold convex1d
    rw [hg, hg]
    have e : (c * lo + d = c * up + d) ↔ lo = up := h2.injective.eq_iff (a := lo) (b := up)
    have e' : (c * y + d - (c * lo + d)) / (c * up + d - (c * lo + d)) = (y - lo) / (up - lo) := by
      rw [add_sub_add_right_eq_sub, add_sub_add_right_eq_sub, ← mul_sub, ← mul_sub, mul_div_mul_left _ _ hc.ne']
    simp only [e, e']
  unfold bilinear
  have m1 : (pts.map fun q : Pt K => (((a * q.1.1 + b, c * q.1.2 + d), q.2) : Pt K)).map (fun p => p.1.1) =
      (pts.map fun p => p.1.1).map fun x => a * x + b := by simp [Function.comp_def]
  have m2 : (pts.map fun q : Pt K => (((a * q.1.1 + b, c * q.1.2 + d), q.2) : Pt K)).map (fun p => p.1.2) =
      (pts.map fun p => p.1.2).map fun x => c * x + d := by simp [Function.comp_def]
  rw [m1, m2]
  have n1 := maxSmaller_map h1 (l := pts.map fun p => p.1.1) g.1
  have n2 := minBigger_map h1 (l := pts.map fun p => p.1.1) g.1
  have n3 := maxSmaller_map h2 (l := pts.map fun p => p.1.2) g.2
  have n4 := minBigger_map h2 (l := pts.map fun p => p.1.2) g.2
  simp only [n1, n2, n3, n4]
  cases maxSmaller (pts.map fun p => p.1.1) g.1 with
  | error e => rfl
  | ok wsl =>
    cases minBigger (pts.map fun p => p.1.1) g.1 with
    | error e => rfl
    | ok wsu =>
      cases maxSmaller (pts.map fun p => p.1.2) g.2 with
      | error e => rfl
      | ok wal =>
        cases minBigger (pts.map fun p => p.1.2) g.2 with
        | error e => rfl
        | ok wau =>
          simp only [bind, Except.bind, Except.map, hcv]
          have e : (a * wsu + b = a * wsl + b) ↔ wsu = wsl := h1.injective.eq_iff (a := wsu) (b := wsl)
          have e' : (a * g.1 + b - (a * wsl + b)) / (a * wsu + b - (a * wsl + b)) = (g.1 - wsl) / (wsu - wsl) := by
            rw [add_sub_add_right_eq_sub, add_sub_add_right_eq_sub, ← mul_sub, ← mul_sub, mul_div_mul_left _ _ ha.ne']
          simp only [e, e']

example : bilinear [((0, 0), 1), ((0, 2), 2), ((4, 0), 3), (((4, 2), 8) : Pt ℚ)] (1, 1) = .ok (5 / 2) := by decide +kernel

end Verif.Interp
