import Verif.Props.CurveExtension
import Verif.Props.DataHandler
import Verif.Props.InterpSym
import Verif.Props.Models2d
import Verif.Props.PlotHull
import Verif.Props.Regressor

/-!
# Exact conditions for sentences, triangles, regressors, curves, model functions and interpolation (C89, C93, C99, C106, C111, C118, C120)
-/

set_option linter.unusedSectionVars false

namespace Verif.Handler

/-- **C89**, exactly: a sentence is read if and only if one of the wanted names occurs anywhere in it, or, without wanted names, if no
unwanted one does. -/
theorem C89_sentences_exactly (wanted : List (List Char)) (unwanted : Option (List (List Char))) (line : List Char) :
    (sentenceFilter (some wanted) unwanted line = true ↔ ∃ s ∈ wanted, ∃ a b, a ++ s ++ b = line) ∧
    ∀ u, sentenceFilter none (some u) line = true ↔ ∀ s ∈ u, ¬ ∃ a b, a ++ s ++ b = line := by
  constructor
  · simp only [sentenceFilter, List.any_eq_true, isSubstring_iff, List.IsInfix]
  · intro u
    simp only [sentenceFilter, List.all_eq_true]
    refine forall₂_congr fun s _ => ?_
    have := isSubstring_iff s line
    rw [List.IsInfix] at this
    rw [← this]
    simp

/-- **C89**, exactly: with wanted names among which some type of sentences is missing, the sentences read are those of a wanted type
for all lines if and only if nothing is wanted. -/
theorem C89_type_exactly {wanted : List (List Char)} {t : List Char} (ht : t.length = 3) (hw : t ∉ wanted)
    (unwanted : Option (List (List Char))) :
    (∀ line, sentenceFilter (some wanted) unwanted line = true ↔ sentenceType line ∈ wanted) ↔ wanted = [] := by
  constructor
  · intro h
    rcases wanted with _ | ⟨s, ws⟩
    · rfl
    · exfalso
      have h1 := (h (['$', 'W', 'I'] ++ t ++ s)).1
        (((C89_sentences_exactly _ unwanted _).1).2 ⟨s, by simp, ['$', 'W', 'I'] ++ t, [], by simp⟩)
      have e : sentenceType (['$', 'W', 'I'] ++ t ++ s) = t := by
        simp only [sentenceType, List.append_assoc, List.cons_append, List.nil_append, List.drop_succ_cons, List.drop_zero]
        rw [← ht, List.take_left]
      rw [e] at h1
      exact hw h1
  · rintro rfl line
    simp [sentenceFilter]

example : "GGA".toList.length = 3 ∧ "GGA".toList ∉ ["MWV".toList, "VHW".toList] := by decide

end Verif.Handler

namespace Verif.Plot

variable {K : Type} [Field K] [LinearOrder K] [IsStrictOrderedRing K]

theorem axisSkip_iff (a b c : Vertex K) : axisSkip a b c = true ↔ ¬ (sign a.1 = sign b.1 ∧ sign a.1 = sign c.1) := by
  simp only [axisSkip, Bool.or_eq_true, decide_eq_true_eq]
  tauto

theorem mask_iff (a b c : Vertex K) : mask a b c = true ↔
    (1 / 5 < (a.2.2 - b.2.2) ^ 2 ∨ 1 / 5 < (a.2.2 - c.2.2) ^ 2) ∧
      ¬ (¬ (sign a.1 = sign b.1 ∧ sign a.1 = sign c.1) ∧ 0 < a.2.1 ∧ 0 < b.2.1) := by
  have h := axisSkip_iff a b c
  simp only [mask, notTooNarrow, northern, Bool.and_eq_true, Bool.or_eq_true, decide_eq_true_eq, Bool.not_eq_true',
    Bool.and_eq_false_iff, decide_eq_false_iff_not]
  rw [← Bool.not_eq_true, h]
  tauto

/-- **C93**, exactly: exchanging the last two vertices of a triangle matters if and only if it is wide enough, not all vertices are on
the same side, the first one is in the north and exactly one of the other ones is. -/
theorem C93_last_exactly (a b c : Vertex K) : mask a b c ≠ mask a c b ↔
    (1 / 5 < (a.2.2 - b.2.2) ^ 2 ∨ 1 / 5 < (a.2.2 - c.2.2) ^ 2) ∧ ¬ (sign a.1 = sign b.1 ∧ sign a.1 = sign c.1) ∧
      0 < a.2.1 ∧ ¬ (0 < b.2.1 ↔ 0 < c.2.1) := by
  rw [Ne, Bool.eq_iff_iff, mask_iff, mask_iff]
  tauto

/-- **C93**, exactly: exchanging the first two vertices of a triangle matters if and only if their wind speeds are close to each other,
that of the third vertex is close to exactly one of them, and not (both are in the north and not all vertices on the same side). -/
theorem C93_first_exactly (a b c : Vertex K) : mask a b c ≠ mask b a c ↔
    (a.2.2 - b.2.2) ^ 2 ≤ 1 / 5 ∧ ¬ (1 / 5 < (a.2.2 - c.2.2) ^ 2 ↔ 1 / 5 < (b.2.2 - c.2.2) ^ 2) ∧
      ¬ (¬ (sign a.1 = sign b.1 ∧ sign a.1 = sign c.1) ∧ 0 < a.2.1 ∧ 0 < b.2.1) := by
  have e : (b.2.2 - a.2.2) ^ 2 = (a.2.2 - b.2.2) ^ 2 := by ring
  have s : (sign b.1 = sign a.1 ∧ sign b.1 = sign c.1) ↔ (sign a.1 = sign b.1 ∧ sign a.1 = sign c.1) := by
    constructor <;> rintro ⟨h1, h2⟩ <;> exact ⟨h1.symm, h1 ▸ h2⟩
  rw [Ne, Bool.eq_iff_iff, mask_iff, mask_iff, e, s, ← not_lt]
  generalize (sign a.1 = sign b.1 ∧ sign a.1 = sign c.1) = P
  by_cases h1 : 1 / 5 < (a.2.2 - b.2.2) ^ 2 <;> by_cases h2 : 1 / 5 < (a.2.2 - c.2.2) ^ 2 <;>
    by_cases h3 : 1 / 5 < (b.2.2 - c.2.2) ^ 2 <;> simp only [h1, h2, h3, true_or, or_true, or_false, true_and, false_and, not_true, not_false_iff, iff_true, iff_false] <;> tauto

example : mask (K := ℚ) (1, 1, 5) (-2, 1, 6) (3, -1, 5) ≠ mask (K := ℚ) (1, 1, 5) (3, -1, 5) (-2, 1, 6) ∧
    mask (K := ℚ) (1, 1, 5) (2, 1, 5 + 2 / 5) (3, 1, 5 - 2 / 5) ≠ mask (K := ℚ) (2, 1, 5 + 2 / 5) (1, 1, 5) (3, 1, 5 - 2 / 5) := by decide +kernel

end Verif.Plot

namespace Verif.Regr

variable {K : Type} [OfNat K 0] [OfNat K 1]

/-- **C99**, exactly: if scipy finds parameters for all data, then arrays can be used with `LeastSquareRegressor` if and only if they have
at least three columns (further ones are ignored), and with `ODRegressor` if and only if they have three columns and a row. -/
theorem C99_arrays_exactly {curveFit} {odr} {p : List K} (hc : ∀ f x y i, curveFit f x y i = .ok p) (ho : ∀ f x y i, odr f x y i = .ok p)
    (s : State K) (cols : Nat) (rows : List (List K)) :
    ((fitLS curveFit s (.array cols rows)).2 = none ↔ 3 ≤ cols) ∧
    ((fitODR odr s (.array cols rows)).2 = none ↔ cols = 3 ∧ rows ≠ []) := by
  constructor
  · simp only [fitLS, hc]
    split_ifs with h
    · simp; omega
    · simp; omega
  · simp only [fitODR, ho]
    split_ifs with h h'
    · simp [h]
    · simp [h']
    · simp only [ne_eq, not_not] at h
      simp [h, h']

example (f : Func ℚ) : (fitLS (fun _ _ _ _ => .ok [1]) ⟨f, [1], none⟩ (.array 4 [[5, 30, 3, 7]])).2 = none ∧
    (fitODR (fun _ _ _ _ => .ok [1]) ⟨f, [1], none⟩ (.array 4 [[5, 30, 3, 7]])).2 ≠ none ∧
    (fitODR (fun _ _ _ _ => .ok [1]) ⟨f, [1], none⟩ (.array 3 [[5, 30, 3]])).2 = none :=
  ⟨(C99_arrays_exactly (odr := fun _ _ _ _ => .ok [1]) (fun _ _ _ _ => rfl) (fun _ _ _ _ => rfl) _ _ _).1.mpr (by norm_num),
    fun h => absurd ((C99_arrays_exactly (curveFit := fun _ _ _ _ => .ok [1]) (fun _ _ _ _ => rfl) (fun _ _ _ _ => rfl) _ _ _).2.mp h).1
      (by norm_num),
    (C99_arrays_exactly (curveFit := fun _ _ _ _ => .ok [1]) (fun _ _ _ _ => rfl) (fun _ _ _ _ => rfl) _ _ _).2.mpr
      ⟨rfl, by simp⟩⟩

end Verif.Regr

namespace Verif.CurveExt

open Verif.Interp (Pt)

/-- **C106**, exactly: the given points are unchanged if and only if no radians are used or all wind angles are 0. -/
theorem C106_points_exactly (fit) (func : ℝ → ℝ → List ℝ → Except PyErr ℝ) (radians : Bool) (points : List (Pt ℝ)) :
    (process fit func radians points).2 = points ↔ radians = false ∨ ∀ p ∈ points, p.1.2 = 0 := by
  cases radians with
  | false =>
    simp only [true_or, iff_true, process, Bool.false_eq_true, if_false]
    split <;> rfl
  | true =>
    constructor
    · intro h
      refine .inr fun p hp => ?_
      by_contra hne
      exact (C106_points_false fit func ⟨p, hp, hne⟩).2 h
    · rintro (h | h)
      · exact absurd h (by decide)
      · have h1 : (process fit func true points).2 = points.map fun p => ((p.1.1, p.1.2 * Real.pi / 180), p.2) := by
          simp only [process, if_true]
          split <;> rfl
        rw [h1]
        conv_rhs => rw [← List.map_id points]
        refine List.map_congr_left fun p hp => ?_
        obtain ⟨⟨ws, wa⟩, b⟩ := p
        have := h _ hp
        simp only at this
        subst this
        simp

/-- **C106**, exactly: the value at 360° is that of the model function there if and only if the model function has the same values at 0
and at 360. -/
theorem C106_full_exactly {fit} {func : ℝ → ℝ → List ℝ → Except PyErr ℝ} {points after : List (Pt ℝ)} {d : Diagram} {params : List ℝ}
    (h : process fit func false points = (.ok d, after)) (hp : fit points = .ok params) {ws : ℝ} (hws : 0 ≤ ws) :
    d.call ws 360 = func ws 360 params ↔ func ws 0 params = func ws 360 params := by
  obtain ⟨q, hq, e⟩ := C106_full_false h hws
  rw [hp] at hq
  obtain rfl := Except.ok.inj hq
  rw [e]

example : ∃ d after, process (fun _ => .ok [1]) (fun ws wa _ => .ok (ws * wa)) false [((2, 90), 6)] = (.ok d, after) ∧
    d.call 2 360 ≠ .ok (2 * 360) :=
  ⟨_, _, rfl, fun h => absurd ((C106_full_exactly (fit := fun _ => .ok [1]) (func := fun ws wa _ => .ok (ws * wa)) (points := [((2, 90), 6)])
    (params := [1]) rfl rfl (ws := 2) (by norm_num)).1 h) (by intro h'; have := Except.ok.inj h'; norm_num at this)⟩

end Verif.CurveExt

namespace Verif.Interp

/-- **C111**, exactly: with `gauss_potential` a greater weight makes a point at distance `d` count more if and only if the product of
`alpha` and `d` is negative, so for no positive `alpha`. -/
theorem C111_gauss_exactly (alpha d : ℝ) : (∀ w w', w < w' → gauss alpha d w < gauss alpha d w') ↔ alpha * d < 0 := by
  simp only [gauss, Real.exp_lt_exp]
  constructor
  · intro h
    have := h 0 1 (by norm_num)
    linarith
  · intro h w w' hw
    nlinarith

example : gauss (-2) 3 1 < gauss (-2) 3 5 ∧ ¬ ∀ w w', w < w' → gauss 2 3 w < gauss 2 3 w' :=
  ⟨(C111_gauss_exactly (-2) 3).mpr (by norm_num) 1 5 (by norm_num), fun h => absurd ((C111_gauss_exactly 2 3).mp h) (by norm_num)⟩

variable {K : Type} [Field K] [LinearOrder K] [IsStrictOrderedRing K]

/-- **C120**, exactly: with `ArithmeticMeanInterpolator` adding `b` to all boat speeds adds `b` to the value if and only if `s` is 1 or `b`
is 0. -/
theorem C120_units_exactly {norm : K × K → K} (hn : IsDist norm) {distr : K → K → K} (hd : ∀ d w, 0 < distr d w)
    {pts : List (Pt K)} (hp : pts ≠ []) {weights : List K} (hw : weights.length = pts.length) {g : K × K}
    (h : NotStored pts g) (s b : K) :
    arith norm s distr (pts.map fun q => (q.1, q.2 + b)) weights g = (arith norm s distr pts weights g).map (· + b) ↔ s = 1 ∨ b = 0 := by
  constructor
  · intro he
    by_contra hc
    push Not at hc
    obtain ⟨u, v, h1, h2, h3⟩ := C120_units_false hn hd hp hw h hc.1 hc.2
    rw [h1, h2] at he
    exact h3 (Except.ok.inj he)
  · intro hs
    have := C120_units_arith norm distr pts hw g s 1 b hs
    simpa using this

/-- **C120**, exactly: the order of the points does not matter at a wind (`IDWInterpolator`) if and only if all points with this wind have
the same boat speed. -/
theorem C120_order_exactly {norm : K × K → K} (hn : IsDist norm) (p : Nat) (pts : List (Pt K)) (g : K × K) :
    (∀ pts', pts.Perm pts' → idw norm p pts' g = idw norm p pts g) ↔ ∀ q ∈ pts, ∀ q' ∈ pts, q.1 = g → q'.1 = g → q.2 = q'.2 := by
  have hz : ∀ q : Pt K, norm (q.1 - g) = 0 ↔ q.1 = g := fun q => by rw [hn.2, sub_eq_zero]
  constructor
  · intro h
    have first : ∀ q ∈ pts, q.1 = g → idw norm p pts g = .ok (some q.2) := by
      intro q hq hg
      obtain ⟨l, m, rfl⟩ := List.append_of_mem hq
      rw [← h (q :: (l ++ m)) List.perm_middle]
      simp [idw, firstAtZero, (hz q).2 hg]
    intro q hq q' hq' hg hg'
    have := (first q hq hg).symm.trans (first q' hq' hg')
    exact Option.some.inj (Except.ok.inj this)
  · intro h pts' hp
    have e1 : firstAtZero norm g pts' = firstAtZero norm g pts := by
      cases h1 : firstAtZero norm g pts with
      | none =>
        rw [firstAtZero_eq_none] at h1 ⊢
        exact fun x hx => h1 x (hp.mem_iff.2 hx)
      | some z =>
        obtain ⟨x, hx, rfl, h0⟩ := firstAtZero_mem h1
        cases h2 : firstAtZero norm g pts' with
        | none => exact absurd h0 (firstAtZero_eq_none.1 h2 x (hp.mem_iff.1 hx))
        | some z =>
          obtain ⟨y, hy, rfl, h0'⟩ := firstAtZero_mem h2
          rw [h y (hp.mem_iff.2 hy) x hx ((hz y).1 h0') ((hz x).1 h0)]
    have e2 : normalisedDot ((dists norm pts' g).map fun d => 1 / d ^ p) (pts'.map Prod.snd) =
        normalisedDot ((dists norm pts g).map fun d => 1 / d ^ p) (pts.map Prod.snd) := by
      simp only [dists, List.map_map]
      exact normalisedDot_perm hp.symm _ _
    unfold idw
    rw [hp.length_eq, e1, e2]

example : idw (fun x : ℚ × ℚ => max |x.1| |x.2|) 2 [((0, 0), 5), ((0, 0), 6)] (0, 0) = .ok (some 5) ∧
    idw (fun x : ℚ × ℚ => max |x.1| |x.2|) 2 [((0, 0), 6), ((0, 0), 5)] (0, 0) = .ok (some 6) := by decide +kernel

end Verif.Interp

namespace Verif.Models2d

open Verif.Curve

/-- **C118**, exactly: `concave_function` without saturation is concave if and only if its third parameter is not negative. -/
theorem C118_concave_exactly {a0 a1 a2 : ℝ} {h : ℝ → ℝ} (hh : ∀ x, concave x [a0, a1, a2] true false = .ok (h x)) :
    ConcaveOn ℝ Set.univ h ↔ 0 ≤ a2 := by
  have e : ∀ x, h x = a0 + a1 * x - a2 * x ^ 2 := by
    intro x
    have := (concave_values x a0 a1 a2 0).2.2
    rw [hh] at this
    rw [Except.ok.inj this]
    try ring
  constructor
  · intro hc
    have hc' := hc.2
    have := @hc' (-1) (Set.mem_univ _) 1 (Set.mem_univ _) (1 / 2) (1 / 2) (by norm_num) (by norm_num) (by norm_num)
    simp only [smul_eq_mul, e] at this
    linarith
  · intro h2
    exact (C118_concave_partial (f := fun x => a2 - a0 * Real.exp (a1 - x) - 0 * x ^ 2) (g := fun x => a2 - a0 * Real.exp (a1 - x))
      (a3 := 0) (fun x => by rw [(concave_values x a0 a1 a2 0).1]) (fun x => by rw [(concave_values x a0 a1 a2 0).2.1]) hh).2.2 h2

/-- **C118**, exactly: `gaussian_model` with positive height is bounded if and only if its third parameter is positive. -/
theorem C118_gaussian_exactly {a0 a1 a2 : ℝ} (h0 : 0 < a0) (h2 : a2 ≠ 0) :
    (∃ B, ∀ x v, gaussian x [a0, a1, a2] false = .ok (some v) → v ≤ B) ↔ 0 < a2 := by
  constructor
  · rintro ⟨B, hB⟩
    by_contra h
    obtain ⟨x, v, h3, h4⟩ := C118_gaussian_false (a1 := a1) h0 (lt_of_le_of_ne (not_lt.1 h) h2) B
    exact absurd (hB x v h3) (not_le.2 h4)
  · intro h
    refine ⟨a0, fun x v hv => ?_⟩
    have e : gaussian x [a0, a1, a2] false = .ok (some (a0 * Real.exp (-(1 / 2) * (x - a1) ^ 2 / a2))) := by
      simp [gaussian, param, bind, Except.bind, pure, Except.pure, bump, h2]
    rw [e] at hv
    rw [← Option.some.inj (Except.ok.inj hv)]
    have h5 : -(1 / 2) * (x - a1) ^ 2 / a2 ≤ 0 := by
      apply div_nonpos_of_nonpos_of_nonneg _ h.le
      nlinarith [sq_nonneg (x - a1)]
    have := Real.exp_le_one_iff.2 h5
    nlinarith

/-- **C118**, exactly: `gompertz_model` with a positive second parameter and `neg` has a value for whole numbers only. -/
theorem C118_gompertz_exactly {a0 a1 a2 : ℝ} (h1 : 0 < a1) (x : ℝ) :
    (∃ v, gompertz x [a0, a1, a2] true = .ok (some v)) ↔ ∃ n : ℤ, x = n := by
  constructor
  · rintro ⟨v, hv⟩
    refine ⟨⌊x⌋, ?_⟩
    by_contra h
    rw [C118_gompertz_false h1 h] at hv
    simp at hv
  · rintro ⟨n, rfl⟩
    have h : ¬ a1 < 0 := by linarith
    exact ⟨a2 * Real.exp (-a0 * (-a1) ^ n), by
      simp [gompertz, param, bind, Except.bind, pure, Except.pure, power, h, h1.ne']⟩

example : (0 : ℝ) < 3 ∧ (3 : ℝ) ≠ 0 := by norm_num

end Verif.Models2d
