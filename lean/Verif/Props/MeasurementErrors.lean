import Verif.Props.InterpSym
import Verif.Props.Extension

/-!
# C130: errors of measurement are not magnified

Two data sets with the same winds are compared: if all measured speeds of the second are at least as high as those of the
first, then so are the interpolated ones; and if they differ by at most `δ`, then so do the interpolated ones.
-/

set_option linter.unusedSectionVars false

namespace Verif.Interp

variable {K : Type} [Field K] [LinearOrder K] [IsStrictOrderedRing K]

/-- The same winds, in the same order, with speeds related by `R`. -/
def SameWinds (R : K → K → Prop) : List (Pt K) → List (Pt K) → Prop :=
  List.Forall₂ fun p q => p.1 = q.1 ∧ R p.2 q.2

/-- The outcomes are two numbers related by `R`, or both no number, or the same exception. -/
def SameOutcome {ε : Type} (R : K → K → Prop) : Except ε (Option K) → Except ε (Option K) → Prop
  | .ok (some x), .ok (some y) => R x y
  | .ok none, .ok none => True
  | .error e, .error e' => e = e'
  | _, _ => False

/-- The same for interpolators which always give a number or raise. -/
def SameResult {ε : Type} (R : K → K → Prop) : Except ε K → Except ε K → Prop
  | .ok x, .ok y => R x y
  | .error e, .error e' => e = e'
  | _, _ => False

/-- Relations which are passed on by weighted means with nonnegative weights. -/
def Meanable (R : K → K → Prop) : Prop :=
  ∀ (w z z' : List K), (∀ x ∈ w, 0 ≤ x) → 0 < w.sum → w.length = z.length → List.Forall₂ R z z' →
    R (dot w z / w.sum) (dot w z' / w.sum)

theorem dot_le {w z z' : List K} (hw : ∀ x ∈ w, 0 ≤ x) (h : List.Forall₂ (· ≤ ·) z z') : dot w z ≤ dot w z' := by
  induction h generalizing w with
  | nil => simp [dot]
  | cons hab _ ih =>
    cases w with
    | nil => simp [dot]
    | cons x w =>
      rw [dot_cons, dot_cons]
      exact add_le_add (mul_le_mul_of_nonneg_left hab (hw x (by simp))) (ih fun y hy => hw y (by simp [hy]))

theorem meanable_le : Meanable (K := K) (· ≤ ·) := fun _ _ _ hw hs _ h =>
  div_le_div_of_nonneg_right (dot_le hw h) hs.le

theorem dot_close {δ : K} {w z z' : List K} (hw : ∀ x ∈ w, 0 ≤ x) (hl : w.length = z.length)
    (h : List.Forall₂ (fun a b => |a - b| ≤ δ) z z') : |dot w z - dot w z'| ≤ δ * w.sum := by
  induction h generalizing w with
  | nil =>
    obtain rfl : w = [] := List.length_eq_zero_iff.1 (by simpa using hl)
    simp [dot]
  | @cons a b z z' hab _ ih =>
    cases w with
    | nil => simp at hl
    | cons x w =>
      rw [dot_cons, dot_cons, List.sum_cons]
      have h1 := ih (w := w) (fun y hy => hw y (by simp [hy])) (by simpa using hl)
      have h2 : |x * a - x * b| ≤ δ * x := by
        rw [← mul_sub, abs_mul, abs_of_nonneg (hw x (by simp)), mul_comm δ]
        exact mul_le_mul_of_nonneg_left hab (hw x (by simp))
      have h3 : x * a + dot w z - (x * b + dot w z') = (x * a - x * b) + (dot w z - dot w z') := by ring
      rw [h3, mul_add]
      exact (abs_add_le _ _).trans (add_le_add h2 h1)

theorem meanable_close (δ : K) : Meanable (K := K) (fun a b => |a - b| ≤ δ) := by
  intro w z z' hw hs hl h
  rw [← sub_div, abs_div, abs_of_pos hs, div_le_iff₀ hs]
  exact dot_close hw hl h

variable {R : K → K → Prop}

theorem SameWinds.length {pts pts' : List (Pt K)} (h : SameWinds R pts pts') : pts.length = pts'.length :=
  List.Forall₂.length_eq h

theorem SameWinds.dists {pts pts' : List (Pt K)} (h : SameWinds R pts pts') (norm : K × K → K) (g : K × K) :
    dists norm pts g = dists norm pts' g := by
  induction h with
  | nil => rfl
  | cons hp _ ih => simp only [Interp.dists, List.map_cons] at ih ⊢; rw [hp.1, ih]

theorem SameWinds.speeds {pts pts' : List (Pt K)} (h : SameWinds R pts pts') :
    List.Forall₂ R (pts.map Prod.snd) (pts'.map Prod.snd) := by
  induction h with
  | nil => exact .nil
  | cons hp _ ih => exact .cons hp.2 ih

theorem SameWinds.winds {pts pts' : List (Pt K)} (h : SameWinds R pts pts') : pts.map Prod.fst = pts'.map Prod.fst := by
  induction h with
  | nil => rfl
  | cons hp _ ih => rw [List.map_cons, List.map_cons, hp.1, ih]

theorem SameWinds.firstAtZero {pts pts' : List (Pt K)} (h : SameWinds R pts pts') (norm : K × K → K) (g : K × K) :
    (∃ x y, firstAtZero norm g pts = some x ∧ firstAtZero norm g pts' = some y ∧ R x y) ∨
      (firstAtZero norm g pts = none ∧ firstAtZero norm g pts' = none) := by
  induction h with
  | nil => exact .inr ⟨rfl, rfl⟩
  | @cons p q ps qs hp _ ih =>
    simp only [Interp.firstAtZero, ← hp.1]
    by_cases h0 : norm (p.1 - g) = 0
    · simp only [h0, if_true]; exact .inl ⟨_, _, rfl, rfl, hp.2⟩
    · simp only [h0, if_false]; exact ih

theorem normalisedDot_related (hR : Meanable R) {w z z' : List K} (hw : ∀ x ∈ w, 0 ≤ x) (hl : w.length = z.length)
    (h : List.Forall₂ R z z') {ε : Type} :
    SameOutcome (ε := ε) R (.ok (normalisedDot w z)) (.ok (normalisedDot w z')) := by
  unfold normalisedDot
  by_cases h0 : w.sum = 0
  · simp [h0, SameOutcome]
  · have hs : 0 < w.sum := lt_of_le_of_ne (List.sum_nonneg hw) (Ne.symm h0)
    simp only [h0, if_false, dot_map_div]
    exact hR w z z' hw hs hl h

theorem idw_related (hR : Meanable R) {norm : K × K → K} (hn : ∀ x, 0 ≤ norm x) (p : Nat) {pts pts' : List (Pt K)}
    (h : SameWinds R pts pts') (g : K × K) : SameOutcome R (idw norm p pts g) (idw norm p pts' g) := by
  unfold idw
  rw [h.length, h.dists]
  split
  · exact rfl
  · rcases h.firstAtZero norm g with ⟨x, y, hx, hy, hxy⟩ | ⟨hx, hy⟩
    · rw [hx, hy]; exact hxy
    · rw [hx, hy]
      refine normalisedDot_related hR ?_ (by simp [Interp.dists, h.length]) h.speeds
      intro x hx
      obtain ⟨d, hd, rfl⟩ := List.mem_map.1 hx
      obtain ⟨q, -, rfl⟩ := List.mem_map.1 hd
      exact one_div_nonneg.2 (pow_nonneg (hn _) p)

theorem improved_related (hR : Meanable R) (norm : K × K → K) {pts pts' : List (Pt K)}
    (h : SameWinds R pts pts') (g : K × K) : SameOutcome R (improved norm pts g) (improved norm pts' g) := by
  unfold improved
  rw [h.dists]
  rcases h.firstAtZero norm g with ⟨x, y, hx, hy, hxy⟩ | ⟨hx, hy⟩
  · rw [hx, hy]; exact hxy
  · rw [hx, hy]
    simp only
    cases hs : setWeights (Interp.dists norm pts' g) with
    | error e => exact rfl
    | ok wts =>
      refine normalisedDot_related hR ?_ ?_ h.speeds
      · intro x hx
        obtain ⟨d, -, rfl⟩ := List.mem_map.1 hx
        exact sq_nonneg d
      · have : wts.length = (Interp.dists norm pts' g).length := by
          revert hs
          cases Interp.dists norm pts' g with
          | nil => intro hs; cases hs
          | cons d ds => intro hs; simp only [setWeights, Except.ok.injEq] at hs; rw [← hs]; simp
        simp [this, Interp.dists, h.length]

theorem arith_related (hR : Meanable R) {norm : K × K → K} {s : K} (hs : ∀ x y, R x y → R (s * x) (s * y))
    {distr : K → K → K} (hd : ∀ d w, 0 ≤ distr d w) {pts pts' : List (Pt K)} {weights : List K}
    (hw : weights.length = pts.length)
    (h : SameWinds R pts pts') (g : K × K) : SameResult R (arith norm s distr pts weights g) (arith norm s distr pts' weights g) := by
  unfold arith
  rw [h.dists]
  rcases h.firstAtZero norm g with ⟨x, y, hx, hy, hxy⟩ | ⟨hx, hy⟩
  · rw [hx, hy]; exact hxy
  · rw [hx, hy]
    simp only [average]
    set w := List.zipWith distr (Interp.dists norm pts' g) weights with hwd
    have hnn : ∀ x ∈ w, 0 ≤ x := by
      intro x hx
      obtain ⟨i, hi, rfl⟩ := List.getElem_of_mem hx
      simp only [hwd, List.getElem_zipWith]
      exact hd _ _
    by_cases h0 : w.sum = 0
    · simp only [h0, if_true]; exact rfl
    · simp only [h0, if_false]
      have hpos : 0 < w.sum := lt_of_le_of_ne (List.sum_nonneg hnn) (Ne.symm h0)
      rw [dot_comm _ w, dot_comm _ w]
      exact hs _ _ (hR w _ _ hnn hpos (by simp [hwd, Interp.dists, hw, h.length]) h.speeds)

/-! ### Bilinear interpolation -/

theorem SameResult.bind {ε : Type} {a b : Except ε K} (h : SameResult R a b) {f f' : K → Except ε K}
    (hf : ∀ x y, R x y → SameResult R (f x) (f' y)) : SameResult R (a >>= f) (b >>= f') := by
  cases a <;> cases b <;> simp only [SameResult] at h
  · subst h; exact rfl
  · exact hf _ _ h

/-- A relation passed on by weighted means is passed on by points in between. -/
theorem Meanable.between (hR : Meanable R) {t : K} (h0 : 0 ≤ t) (h1 : t ≤ 1) {x y x' y' : K} (hx : R x x') (hy : R y y') :
    R ((1 - t) * x + t * y) ((1 - t) * x' + t * y') := by
  have := hR [1 - t, t] [x, y] [x', y'] (by simp [h0, h1]) (by simp) rfl (.cons hx (.cons hy .nil))
  simpa [dot] using this

theorem SameWinds.filter {pts pts' : List (Pt K)} (h : SameWinds R pts pts') (f : K × K → Bool) :
    SameWinds R (pts.filter fun p => f p.1) (pts'.filter fun p => f p.1) := by
  induction h with
  | nil => exact .nil
  | @cons p q ps qs hp _ ih =>
    rw [List.filter_cons, List.filter_cons, hp.1]
    cases f q.1
    · exact ih
    · exact .cons hp ih

theorem bsInGrid_related {pts pts' : List (Pt K)} (h : SameWinds R pts pts') (x y : K) :
    SameResult R (bsInGrid pts x y) (bsInGrid pts' x y) := by
  have := h.filter fun p => decide (p.1 = x) && decide (p.2 = y)
  unfold bsInGrid
  revert this
  cases pts.filter (fun p => decide (p.1.1 = x) && decide (p.1.2 = y)) <;>
    cases pts'.filter (fun p => decide (p.1.1 = x) && decide (p.1.2 = y)) <;> intro h
  · exact rfl
  · cases h
  · cases h
  · cases h with | cons hp _ => exact hp.2

theorem convex1d_related (hR : Meanable R) {pts pts' : List (Pt K)} (h : SameWinds R pts pts') {x y lo up : K}
    (hlo : lo ≤ y) (hup : y ≤ up) : SameResult R (convex1d pts x y lo up) (convex1d pts' x y lo up) := by
  unfold convex1d
  refine (bsInGrid_related h _ _).bind fun zl zl' hl => (bsInGrid_related h _ _).bind fun zu zu' hu => ?_
  by_cases he : lo = up
  · simp only [he, if_true]; exact hl
  · simp only [he, if_false]
    have hd : 0 < up - lo := sub_pos.2 (lt_of_le_of_ne (hlo.trans hup) he)
    exact hR.between (div_nonneg (sub_nonneg.2 hlo) hd.le) ((div_le_one hd).2 (by linarith)) hl hu

theorem bilinear_related (hR : Meanable R) {pts pts' : List (Pt K)} (h : SameWinds R pts pts') (g : K × K) :
    SameResult R (bilinear pts g) (bilinear pts' g) := by
  have e1 : (pts'.map fun p : Pt K => p.1.1) = pts.map fun p : Pt K => p.1.1 := by
    have := congrArg (List.map Prod.fst) h.winds.symm
    simpa only [List.map_map, Function.comp_def] using this
  have e2 : (pts'.map fun p : Pt K => p.1.2) = pts.map fun p : Pt K => p.1.2 := by
    have := congrArg (List.map Prod.snd) h.winds.symm
    simpa only [List.map_map, Function.comp_def] using this
  unfold bilinear
  rw [e1, e2]
  rcases maxSmaller_cases (pts.map fun p : Pt K => p.1.1) g.1 with ⟨a, -, ha, -, e1⟩ | ⟨-, e1⟩
  swap
  · rw [e1]; exact rfl
  rcases minBigger_cases (pts.map fun p : Pt K => p.1.1) g.1 with ⟨b, -, hb, -, e2⟩ | ⟨-, e2⟩
  swap
  · rw [e1, e2]; exact rfl
  rcases maxSmaller_cases (pts.map fun p : Pt K => p.1.2) g.2 with ⟨c, -, hc, -, e3⟩ | ⟨-, e3⟩
  swap
  · rw [e1, e2, e3]; exact rfl
  rcases minBigger_cases (pts.map fun p : Pt K => p.1.2) g.2 with ⟨d, -, hd, -, e4⟩ | ⟨-, e4⟩
  swap
  · rw [e1, e2, e3, e4]; exact rfl
  rw [e1, e2, e3, e4]
  refine (convex1d_related hR h hc hd).bind fun zl zl' hl => (convex1d_related hR h hc hd).bind fun zu zu' hu => ?_
  by_cases he : b = a
  · simp only [he, if_true]; exact hl
  · simp only [he, if_false]
    have hd : 0 < b - a := sub_pos.2 (lt_of_le_of_ne (ha.trans hb) (Ne.symm he))
    exact hR.between (div_nonneg (sub_nonneg.2 ha) hd.le) ((div_le_one hd).2 (by linarith)) hl hu

/-! ## The theorems -/

/-- The first data set is nowhere faster than the second, which has the same winds. -/
def Slower (pts pts' : List (Pt K)) : Prop := List.Forall₂ (fun p q => p.1 = q.1 ∧ p.2 ≤ q.2) pts pts'

/-- The speeds of two data sets with the same winds differ by at most `δ`. -/
def Close (δ : K) (pts pts' : List (Pt K)) : Prop := List.Forall₂ (fun p q => p.1 = q.1 ∧ |p.2 - q.2| ≤ δ) pts pts'

theorem SameOutcome.ok {ε : Type} {a b : Except ε (Option K)} (h : SameOutcome R a b) :
    (∀ x, a = .ok (some x) → ∃ y, b = .ok (some y) ∧ R x y) ∧ (∀ y, b = .ok (some y) → ∃ x, a = .ok (some x)) := by
  rcases a with _ | _ | x <;> rcases b with _ | _ | y <;> simp [SameOutcome] at h ⊢
  exact h

theorem SameResult.ok {ε : Type} {a b : Except ε K} (h : SameResult R a b) :
    (∀ x, a = .ok x → ∃ y, b = .ok y ∧ R x y) ∧ (∀ y, b = .ok y → ∃ x, a = .ok x) := by
  rcases a with _ | x <;> rcases b with _ | y <;> simp [SameResult] at h ⊢
  exact h

/-- **C130.** Faster measurements never make an interpolated speed slower (`IDWInterpolator`). -/
theorem C130_idw_faster {norm : K × K → K} (hn : ∀ x, 0 ≤ norm x) (p : Nat) {pts pts' : List (Pt K)}
    (h : Slower pts pts') (g : K × K) {x : K} (hx : idw norm p pts g = .ok (some x)) :
    ∃ y, idw norm p pts' g = .ok (some y) ∧ x ≤ y := (idw_related meanable_le hn p h g).ok.1 x hx

/-- **C130.** Errors of at most `δ` in the measured speeds change the interpolated speeds by at most `δ`
(`IDWInterpolator`). -/
theorem C130_idw_error {norm : K × K → K} (hn : ∀ x, 0 ≤ norm x) (p : Nat) {δ : K} {pts pts' : List (Pt K)}
    (h : Close δ pts pts') (g : K × K) {x : K} (hx : idw norm p pts g = .ok (some x)) :
    ∃ y, idw norm p pts' g = .ok (some y) ∧ |x - y| ≤ δ := (idw_related (meanable_close δ) hn p h g).ok.1 x hx

/-- **C130.** Faster measurements never make an interpolated speed slower (`ImprovedIDWInterpolator`). -/
theorem C130_improved_faster (norm : K × K → K) {pts pts' : List (Pt K)} (h : Slower pts pts') (g : K × K) {x : K}
    (hx : improved norm pts g = .ok (some x)) : ∃ y, improved norm pts' g = .ok (some y) ∧ x ≤ y :=
  (improved_related meanable_le norm h g).ok.1 x hx

/-- **C130.** Errors of at most `δ` in the measured speeds change the interpolated speeds by at most `δ`
(`ImprovedIDWInterpolator`). -/
theorem C130_improved_error (norm : K × K → K) {δ : K} {pts pts' : List (Pt K)} (h : Close δ pts pts') (g : K × K) {x : K}
    (hx : improved norm pts g = .ok (some x)) : ∃ y, improved norm pts' g = .ok (some y) ∧ |x - y| ≤ δ :=
  (improved_related (meanable_close δ) norm h g).ok.1 x hx

/-- A boat measured half a knot faster at one of three winds: the improved weighing gives a value within half a knot. -/
example : (∃ y, improved (K := ℚ) (fun x => |x.1| + |x.2|) [((0, 0), 3 / 2), ((4, 0), 5), ((3, 0), 3)] (1, 0) = .ok (some y) ∧ 19 / 17 ≤ y) ∧
    ∃ y, improved (K := ℚ) (fun x => |x.1| + |x.2|) [((0, 0), 3 / 2), ((4, 0), 5), ((3, 0), 3)] (1, 0) = .ok (some y) ∧ |19 / 17 - y| ≤ 1 / 2 :=
  ⟨C130_improved_faster _ (pts := [((0, 0), 1), ((4, 0), 5), ((3, 0), 3)]) (.cons (by norm_num) (.cons (by norm_num) (.cons (by norm_num) .nil))) _ (by decide +kernel),
    C130_improved_error _ (pts := [((0, 0), 1), ((4, 0), 5), ((3, 0), 3)]) (.cons (by norm_num) (.cons (by norm_num) (.cons (by norm_num) .nil))) _ (by decide +kernel)⟩

/-- **C130.** Faster measurements never make an interpolated speed slower (`ArithmeticMeanInterpolator`, any factor `s`
accepted by the constructor and any nonnegative distribution). -/
theorem C130_arith_faster {norm : K × K → K} {s : K} (hs : 0 < s) {distr : K → K → K} (hd : ∀ d w, 0 ≤ distr d w)
    {pts pts' : List (Pt K)} {weights : List K} (hw : weights.length = pts.length) (h : Slower pts pts') (g : K × K) {x : K}
    (hx : arith norm s distr pts weights g = .ok x) : ∃ y, arith norm s distr pts' weights g = .ok y ∧ x ≤ y :=
  (arith_related meanable_le (fun _ _ h => mul_le_mul_of_nonneg_left h hs.le) hd hw h g).ok.1 x hx

/-- **C130.** Errors of at most `δ` in the measured speeds change the interpolated speeds by at most `δ`
(`ArithmeticMeanInterpolator` with a factor of at most one, for example the default). -/
theorem C130_arith_error {norm : K × K → K} {s : K} (hs : 0 < s) (hs1 : s ≤ 1) {distr : K → K → K}
    (hd : ∀ d w, 0 ≤ distr d w) {δ : K} {pts pts' : List (Pt K)} {weights : List K} (hw : weights.length = pts.length)
    (h : Close δ pts pts') (g : K × K) {x : K} (hx : arith norm s distr pts weights g = .ok x) :
    ∃ y, arith norm s distr pts' weights g = .ok y ∧ |x - y| ≤ δ :=
  (arith_related (meanable_close δ) (fun x y h => by
    rw [← mul_sub, abs_mul, abs_of_pos hs]
    exact (mul_le_of_le_one_left (abs_nonneg _) hs1).trans h) hd hw h g).ok.1 x hx

/-- The same for the weighted mean with factor 1/2. -/
example : (∃ y, arith (K := ℚ) (fun x => |x.1| + |x.2|) (1 / 2) (fun _ w => |w|) [((0, 0), 3 / 2), ((4, 0), 5)] [1, 3] (1, 0) = .ok y ∧ 2 ≤ y) ∧
    ∃ y, arith (K := ℚ) (fun x => |x.1| + |x.2|) (1 / 2) (fun _ w => |w|) [((0, 0), 3 / 2), ((4, 0), 5)] [1, 3] (1, 0) = .ok y ∧
      |2 - y| ≤ 1 / 2 :=
  ⟨C130_arith_faster (by norm_num) (fun _ w => abs_nonneg w) (pts := [((0, 0), 1), ((4, 0), 5)]) rfl
      (.cons (by norm_num) (.cons (by norm_num) .nil)) _ (by decide +kernel),
    C130_arith_error (by norm_num) (by norm_num) (fun _ w => abs_nonneg w) (pts := [((0, 0), 1), ((4, 0), 5)]) rfl
      (.cons (by norm_num) (.cons (by norm_num) .nil)) _ (by decide +kernel)⟩

/-- **C130.** Faster measurements never make an interpolated speed slower (`BilinearGridInterpolator`). -/
theorem C130_bilinear_faster {pts pts' : List (Pt K)} (h : Slower pts pts') (g : K × K) {x : K}
    (hx : bilinear pts g = .ok x) : ∃ y, bilinear pts' g = .ok y ∧ x ≤ y := (bilinear_related meanable_le h g).ok.1 x hx

/-- **C130.** Errors of at most `δ` in the measured speeds change the interpolated speeds by at most `δ`
(`BilinearGridInterpolator`). -/
theorem C130_bilinear_error {δ : K} {pts pts' : List (Pt K)} (h : Close δ pts pts') (g : K × K) {x : K}
    (hx : bilinear pts g = .ok x) : ∃ y, bilinear pts' g = .ok y ∧ |x - y| ≤ δ :=
  (bilinear_related (meanable_close δ) h g).ok.1 x hx

/-- Bilinear interpolation in a cell of four winds, one of them measured one knot faster. -/
example : (∃ y, bilinear (K := ℚ) [((0, 0), 2), ((0, 2), 2), ((4, 0), 3), ((4, 2), 8)] (1, 1) = .ok y ∧ 5 / 2 ≤ y) ∧
    ∃ y, bilinear (K := ℚ) [((0, 0), 2), ((0, 2), 2), ((4, 0), 3), ((4, 2), 8)] (1, 1) = .ok y ∧ |5 / 2 - y| ≤ 1 :=
  ⟨C130_bilinear_faster (pts := [((0, 0), 1), ((0, 2), 2), ((4, 0), 3), ((4, 2), 8)])
      (.cons (by norm_num) (.cons (by norm_num) (.cons (by norm_num) (.cons (by norm_num) .nil)))) _ (by decide +kernel),
    C130_bilinear_error (pts := [((0, 0), 1), ((0, 2), 2), ((4, 0), 3), ((4, 2), 8)])
      (.cons (by norm_num) (.cons (by norm_num) (.cons (by norm_num) (.cons (by norm_num) .nil)))) _ (by decide +kernel)⟩

/-- Two data sets meeting the hypotheses. -/
example : Slower (K := ℚ) [((0, 0), 1), ((4, 0), 5)] [((0, 0), 2), ((4, 0), 5)] ∧
    Close (K := ℚ) 1 [((0, 0), 1), ((4, 0), 5)] [((0, 0), 2), ((4, 0), 5)] ∧
    idw (K := ℚ) (fun x => |x.1| + |x.2|) 1 [((0, 0), 1), ((4, 0), 5)] (1, 0) = .ok (some 2) ∧
    idw (K := ℚ) (fun x => |x.1| + |x.2|) 1 [((0, 0), 2), ((4, 0), 5)] (1, 0) = .ok (some (11 / 4)) := by
  refine ⟨.cons (by norm_num) (.cons (by norm_num) .nil), .cons (by norm_num) (.cons (by norm_num) .nil), ?_, ?_⟩ <;>
    decide +kernel

end Verif.Interp

namespace Verif.Ext

open Verif.Interp

variable {K : Type} [Field K] [LinearOrder K] [IsStrictOrderedRing K] [FloorRing K]

/-- The same winds and the same weights, in the same order, with speeds related by `R`. -/
def SameWeighted (R : K → K → Prop) : List (Pt K × K) → List (Pt K × K) → Prop :=
  List.Forall₂ fun p q => p.1.1 = q.1.1 ∧ p.2 = q.2 ∧ R p.1.2 q.1.2

/-- The interpolator passes on the relation of the data to its results. -/
def PassesOn (R : K → K → Prop) (interpolate : List (Pt K × K) → K × K → Except PyErr K) : Prop :=
  ∀ l l', SameWeighted R l l' → ∀ g x y, interpolate l g = .ok x → interpolate l' g = .ok y → R x y

theorem SameWeighted.filter {R : K → K → Prop} {l l' : List (Pt K × K)} (h : SameWeighted R l l') (f : K × K → Bool) :
    SameWeighted R (l.filter fun p => f p.1.1) (l'.filter fun p => f p.1.1) := by
  induction h with
  | nil => exact .nil
  | @cons p q ps qs hp _ ih =>
    rw [List.filter_cons, List.filter_cons, hp.1]
    cases f q.1.1
    · exact ih
    · exact .cons hp ih

theorem SameWeighted.winds {R : K → K → Prop} {l l' : List (Pt K × K)} (h : SameWeighted R l l') :
    l.map (fun p => p.1.1) = l'.map fun p => p.1.1 := by
  induction h with
  | nil => rfl
  | cons hp _ ih => rw [List.map_cons, List.map_cons, hp.1, ih]

/-- **C130.** The values an extension assigns to a wind, from two data sets with the same winds and weights: related as
the measured speeds, for every interpolator which passes on the relation (zero, for lack of data, is related to itself). -/
theorem C130_values {R : K → K → Prop} (h0 : R 0 0) {nbh : K × K → Bool}
    {interpolate : List (Pt K × K) → K × K → Except PyErr K} (hi : PassesOn R interpolate) {points points' : List (Pt K × K)}
    (h : SameWeighted R points points') {g : K × K} {x y : K} (hx : interpolatePoint nbh interpolate points g = .ok (g, x))
    (hy : interpolatePoint nbh interpolate points' g = .ok (g, y)) : R x y := by
  have hf := h.filter fun d => nbh (d - g)
  unfold interpolatePoint at hx hy
  revert hx hy
  revert hf
  cases points.filter (fun p => nbh (p.1.1 - g)) with
  | nil =>
    cases points'.filter (fun p => nbh (p.1.1 - g)) with
    | nil =>
      intro _ hx hy
      simp at hx hy
      rw [← hx, ← hy]; exact h0
    | cons q qs => intro hf; cases hf
  | cons p ps =>
    cases points'.filter (fun p => nbh (p.1.1 - g)) with
    | nil => intro hf; cases hf
    | cons q qs =>
      intro hf hx hy
      cases hx' : interpolate (p :: ps) g with
      | error e => simp [hx', bind, Except.bind] at hx
      | ok u =>
        cases hy' : interpolate (q :: qs) g with
        | error e => simp [hy', bind, Except.bind] at hy
        | ok v =>
          simp [hx', bind, Except.bind] at hx
          simp [hy', bind, Except.bind] at hy
          subst hx hy
          exact hi _ _ hf g _ _ hx' hy'

/-- The default interpolator of the extensions, with a given distribution. -/
def meanOf (norm : K × K → K) (s : K) (distr : K → K → K) (l : List (Pt K × K)) (g : K × K) : Except PyErr K :=
  arith norm s distr (l.map Prod.fst) (l.map Prod.snd) g

/-- **C130.** The mean passes on "nowhere faster" and, for factors of at most one, "differing by at most `δ`". -/
theorem C130_mean_passes (norm : K × K → K) {s : K} (hs : 0 < s) {distr : K → K → K} (hd : ∀ d w, 0 ≤ distr d w) :
    PassesOn (· ≤ ·) (meanOf norm s distr) ∧
      (s ≤ 1 → ∀ δ, PassesOn (fun a b => |a - b| ≤ δ) (meanOf norm s distr)) := by
  have key : ∀ (R : K → K → Prop) (l l' : List (Pt K × K)), SameWeighted R l l' →
      SameWinds R (l.map Prod.fst) (l'.map Prod.fst) ∧ l.map Prod.snd = l'.map Prod.snd := by
    intro R l l' h
    induction h with
    | nil => exact ⟨.nil, rfl⟩
    | cons hp _ ih => exact ⟨.cons ⟨hp.1, hp.2.2⟩ ih.1, by rw [List.map_cons, List.map_cons, hp.2.1, ih.2]⟩
  constructor
  · intro l l' h g x y hx hy
    obtain ⟨h1, h2⟩ := key _ _ _ h
    unfold meanOf at hx hy
    obtain ⟨z, hz, hxz⟩ := C130_arith_faster hs hd (by simp) h1 g hx
    rw [h2, hy] at hz
    cases hz; exact hxz
  · intro hs1 δ l l' h g x y hx hy
    obtain ⟨h1, h2⟩ := key _ _ _ h
    unfold meanOf at hx hy
    obtain ⟨z, hz, hxz⟩ := C130_arith_error hs hs1 hd (by simp) h1 g hx
    rw [h2, hy] at hz
    cases hz; exact hxz

/-- **C130.** Tables: with any resolution, two data sets with the same winds and weights give tables with the same winds,
whose entries are related as the measured speeds. -/
theorem C130_table {R : K → K → Prop} (h0 : R 0 0) {res : WindResolution K} {nbh : K × K → Bool}
    {interpolate : List (Pt K × K) → K × K → Except PyErr K} (hi : PassesOn R interpolate) {points points' : List (Pt K × K)}
    (h : SameWeighted R points points') {ws wa : List K}
    (hsize : tableSize (points.map Prod.fst) res = .ok (ws, wa)) (hws : ws ≠ []) (hwa : wa ≠ [])
    (hnn : ∀ w ∈ ws, 0 ≤ w) (hwsn : ws.Nodup) (hwan : (wa.map fun a => pmod a 360).Nodup) {v v' : K × K → K}
    (hv : ∀ w ∈ ws, ∀ a ∈ wa, IsValue nbh interpolate points (w, a) (v (w, a)))
    (hv' : ∀ w ∈ ws, ∀ a ∈ wa, IsValue nbh interpolate points' (w, a) (v' (w, a))) :
    ∃ t t', tableProcess res nbh interpolate points = .ok t ∧ tableProcess res nbh interpolate points' = .ok t' ∧
      t.ws.Perm t'.ws ∧ t.wa.Perm t'.wa ∧
      ∀ w ∈ ws, ∀ a ∈ wa, ∃ x y, t.get w a = .ok x ∧ t'.get w a = .ok y ∧ R x y := by
  have hsize' : tableSize (points'.map Prod.fst) res = .ok (ws, wa) := by
    rw [← hsize]
    have e1 : (points'.map Prod.fst).map (fun p : Pt K => p.1.1) = (points.map Prod.fst).map fun p : Pt K => p.1.1 := by
      have := congrArg (List.map Prod.fst) h.winds.symm
      simpa only [List.map_map, Function.comp_def] using this
    have e2 : (points'.map Prod.fst).map (fun p : Pt K => p.1.2) = (points.map Prod.fst).map fun p : Pt K => p.1.2 := by
      have := congrArg (List.map Prod.snd) h.winds.symm
      simpa only [List.map_map, Function.comp_def] using this
    cases res <;> simp only [tableSize, autoResolution, minMaxResolution, e1, e2]
  obtain ⟨t, t1, t2, t3, t4⟩ := C82_table hsize hws hwa hnn hwsn hwan hv
  obtain ⟨t', t1', t2', t3', t4'⟩ := C82_table hsize' hws hwa hnn hwsn hwan hv'
  refine ⟨t, t', t1, t1', t2.trans t2'.symm, t3.trans t3'.symm, fun w hw a ha => ?_⟩
  exact ⟨_, _, t4 w hw a ha, t4' w hw a ha,
    C130_values h0 hi h (interpolatePoint_eq (hv w hw a ha)) (interpolatePoint_eq (hv' w hw a ha))⟩

/-- Two data sets meeting the hypotheses: the second measurement was read half a knot too high. -/
example : SameWeighted (K := ℚ) (fun a b => |a - b| ≤ 1 / 2) [(((10, 90), 5), 1), (((12, 90), 6), 1)]
      [(((10, 90), 5), 1), (((12, 90), 13 / 2), 1)] ∧
    PassesOn (K := ℚ) (fun a b => |a - b| ≤ 1 / 2) (meanOf (fun x => |x.1| + |x.2|) 1 fun _ w => |w|) ∧
    meanOf (K := ℚ) (fun x => |x.1| + |x.2|) 1 (fun _ w => |w|) [(((10, 90), 5), 1), (((12, 90), 6), 1)] (11, 90) = .ok (11 / 2) :=
  ⟨.cons (by norm_num) (.cons (by norm_num) .nil),
    (C130_mean_passes _ one_pos fun _ w => abs_nonneg w).2 le_rfl _, by decide +kernel⟩

end Verif.Ext
