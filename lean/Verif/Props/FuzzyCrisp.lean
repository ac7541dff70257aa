import Verif.Model.FuzzyRepr
import Mathlib.Analysis.SpecialFunctions.Exp

/-!
# Property C139: fuzzy statements are ordinary statements with blurred borders

Away from the borders of its comparisons a fuzzy statement is more than half true iff the ordinary statement with the
same text holds, and it is the truer resp. the falser the greater the sharpness is.
-/

namespace Verif.Fuzzy

/-- The ordinary meaning of a statement: comparisons of numbers, and, or, not. -/
def Expr.holds (val : Str → ℝ) : Expr → Input → Prop
  | .compare key op number _, x =>
    let v := match key with
      | none => x []
      | some k => x [k]
    match op with
    | .lt => v < val number
    | .gt => val number < v
    | .eq => v = val number
  | .sigmoid center _ sigma, x => val sigma * (x [] - val center) < 0
  | .and e f, x => e.holds val x ∧ f.holds val x
  | .or e f, x => e.holds val x ∨ f.holds val x
  | .not e, x => ¬ e.holds val x
  | .item e k, x => e.holds val fun path => x (k :: path)

/-- The statement is made of inequalities of sharpness at least `s`, and `x` has distance at least `d` from all their
borders. -/
def Expr.Off (val : Str → ℝ) (s d : ℝ) : Expr → Input → Prop
  | .compare key op number sharpness, x =>
    op ≠ .eq ∧ s ≤ sharpness ∧ d ≤ |(match key with
      | none => x []
      | some k => x [k]) - val number|
  | .sigmoid center sharpness sigma, x =>
    (val sigma = 1 ∨ val sigma = -1) ∧ s ≤ val sharpness ∧ d ≤ |x [] - val center|
  | .and e f, x => e.Off val s d x ∧ f.Off val s d x
  | .or e f, x => e.Off val s d x ∧ f.Off val s d x
  | .not e, x => e.Off val s d x
  | .item e k, x => e.Off val s d fun path => x (k :: path)

theorem sigmoid_low {c s t σ x d : ℝ} (hs : 0 < s) (hst : s ≤ t) (hd : 0 < d) (hσ : σ = 1 ∨ σ = -1)
    (h : d ≤ σ * (x - c)) : Weigher.sigmoid c t σ x ≤ 1 / (1 + Real.exp (s * d)) := by
  unfold Weigher.sigmoid
  refine one_div_le_one_div_of_le (by positivity) ?_
  have : s * d ≤ σ * t * (x - c) := by
    have h1 : s * d ≤ t * d := mul_le_mul_of_nonneg_right hst hd.le
    have h2 : t * d ≤ t * (σ * (x - c)) := mul_le_mul_of_nonneg_left h (hs.le.trans hst)
    nlinarith
  linarith [Real.exp_le_exp.2 this]

theorem sigmoid_high {c s t σ x d : ℝ} (hs : 0 < s) (hst : s ≤ t) (hd : 0 < d) (hσ : σ = 1 ∨ σ = -1)
    (h : σ * (x - c) ≤ -d) : 1 - Weigher.sigmoid c t σ x ≤ 1 / (1 + Real.exp (s * d)) := by
  have h1 : 1 - Weigher.sigmoid c t σ x = Weigher.sigmoid c t (-σ) x := by
    unfold Weigher.sigmoid
    rw [show -σ * t * (x - c) = -(σ * t * (x - c)) by ring, Real.exp_neg]
    have := Real.exp_pos (σ * t * (x - c))
    field_simp
    ring
  rw [h1]
  exact sigmoid_low hs hst hd (by rcases hσ with rfl | rfl <;> simp) (by linarith)

/-- **C139.** Away from the borders of the inequalities (by at least `d`), a statement whose inequalities have sharpness
at least `s` is true up to `1 / (1 + exp (s d))` if the ordinary statement holds, and false up to the same number
otherwise. -/
theorem C139_error (val : Str → ℝ) {s d : ℝ} (hs : 0 < s) (hd : 0 < d) :
    ∀ (e : Expr) (x : Input), e.Off val s d x →
      (e.holds val x → 1 - e.truth val x ≤ 1 / (1 + Real.exp (s * d))) ∧
      (¬ e.holds val x → e.truth val x ≤ 1 / (1 + Real.exp (s * d)))
  | .compare key op number sharpness, x, h => by
    obtain ⟨hop, hst, hd'⟩ := h
    cases op with
    | eq => exact absurd rfl hop
    | lt =>
      cases key <;> simp only [Expr.holds, Expr.truth, Input.item] at hd' ⊢
      all_goals
        constructor
        · intro hv
          rw [abs_of_neg (by linarith)] at hd'
          exact sigmoid_high hs hst hd (.inl rfl) (by linarith)
        · intro hv
          rw [abs_of_nonneg (by linarith)] at hd'
          exact sigmoid_low hs hst hd (.inl rfl) (by linarith)
    | gt =>
      cases key <;> simp only [Expr.holds, Expr.truth, Input.item] at hd' ⊢
      all_goals
        constructor
        · intro hv
          rw [abs_of_pos (by linarith)] at hd'
          exact sigmoid_high hs hst hd (.inr rfl) (by linarith)
        · intro hv
          rw [abs_of_nonpos (by linarith)] at hd'
          exact sigmoid_low hs hst hd (.inr rfl) (by linarith)
  | .sigmoid center sharpness sigma, x, h => by
    obtain ⟨hσ, hst, hd'⟩ := h
    simp only [Expr.holds, Expr.truth]
    have habs : |x [] - val center| = |val sigma * (x [] - val center)| := by
      rcases hσ with h | h <;> rw [abs_mul, h] <;> simp
    rw [habs] at hd'
    constructor
    · intro hv
      rw [abs_of_neg hv] at hd'
      exact sigmoid_high hs hst hd hσ (by linarith)
    · intro hv
      rw [abs_of_nonneg (by linarith)] at hd'
      exact sigmoid_low hs hst hd hσ (by linarith)
  | .and e f, x, h => by
    obtain ⟨e1, e2⟩ := C139_error val hs hd e x h.1
    obtain ⟨f1, f2⟩ := C139_error val hs hd f x h.2
    simp only [Expr.holds, Expr.truth]
    constructor
    · rintro ⟨he, hf⟩
      rcases min_cases (e.truth val x) (f.truth val x) with ⟨h, -⟩ | ⟨h, -⟩ <;> rw [h]
      · exact e1 he
      · exact f1 hf
    · intro hn
      by_cases he : e.holds val x
      · exact (min_le_right _ _).trans (f2 fun hf => hn ⟨he, hf⟩)
      · exact (min_le_left _ _).trans (e2 he)
  | .or e f, x, h => by
    obtain ⟨e1, e2⟩ := C139_error val hs hd e x h.1
    obtain ⟨f1, f2⟩ := C139_error val hs hd f x h.2
    simp only [Expr.holds, Expr.truth]
    constructor
    · rintro (he | hf)
      · linarith [e1 he, le_max_left (e.truth val x) (f.truth val x)]
      · linarith [f1 hf, le_max_right (e.truth val x) (f.truth val x)]
    · intro hn
      exact max_le (e2 fun he => hn (.inl he)) (f2 fun hf => hn (.inr hf))
  | .not e, x, h => by
    obtain ⟨e1, e2⟩ := C139_error val hs hd e x h
    simp only [Expr.holds, Expr.truth, not_not]
    constructor
    · intro hn
      linarith [e2 hn]
    · intro he
      exact e1 he
  | .item e k, x, h => C139_error val hs hd e _ h

/-- **C139.** Away from the borders, a statement is more than half true iff the ordinary statement holds, and less than
half true iff it does not, whatever the (positive) sharpness is. -/
theorem C139_half (val : Str → ℝ) {s d : ℝ} (hs : 0 < s) (hd : 0 < d) {e : Expr} {x : Input} (h : e.Off val s d x) :
    (e.holds val x ↔ 1 / 2 < e.truth val x) ∧ (¬ e.holds val x ↔ e.truth val x < 1 / 2) := by
  obtain ⟨h1, h2⟩ := C139_error val hs hd e x h
  have h3 : 1 / (1 + Real.exp (s * d)) < 1 / 2 := by
    have := Real.one_lt_exp_iff.2 (mul_pos hs hd)
    exact one_div_lt_one_div_of_lt (by norm_num) (by linarith)
  by_cases hh : e.holds val x
  · have := h1 hh
    exact ⟨⟨fun _ => by linarith, fun _ => hh⟩, ⟨fun h' => absurd hh h', fun h' => by linarith⟩⟩
  · have := h2 hh
    exact ⟨⟨fun h' => absurd h' hh, fun h' => by linarith⟩, ⟨fun _ => by linarith, fun _ => hh⟩⟩

/-- **C139.** With growing sharpness the statements become ordinary ones. -/
theorem C139_limit (val : Str → ℝ) {d ε : ℝ} (hd : 0 < d) (hε : 0 < ε) :
    ∃ S, ∀ s ≥ S, ∀ (e : Expr) (x : Input), e.Off val s d x →
      (e.holds val x → 1 - ε ≤ e.truth val x) ∧ (¬ e.holds val x → e.truth val x ≤ ε) := by
  refine ⟨1 / (d * ε), fun s hS e x h => ?_⟩
  have hs : 0 < s := lt_of_lt_of_le (by positivity) hS
  obtain ⟨h1, h2⟩ := C139_error val hs hd e x h
  have h3 : 1 / (1 + Real.exp (s * d)) ≤ ε := by
    have h4 : 1 / ε ≤ s * d := by
      rw [div_le_iff₀ hε]
      rw [ge_iff_le, div_le_iff₀ (by positivity)] at hS
      linarith
    rw [div_le_iff₀ (by positivity)]
    have h5 : 1 ≤ s * d * ε := by rwa [div_le_iff₀ hε] at h4
    have h6 := Real.add_one_le_exp (s * d)
    nlinarith
  exact ⟨fun hh => by linarith [h1 hh], fun hh => (h2 hh).trans h3⟩

/-- **C139.** At the border an inequality is exactly half true; `x == a` is exactly half true for `x = a` and less than
half true otherwise. -/
theorem C139_border (val : Str → ℝ) (key : Option Str) (number : Str) {s : ℝ} (hs : 0 < s) (x : Input) :
    let v := match key with
      | none => x []
      | some k => x [k]
    (v = val number → ∀ op, (Expr.compare key op number s).truth val x = 1 / 2) ∧
      (v ≠ val number → (Expr.compare key .eq number s).truth val x < 1 / 2) := by
  have key1 : ∀ v σ, v = val number → Weigher.sigmoid (val number) s σ v = 1 / 2 := by
    rintro v σ rfl
    simp [Weigher.sigmoid]
    norm_num
  have key2 : ∀ v, v ≠ val number →
      min (Weigher.sigmoid (val number) s 1 v) (Weigher.sigmoid (val number) s (-1) v) < 1 / 2 := by
    intro v hv
    have low : ∀ σ, 0 < σ * (v - val number) → Weigher.sigmoid (val number) s σ v < 1 / 2 := by
      intro σ hσ
      unfold Weigher.sigmoid
      refine one_div_lt_one_div_of_lt (by norm_num) ?_
      have : 0 < σ * s * (v - val number) := by nlinarith
      linarith [Real.one_lt_exp_iff.2 this]
    rcases lt_or_gt_of_ne hv with h | h
    · exact min_lt_of_right_lt (low _ (by linarith))
    · exact min_lt_of_left_lt (low _ (by linarith))
  intro v
  refine ⟨fun hv op => ?_, fun hv => ?_⟩
  · cases key <;> cases op
    · exact key1 _ _ hv
    · exact key1 _ _ hv
    · exact (congrArg₂ min (key1 _ _ hv) (key1 _ _ hv)).trans (min_self _)
    · exact key1 _ _ hv
    · exact key1 _ _ hv
    · exact (congrArg₂ min (key1 _ _ hv) (key1 _ _ hv)).trans (min_self _)
  · cases key <;> exact key2 _ hv

/-- `(x["TWS"] > 5) & ~(x["TWA"] < 90)` for a wind of 8 knots at 120 degrees. -/
example : let val : Str → ℝ := fun t => if t = ['5'] then 5 else 90
    let e : Expr := .and (.compare (some ['T', 'W', 'S']) .gt ['5'] 10)
      (.not (.compare (some ['T', 'W', 'A']) .lt ['9', '0'] 10))
    let x : Input := fun p => if p = [['T', 'W', 'S']] then 8 else 120
    e.Off val 10 3 x ∧ e.holds val x ∧ 1 / 2 < e.truth val x := by
  intro val e x
  have h1 : e.Off val 10 3 x := by
    simp [e, Expr.Off, val, x]
    norm_num [abs_of_pos]
  have h2 : e.holds val x := by
    simp [e, Expr.holds, val, x]
    norm_num
  exact ⟨h1, h2, (C139_half val (by norm_num) (by norm_num) h1).1.1 h2⟩

end Verif.Fuzzy
