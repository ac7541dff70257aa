import Verif.Model.Interpolator
import Mathlib.Algebra.Order.BigOperators.Group.List
import Mathlib.Tactic.Ring
import Mathlib.Tactic.FieldSimp
import Mathlib.Tactic.Linarith
import Mathlib.Tactic.Positivity

/-! # Lemmas about the interpolators -/

set_option linter.unusedSectionVars false

namespace Verif.Interp

variable {K : Type} [Field K] [LinearOrder K] [IsStrictOrderedRing K]

/-! ### Weighted means -/

theorem dot_cons (a b : K) (v w : List K) : dot (a :: v) (b :: w) = a * b + dot v w := by simp [dot]

theorem dot_nil_left (w : List K) : dot ([] : List K) w = 0 := by simp [dot]

theorem dot_comm (v w : List K) : dot v w = dot w v := by
  simp only [dot]
  rw [List.zipWith_comm]
  simp [mul_comm]

theorem dot_map_div (v w : List K) (s : K) : dot (v.map (· / s)) w = dot v w / s := by
  induction v generalizing w with
  | nil => simp [dot]
  | cons a v ih =>
    cases w with
    | nil => simp [dot]
    | cons b w =>
      simp only [List.map_cons, dot_cons, ih]
      ring

theorem dot_bounds {v w : List K} (hl : v.length = w.length) (hv : ∀ x ∈ v, 0 ≤ x) {lo hi : K}
    (hlo : ∀ x ∈ w, lo ≤ x) (hhi : ∀ x ∈ w, x ≤ hi) : lo * v.sum ≤ dot v w ∧ dot v w ≤ hi * v.sum := by
  induction v generalizing w with
  | nil => simp [dot]
  | cons a v ih =>
    cases w with
    | nil => simp at hl
    | cons b w =>
      simp only [List.length_cons, Nat.add_right_cancel_iff] at hl
      have ha := hv a List.mem_cons_self
      obtain ⟨h1, h2⟩ := ih hl (fun x hx => hv x (List.mem_cons_of_mem _ hx))
        (fun x hx => hlo x (List.mem_cons_of_mem _ hx)) (fun x hx => hhi x (List.mem_cons_of_mem _ hx))
      have hb1 := hlo b List.mem_cons_self
      have hb2 := hhi b List.mem_cons_self
      simp only [List.sum_cons, dot_cons]
      constructor
      · nlinarith
      · nlinarith

theorem sum_nonneg' {v : List K} (hv : ∀ x ∈ v, 0 ≤ x) : 0 ≤ v.sum := List.sum_nonneg hv

theorem sum_pos_of_mem {v : List K} (hv : ∀ x ∈ v, 0 ≤ x) {a : K} (ha : a ∈ v) (h : 0 < a) : 0 < v.sum := by
  induction v with
  | nil => simp at ha
  | cons b v ih =>
    have hb := hv b List.mem_cons_self
    have hs := sum_nonneg' (v := v) fun x hx => hv x (List.mem_cons_of_mem _ hx)
    rw [List.sum_cons]
    rcases List.mem_cons.1 ha with rfl | hav
    · linarith
    · have := ih (fun x hx => hv x (List.mem_cons_of_mem _ hx)) hav
      linarith

theorem mean_bounds {v w : List K} (hl : v.length = w.length) (hv : ∀ x ∈ v, 0 ≤ x) (hs : 0 < v.sum) {lo hi : K}
    (hlo : ∀ x ∈ w, lo ≤ x) (hhi : ∀ x ∈ w, x ≤ hi) : lo ≤ dot v w / v.sum ∧ dot v w / v.sum ≤ hi := by
  obtain ⟨h1, h2⟩ := dot_bounds hl hv hlo hhi
  exact ⟨(le_div_iff₀ hs).2 h1, (div_le_iff₀ hs).2 h2⟩

/-! ### Points at distance zero -/

theorem firstAtZero_eq_none {norm : K × K → K} {g : K × K} {pts : List (Pt K)} :
    firstAtZero norm g pts = none ↔ ∀ p ∈ pts, norm (p.1 - g) ≠ 0 := by
  induction pts with
  | nil => simp [firstAtZero]
  | cons p ps ih =>
    by_cases h : norm (p.1 - g) = 0
    · simp [firstAtZero, h]
    · simp [firstAtZero, h, ih]

theorem firstAtZero_spec {norm : K × K → K} {g : K × K} {pts : List (Pt K)} {i : Nat} {p : Pt K}
    (hi : pts[i]? = some p) (hp : norm (p.1 - g) = 0)
    (hfirst : ∀ (j : Nat) (q : Pt K), j < i → pts[j]? = some q → norm (q.1 - g) ≠ 0) :
    firstAtZero norm g pts = some p.2 := by
  induction pts generalizing i with
  | nil => simp at hi
  | cons q qs ih =>
    cases i with
    | zero =>
      simp only [List.getElem?_cons_zero, Option.some.injEq] at hi
      subst hi
      simp [firstAtZero, hp]
    | succ i =>
      have hq : norm (q.1 - g) ≠ 0 := hfirst 0 q (by omega) rfl
      simp only [List.getElem?_cons_succ] at hi
      simp only [firstAtZero, hq, if_false]
      exact ih hi fun j r hj hr => hfirst (j + 1) r (by omega) (by simpa using hr)

theorem firstAtZero_mem {norm : K × K → K} {g : K × K} {pts : List (Pt K)} {z : K}
    (h : firstAtZero norm g pts = some z) : ∃ p ∈ pts, p.2 = z ∧ norm (p.1 - g) = 0 := by
  induction pts with
  | nil => simp [firstAtZero] at h
  | cons p ps ih =>
    by_cases hp : norm (p.1 - g) = 0
    · simp only [firstAtZero, hp, if_true, Option.some.injEq] at h
      exact ⟨p, List.mem_cons_self, h, hp⟩
    · simp only [firstAtZero, hp, if_false] at h
      obtain ⟨q, hq, h⟩ := ih h
      exact ⟨q, List.mem_cons_of_mem _ hq, h⟩

/-! ### The maximum and minimum of an array -/

theorem maxOf_mem (a : K) (l : List K) : maxOf a l ∈ a :: l := by
  induction l generalizing a with
  | nil => simp [maxOf]
  | cons b l ih =>
    have := ih (max a b)
    simp only [maxOf]
    rcases List.mem_cons.1 this with h | h
    · rcases max_choice a b with hm | hm <;> rw [h, hm] <;> simp
    · simp [h]

theorem le_maxOf (a : K) (l : List K) : ∀ x ∈ a :: l, x ≤ maxOf a l := by
  induction l generalizing a with
  | nil => simp [maxOf]
  | cons b l ih =>
    intro x hx
    simp only [maxOf]
    have h0 := ih (max a b) (max a b) List.mem_cons_self
    rcases List.mem_cons.1 hx with rfl | hx
    · exact le_trans (le_max_left _ _) h0
    · rcases List.mem_cons.1 hx with rfl | hx
      · exact le_trans (le_max_right _ _) h0
      · exact ih (max a b) x (List.mem_cons_of_mem _ hx)

theorem minOf_mem (a : K) (l : List K) : minOf a l ∈ a :: l := by
  induction l generalizing a with
  | nil => simp [minOf]
  | cons b l ih =>
    have := ih (min a b)
    simp only [minOf]
    rcases List.mem_cons.1 this with h | h
    · rcases min_choice a b with hm | hm <;> rw [h, hm] <;> simp
    · simp [h]

theorem minOf_le (a : K) (l : List K) : ∀ x ∈ a :: l, minOf a l ≤ x := by
  induction l generalizing a with
  | nil => simp [minOf]
  | cons b l ih =>
    intro x hx
    simp only [minOf]
    have h0 := ih (min a b) (min a b) List.mem_cons_self
    rcases List.mem_cons.1 hx with rfl | hx
    · exact le_trans h0 (min_le_left _ _)
    · rcases List.mem_cons.1 hx with rfl | hx
      · exact le_trans h0 (min_le_right _ _)
      · exact ih (min a b) x (List.mem_cons_of_mem _ hx)

/-! ### The weights of the improved interpolator -/

theorem setWeight_nonneg {r d : K} (hd : 0 < d) (hr : d ≤ r) : 0 ≤ setWeight r d := by
  have : 0 < r := lt_of_lt_of_le hd hr
  unfold setWeight
  split
  · positivity
  · split
    · positivity
    · exact le_refl _

theorem setWeight_pos {r d : K} (hd : 0 < d) (hr : d < r) : 0 < setWeight r d := by
  have h0 : 0 < r := lt_trans hd hr
  unfold setWeight
  split
  · positivity
  · rename_i h
    have h3 : r / 3 < d := by
      by_contra hn
      exact h ⟨hd, not_lt.1 hn⟩
    simp only [h3, hr.le, and_self, if_true]
    have : d / r - 1 < 0 := by
      have := (div_lt_one h0).2 hr
      linarith
    have h4 : (d / r - 1) ≠ 0 := ne_of_lt this
    positivity

theorem setWeight_max {r : K} (hr : 0 < r) : setWeight r r = 0 := by
  have h1 : ¬ r ≤ r / 3 := by
    intro h
    have : r / 3 < r := by linarith
    exact absurd h (not_le.2 this)
  have h2 : r / 3 < r := not_le.1 h1
  simp [setWeight, h1, h2, div_self hr.ne']

/-! ### Bilinear interpolation -/

theorem maxSmaller_ok {points : List K} {t v : K} (hv : v ∈ points) (hvt : v ≤ t)
    (h : ∀ x ∈ points, x ≤ t → x ≤ v) : maxSmaller points t = .ok v := by
  unfold maxSmaller
  have hmem : v ∈ points.filter fun x => decide (x ≤ t) := by simp [hv, hvt]
  split
  · rename_i heq
    rw [heq] at hmem
    simp at hmem
  · rename_i a l heq
    have h1 := maxOf_mem a l
    rw [← heq] at h1
    simp only [List.mem_filter, decide_eq_true_eq] at h1
    rw [heq] at hmem
    exact congrArg _ (le_antisymm (h _ h1.1 h1.2) (le_maxOf a l v hmem))

theorem maxSmaller_error {points : List K} {t : K} (h : ∀ x ∈ points, t < x) :
    maxSmaller points t = .error .outsideGrid := by
  have : points.filter (fun x => decide (x ≤ t)) = [] := by
    rw [List.filter_eq_nil_iff]
    intro x hx
    simpa using h x hx
  simp [maxSmaller, this]

theorem minBigger_ok {points : List K} {t v : K} (hv : v ∈ points) (hvt : t ≤ v)
    (h : ∀ x ∈ points, t ≤ x → v ≤ x) : minBigger points t = .ok v := by
  unfold minBigger
  have hmem : v ∈ points.filter fun x => decide (x ≥ t) := by simp [hv, hvt]
  split
  · rename_i heq
    rw [heq] at hmem
    simp at hmem
  · rename_i a l heq
    have h1 := minOf_mem a l
    rw [← heq] at h1
    simp only [List.mem_filter, decide_eq_true_eq] at h1
    rw [heq] at hmem
    exact congrArg _ (le_antisymm (minOf_le a l v hmem) (h _ h1.1 h1.2))

theorem minBigger_error {points : List K} {t : K} (h : ∀ x ∈ points, x < t) :
    minBigger points t = .error .outsideGrid := by
  have : points.filter (fun x => decide (x ≥ t)) = [] := by
    rw [List.filter_eq_nil_iff]
    intro x hx
    simpa using h x hx
  simp [minBigger, this]

theorem maxSmaller_cases (points : List K) (t : K) :
    (∃ v ∈ points, v ≤ t ∧ (∀ x ∈ points, x ≤ t → x ≤ v) ∧ maxSmaller points t = .ok v) ∨
    ((∀ x ∈ points, t < x) ∧ maxSmaller points t = .error .outsideGrid) := by
  by_cases h : ∀ x ∈ points, t < x
  · exact .inr ⟨h, maxSmaller_error h⟩
  · left
    push Not at h
    obtain ⟨x, hx, hxt⟩ := h
    have hm : x ∈ points.filter fun x => decide (x ≤ t) := by simp [hx, hxt]
    cases hf : points.filter fun x => decide (x ≤ t) with
    | nil => rw [hf] at hm; simp at hm
    | cons a l =>
      have h1 := maxOf_mem a l
      rw [← hf] at h1
      simp only [List.mem_filter, decide_eq_true_eq] at h1
      refine ⟨maxOf a l, h1.1, h1.2, ?_, by simp [maxSmaller, hf]⟩
      intro y hy hyt
      apply le_maxOf
      rw [← hf]
      simp [hy, hyt]

theorem minBigger_cases (points : List K) (t : K) :
    (∃ v ∈ points, t ≤ v ∧ (∀ x ∈ points, t ≤ x → v ≤ x) ∧ minBigger points t = .ok v) ∨
    ((∀ x ∈ points, x < t) ∧ minBigger points t = .error .outsideGrid) := by
  by_cases h : ∀ x ∈ points, x < t
  · exact .inr ⟨h, minBigger_error h⟩
  · left
    push Not at h
    obtain ⟨x, hx, hxt⟩ := h
    have hm : x ∈ points.filter fun x => decide (x ≥ t) := by simp [hx, hxt]
    cases hf : points.filter fun x => decide (x ≥ t) with
    | nil => rw [hf] at hm; simp at hm
    | cons a l =>
      have h1 := minOf_mem a l
      rw [← hf] at h1
      simp only [List.mem_filter, decide_eq_true_eq] at h1
      refine ⟨minOf a l, h1.1, h1.2, ?_, by simp [minBigger, hf]⟩
      intro y hy hyt
      apply minOf_le
      rw [← hf]
      simp [hy, hyt]

end Verif.Interp
