import Mathlib.Algebra.Order.Field.Basic
import Mathlib.Algebra.Order.BigOperators.Group.List
import Mathlib.Tactic.Linarith
import Mathlib.Tactic.Ring
import Mathlib.Tactic.Positivity
import Mathlib.Tactic.FieldSimp
import Verif.Model.Py

/-! Minimum, maximum, mean and exceptions in lists -/

namespace Verif

variable {K : Type} [LinearOrder K]

theorem foldl_min_spec (xs : List K) (x : K) : xs.foldl min x ∈ x :: xs ∧ ∀ y ∈ x :: xs, xs.foldl min x ≤ y := by
  induction xs generalizing x with
  | nil => simp
  | cons z zs ih =>
    obtain ⟨h1, h2⟩ := ih (min x z)
    simp only [List.foldl_cons]
    constructor
    · rcases List.mem_cons.1 h1 with h | h
      · rw [h]; rcases min_choice x z with h' | h' <;> rw [h'] <;> simp
      · exact List.mem_cons_of_mem _ (List.mem_cons_of_mem _ h)
    · intro y hy
      have h3 := h2 _ List.mem_cons_self
      rcases List.mem_cons.1 hy with rfl | hy
      · exact h3.trans (min_le_left _ _)
      · rcases List.mem_cons.1 hy with rfl | hy
        · exact h3.trans (min_le_right _ _)
        · exact h2 _ (List.mem_cons_of_mem _ hy)

theorem foldl_max_spec (xs : List K) (x : K) : xs.foldl max x ∈ x :: xs ∧ ∀ y ∈ x :: xs, y ≤ xs.foldl max x := by
  induction xs generalizing x with
  | nil => simp
  | cons z zs ih =>
    obtain ⟨h1, h2⟩ := ih (max x z)
    simp only [List.foldl_cons]
    constructor
    · rcases List.mem_cons.1 h1 with h | h
      · rw [h]; rcases max_choice x z with h' | h' <;> rw [h'] <;> simp
      · exact List.mem_cons_of_mem _ (List.mem_cons_of_mem _ h)
    · intro y hy
      have h3 := h2 _ List.mem_cons_self
      rcases List.mem_cons.1 hy with rfl | hy
      · exact (le_max_left _ _).trans h3
      · rcases List.mem_cons.1 hy with rfl | hy
        · exact (le_max_right _ _).trans h3
        · exact h2 _ (List.mem_cons_of_mem _ hy)

theorem foldl_min_eq {x m : K} {xs : List K} (hm : m ∈ x :: xs) (hle : ∀ y ∈ x :: xs, m ≤ y) : xs.foldl min x = m :=
  le_antisymm ((foldl_min_spec xs x).2 _ hm) (hle _ (foldl_min_spec xs x).1)

theorem foldl_max_eq {x m : K} {xs : List K} (hm : m ∈ x :: xs) (hle : ∀ y ∈ x :: xs, y ≤ m) : xs.foldl max x = m :=
  le_antisymm (hle _ (foldl_max_spec xs x).1) ((foldl_max_spec xs x).2 _ hm)

theorem mapM_ok_of {α β : Type} {f : α → Except PyErr β} {g : α → β} {l : List α} (h : ∀ a ∈ l, f a = .ok (g a)) :
    l.mapM f = .ok (l.map g) := by
  induction l with
  | nil => rfl
  | cons a l ih =>
    rw [List.mapM_cons, h a List.mem_cons_self, ih fun b hb => h b (List.mem_cons_of_mem _ hb)]
    rfl

theorem mapM_error_of {α β : Type} {f : α → Except PyErr β} {l : List α} {a : α} (ha : a ∈ l) {e : PyErr}
    (h : f a = .error e) : ∃ e', l.mapM f = .error e' := by
  induction l with
  | nil => simp at ha
  | cons b l ih =>
    rw [List.mapM_cons]
    rcases List.mem_cons.1 ha with rfl | ha
    · rw [h]; exact ⟨e, rfl⟩
    · cases hb : f b with
      | error e' => exact ⟨e', rfl⟩
      | ok y =>
        obtain ⟨e', he⟩ := ih ha
        rw [he]
        exact ⟨e', rfl⟩

section
variable {F : Type} [Field F] [LinearOrder F] [IsStrictOrderedRing F]

theorem sum_le_length_mul {l : List F} {b : F} (h : ∀ x ∈ l, x ≤ b) : l.sum ≤ (l.length : F) * b := by
  induction l with
  | nil => simp
  | cons x l ih =>
    rw [List.sum_cons, List.length_cons, Nat.cast_succ]
    have := ih fun y hy => h y (List.mem_cons_of_mem _ hy)
    have := h x List.mem_cons_self
    linarith

theorem length_mul_le_sum {l : List F} {a : F} (h : ∀ x ∈ l, a ≤ x) : (l.length : F) * a ≤ l.sum := by
  induction l with
  | nil => simp
  | cons x l ih =>
    rw [List.sum_cons, List.length_cons, Nat.cast_succ]
    have := ih fun y hy => h y (List.mem_cons_of_mem _ hy)
    have := h x List.mem_cons_self
    linarith

theorem sum_sq_sub (l : List F) (c : F) :
    (l.map fun x => (x - c) ^ 2).sum = (l.map fun x => x ^ 2).sum - 2 * c * l.sum + (l.length : F) * c ^ 2 := by
  induction l with
  | nil => simp
  | cons x l ih =>
    simp only [List.map_cons, List.sum_cons, List.length_cons, Nat.cast_succ, ih]
    ring

theorem sq_mean_le {l : List F} (h : l ≠ []) :
    (l.sum / (l.length : F)) ^ 2 ≤ (l.map fun x => x ^ 2).sum / (l.length : F) := by
  have hpos : (0 : F) < (l.length : F) := by
    exact_mod_cast List.length_pos_iff.2 h
  have h1 := sum_sq_sub l (l.sum / (l.length : F))
  have h2 : 0 ≤ (l.map fun x => (x - l.sum / (l.length : F)) ^ 2).sum :=
    List.sum_nonneg fun y hy => by obtain ⟨x, -, rfl⟩ := List.mem_map.1 hy; positivity
  rw [h1] at h2
  rw [le_div_iff₀ hpos]
  have e : l.sum = (l.length : F) * (l.sum / (l.length : F)) := by field_simp
  set m := l.sum / (l.length : F)
  rw [e] at h2
  linarith [h2]

end

end Verif
