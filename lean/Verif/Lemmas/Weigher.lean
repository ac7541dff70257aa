import Verif.Model.Weigher
import Mathlib.Algebra.Order.Field.Basic
import Mathlib.Tactic.Linarith
import Mathlib.Tactic.Positivity

/-!
# Lemmas for the weighers
-/

set_option linter.unusedSectionVars false

namespace Verif.Weigher

section

variable {K : Type} [Field K] [LinearOrder K] [IsStrictOrderedRing K]

theorem le_maxOf (a : K) (l : List K) : ∀ x ∈ a :: l, x ≤ maxOf a l := by
  induction l generalizing a with
  | nil => simp [maxOf]
  | cons b l ih =>
    intro x hx
    simp only [maxOf]
    have h := ih (max a b)
    simp only [List.mem_cons] at hx
    rcases hx with rfl | rfl | hx
    · exact le_trans (le_max_left _ _) (h _ List.mem_cons_self)
    · exact le_trans (le_max_right _ _) (h _ List.mem_cons_self)
    · exact h x (by simp [hx])

theorem maxOf_mem (a : K) (l : List K) : maxOf a l ∈ a :: l := by
  induction l generalizing a with
  | nil => simp [maxOf]
  | cons b l ih =>
    simp only [maxOf]
    have h := ih (max a b)
    simp only [List.mem_cons] at h ⊢
    rcases h with h | h
    · rcases le_total a b with hab | hab
      · rw [max_eq_right hab] at h; right; left; rw [max_eq_right hab]; exact h
      · rw [max_eq_left hab] at h; left; rw [max_eq_left hab]; exact h
    · right; right; exact h

/-- Normalising divides by a non-negative number. -/
theorem normalize_eq {w : List K} (hw : w ≠ []) (h0 : ∀ x ∈ w, 0 ≤ x) :
    (normalize w = w ∧ ∀ x ∈ w, x = 0) ∨
    (∃ m, 0 < m ∧ m ∈ w ∧ (∀ x ∈ w, x ≤ m) ∧ normalize w = w.map (· / m)) := by
  cases w with
  | nil => exact absurd rfl hw
  | cons a l =>
    have hle := le_maxOf a l
    have hmem := maxOf_mem a l
    by_cases hm : maxOf a l = 0
    · left
      refine ⟨by simp [normalize, hm], ?_⟩
      intro x hx
      exact le_antisymm (hm ▸ hle x hx) (h0 x hx)
    · right
      refine ⟨maxOf a l, lt_of_le_of_ne (h0 _ hmem) (Ne.symm hm), hmem, hle, by simp [normalize, hm]⟩

theorem normalize_spec {w : List K} (hw : w ≠ []) (h0 : ∀ x ∈ w, 0 ≤ x) :
    (normalize w).length = w.length ∧ (∀ x ∈ normalize w, 0 ≤ x ∧ x ≤ 1) ∧
    (1 ∈ normalize w ∨ ∀ x ∈ normalize w, x = 0) ∧
    ∀ (i j : Nat) (x y x' y' : K), w[i]? = some x → w[j]? = some y → (normalize w)[i]? = some x' →
      (normalize w)[j]? = some y' → x ≤ y → x' ≤ y' := by
  rcases normalize_eq hw h0 with ⟨h1, h2⟩ | ⟨m, hm, hmem, hle, h1⟩
  · rw [h1]
    refine ⟨rfl, fun x hx => by rw [h2 x hx]; exact ⟨le_refl _, zero_le_one⟩, Or.inr h2, ?_⟩
    intro i j x y x' y' hx hy hx' hy' hxy
    rw [hx] at hx'; rw [hy] at hy'
    simp only [Option.some.injEq] at hx' hy'
    subst hx'; subst hy'; exact hxy
  · rw [h1]
    refine ⟨by simp, ?_, Or.inl ?_, ?_⟩
    · intro x hx
      simp only [List.mem_map] at hx
      obtain ⟨y, hy, rfl⟩ := hx
      exact ⟨div_nonneg (h0 y hy) hm.le, (div_le_one hm).2 (hle y hy)⟩
    · exact List.mem_map.2 ⟨m, hmem, div_self hm.ne'⟩
    · intro i j x y x' y' hx hy hx' hy' hxy
      simp only [List.getElem?_map, hx, hy, Option.map_some, Option.some.injEq] at hx' hy'
      subst hx'; subst hy'
      exact div_le_div_of_nonneg_right hxy hm.le

end

section

variable {P : Type} [Sub P]

theorem cylinderSpeeds_ne {norm : P → ℝ} {radius : ℝ} {points : List (P × ℝ)} {p : P × ℝ} (hp : p ∈ points)
    (hn : norm (p.1 - p.1) ≤ radius) : cylinderSpeeds norm radius points p.1 ≠ [] := by
  intro h
  simp only [cylinderSpeeds, List.map_eq_nil_iff, List.filter_eq_nil_iff, decide_eq_true_eq] at h
  exact h p hp hn

theorem meanRaw_some {norm : P → ℝ} {radius : ℝ} {points : List (P × ℝ)} {p : P × ℝ} (hp : p ∈ points)
    (hn : norm (p.1 - p.1) ≤ radius) : ∃ x, meanRaw norm radius points p = some x ∧ 0 ≤ x := by
  have h := cylinderSpeeds_ne hp hn
  simp only [meanRaw, stdOr1, meanOf, h, if_false]
  split
  · rename_i s m hs hm
    refine ⟨_, rfl, div_nonneg (abs_nonneg _) ?_⟩
    split at hs <;> simp only [Option.some.injEq] at hs <;> subst hs
    · exact zero_le_one
    · exact Real.sqrt_nonneg _
  · rename_i hno
    exfalso
    by_cases hs : Real.sqrt (((cylinderSpeeds norm radius points p.1).map fun x =>
        (x - (cylinderSpeeds norm radius points p.1).sum / (cylinderSpeeds norm radius points p.1).length) ^ 2).sum /
          (cylinderSpeeds norm radius points p.1).length) = 0
    · exact hno 1 _ (by simp [hs]) rfl
    · exact hno _ _ (by rw [if_neg hs]) rfl

theorem mapM_some {α β : Type} {f : α → Option β} {Q : β → Prop} {l : List α}
    (h : ∀ a ∈ l, ∃ b, f a = some b ∧ Q b) :
    ∃ r, l.mapM f = some r ∧ r.length = l.length ∧ (∀ b ∈ r, Q b) ∧
      ∀ (i : Nat) (a : α), l[i]? = some a → r[i]? = f a := by
  induction l with
  | nil => exact ⟨[], rfl, rfl, by simp, by simp⟩
  | cons a l ih =>
    obtain ⟨b, hb, hq⟩ := h a (by simp)
    obtain ⟨r, h1, h2, h3, h4⟩ := ih (fun a ha => h a (by simp [ha]))
    refine ⟨b :: r, by simp [List.mapM_cons, hb, h1], by simp [h2], ?_, ?_⟩
    · intro c hc
      simp only [List.mem_cons] at hc
      rcases hc with rfl | hc
      · exact hq
      · exact h3 c hc
    · intro i x hx
      cases i with
      | zero => simp at hx; subst hx; simp [hb]
      | succ i => simp at hx; simpa using h4 i x hx

end

end Verif.Weigher
