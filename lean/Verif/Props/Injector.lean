import Mathlib.Data.Rat.Defs
import Mathlib.Algebra.Order.Ring.Rat
import Mathlib.Tactic.Ring
import Mathlib.Tactic.FieldSimp
import Verif.Model.Injector
import Verif.Model.WeightedPoints
import Verif.Model.Val

/-!
# Property C28: the zero injector
-/

namespace Verif.Injector

variable {K : Type} [Field K] [LinearOrder K] [IsStrictOrderedRing K]

/-- The wind speeds `ws` are evenly spread between `a` and `b`: there are `n` of them, they start with `a`, end with
`b` (if there is more than one) and consecutive ones always differ by the same amount. -/
def EvenlySpread (a b : K) (n : Nat) (ws : List K) : Prop :=
  ws.length = n ∧ (0 < n → ws[0]? = some a) ∧ (1 < n → ws[n - 1]? = some b) ∧
    ∃ d, ∀ (i : Nat) (x y : K), ws[i]? = some x → ws[i + 1]? = some y → y - x = d

theorem linspace_evenly (a b : K) (n : Nat) : EvenlySpread a b n (linspace a b n) := by
  unfold linspace EvenlySpread
  by_cases h : n = 1
  · subst h
    refine ⟨rfl, by simp, by simp, 0, ?_⟩
    intro i x y _ hy
    simp at hy
  · rw [if_neg h]
    refine ⟨by simp, ?_, ?_, (b - a) / ((n : K) - 1), ?_⟩
    · intro h0; simp [h0]
    · intro h1
      have hn : ((n : K) - 1) ≠ 0 := by
        have : (1 : K) < n := by exact_mod_cast h1
        exact ne_of_gt (sub_pos.2 this)
      have hlt : n - 1 < n := by omega
      have hc : ((n - 1 : Nat) : K) = (n : K) - 1 := by rw [Nat.cast_sub h1.le]; simp
      simp only [List.getElem?_map, List.getElem?_range hlt, Option.map_some, hc, Option.some.injEq]
      field_simp
      ring
    · intro i x y hx hy
      simp only [List.getElem?_map, Option.map_eq_some_iff] at hx hy
      obtain ⟨j, hj, rfl⟩ := hx
      obtain ⟨k, hk, rfl⟩ := hy
      obtain ⟨h1, rfl⟩ := List.getElem?_eq_some_iff.1 hj
      obtain ⟨h2, rfl⟩ := List.getElem?_eq_some_iff.1 hk
      simp only [List.getElem_range]
      push_cast
      ring

/-- **C28.** For a non-empty array with three columns `ZeroInjector(n)` creates, for wind speeds evenly spread between
the smallest and the largest given one, `n` points with wind angle 0 and `n` points with wind angle 360, all with boat
speed 0 and weight 1. -/
theorem C28_inject (n : Nat) {rows : List (List K)} (hne : rows ≠ []) :
    ∃ a b ws, (∃ r ∈ rows, r.getD 0 0 = a) ∧ (∃ r ∈ rows, r.getD 0 0 = b) ∧
      (∀ r ∈ rows, a ≤ r.getD 0 0 ∧ r.getD 0 0 ≤ b) ∧ EvenlySpread a b n ws ∧
      inject n (.array 3 rows) = .ok ⟨ws.map (fun x => [x, 0, 0]) ++ ws.map (fun x => [x, 360, 0]),
        List.replicate (2 * n) 1, 2 * n⟩ := by
  have hne' : (rows.map fun r => r.getD 0 0) ≠ [] := by simpa using hne
  obtain ⟨a, ha⟩ : ∃ a, (rows.map fun r => r.getD 0 0).min? = some a := by
    cases h : (rows.map fun r => r.getD 0 0).min? with
    | none => rw [List.min?_eq_none_iff] at h; exact absurd h hne'
    | some a => exact ⟨a, rfl⟩
  obtain ⟨b, hb⟩ : ∃ b, (rows.map fun r => r.getD 0 0).max? = some b := by
    cases h : (rows.map fun r => r.getD 0 0).max? with
    | none => rw [List.max?_eq_none_iff] at h; exact absurd h hne'
    | some a => exact ⟨a, rfl⟩
  refine ⟨a, b, linspace a b n, ?_, ?_, ?_, linspace_evenly a b n, ?_⟩
  · simpa using List.min?_mem ha
  · simpa using List.max?_mem hb
  · intro r hr
    have hm : r.getD 0 0 ∈ rows.map fun r => r.getD 0 0 := List.mem_map_of_mem hr
    exact ⟨(List.min?_eq_some_iff.1 ha).2 _ hm, (List.max?_eq_some_iff.1 hb).2 _ hm⟩
  · have h0 : ¬ ((n : Int) < 0) := by omega
    have h1 : (2 * (n : Int)).toNat = 2 * n := by omega
    simp only [inject, ha, hb, h0, h1, ne_eq, not_true_eq_false, if_false, Int.toNat_natCast]

/-- **C28.** The call raises `TypeError` for anything but an array, and `ValueError` for arrays of another shape, for
empty arrays and for negative numbers. -/
theorem C28_raises (n : Int) :
    inject n (.notArray : Input K) = .error .typeError ∧ inject n (.otherDim : Input K) = .error .valueError ∧
    (∀ w rows, w ≠ 3 → inject n (.array w rows : Input K) = .error .valueError) ∧
    inject n (.array 3 [] : Input K) = .error .valueError ∧
    (n < 0 → ∀ rows, inject n (.array 3 rows : Input K) = .error .valueError) := by
  refine ⟨rfl, rfl, fun w rows h => by simp [inject, h], rfl, fun h rows => ?_⟩
  simp only [inject, ne_eq, not_true_eq_false, if_false, h, if_true]
  split <;> rfl

/-- **C28.** Appending the new points (as the pipeline does) leaves the given points and their weights in place. -/
theorem C28_append {rows : List (List Rat)} (hw : ∀ r ∈ rows, r.length = 3) (weights : List Rat) (n : Nat)
    (hne : rows ≠ []) :
    ∃ inj, inject n (.array 3 rows) = .ok inj ∧
      (WPoints.extend (κ := String) (τ := Ty) ⟨.array (rows.map (·.map Val.float)), weights⟩
        ⟨.array (inj.data.map (·.map Val.float)), inj.weights⟩) =
      .ok ⟨.array (rows.map (·.map Val.float) ++ inj.data.map (·.map Val.float)), weights ++ inj.weights⟩ := by
  obtain ⟨a, b, ws, -, -, -, -, h⟩ := C28_inject (K := Rat) n hne
  refine ⟨_, h, ?_⟩
  have hs : WPoints.sameWidth (rows.map (·.map Val.float))
      ((ws.map (fun x => [x, 0, 0]) ++ ws.map (fun x => [x, 360, 0])).map (·.map Val.float)) = true := by
    cases rows with
    | nil => exact absurd rfl hne
    | cons r rs =>
      have := hw r (by simp)
      cases ws <;> simp [WPoints.sameWidth, this]
  simp only [WPoints.extend, hs, if_true]

example : inject 3 (.array 3 [[10, 90, 5], [4, 20, 3]] : Input Rat) =
    .ok ⟨[[4, 0, 0], [7, 0, 0], [10, 0, 0], [4, 360, 0], [7, 360, 0], [10, 360, 0]], [1, 1, 1, 1, 1, 1], 6⟩ := by
  decide +kernel

end Verif.Injector
