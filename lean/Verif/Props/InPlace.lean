import Mathlib.Tactic.Linarith
import Mathlib.Tactic.NormNum
import Verif.Model.InPlace
import Verif.Lemmas.Mod

set_option linter.unusedSectionVars false

/-! # C84: arguments and step sizes -/

namespace Verif

open Verif.Interp

variable {K : Type} [Field K] [LinearOrder K] [IsStrictOrderedRing K] [FloorRing K]

theorem map_pmod_eq_iff {l : List K} : (l.map fun x => pmod x 360) = l ↔ ∀ a ∈ l, 0 ≤ a ∧ a < 360 := by
  constructor
  · intro h a ha
    have h' : l.map (fun x => pmod x 360) = l.map id := by rw [h]; simp
    have := List.map_inj_left.1 h' a ha
    simp only [id] at this
    rw [← this]
    exact ⟨pmod_nonneg a (by norm_num), pmod_lt a (by norm_num)⟩
  · intro h
    conv_rhs => rw [← List.map_id l]
    apply List.map_congr_left
    intro a ha
    exact pmod_of_mem (h a ha).1 (h a ha).2

/-- **C84** (partial: if all angles are from 0 to 360). Creating a table leaves the array of wind angles unchanged, and so
does looking up. -/
theorem C84_table_partial (t : Table K) (ws : List K) {waArray : List K} (bsps : List (List K))
    (h : ∀ a ∈ waArray, 0 ≤ a ∧ a < 360) :
    (Table.initArray ws waArray bsps).2 = waArray ∧ (Table.waIndicesArray t waArray).2 = waArray := by
  have hm := map_pmod_eq_iff.2 h
  constructor
  · unfold Table.initArray Table.buildWaArray
    cases Table.buildWs (.values ws) with
    | error e => rfl
    | ok l =>
      simp only
      split
      · rfl
      · exact hm
  · exact hm

/-- **C84 is false** for tables: an array of wind angles is changed if an angle is not from 0 to 360, both by creating a
table and by looking up. -/
theorem C84_table_false (t : Table K) {ws : List K} (hws : ws ≠ []) (h0 : ∀ w ∈ ws, 0 ≤ w) {waArray : List K}
    (bsps : List (List K)) (h : ∃ a ∈ waArray, a < 0 ∨ 360 ≤ a) :
    (Table.initArray ws waArray bsps).2 ≠ waArray ∧ (Table.waIndicesArray t waArray).2 ≠ waArray := by
  have hne : (waArray.map fun x => pmod x 360) ≠ waArray := by
    intro he
    obtain ⟨a, ha, h1⟩ := h
    obtain ⟨h2, h3⟩ := map_pmod_eq_iff.1 he a ha
    rcases h1 with h1 | h1
    · exact absurd h2 (not_le.2 h1)
    · exact absurd h3 (not_lt.2 h1)
  refine ⟨?_, hne⟩
  have hb : Table.buildWs (.values ws) = .ok ws := by
    have e1 : ws.isEmpty = false := by simpa using hws
    have e2 : (ws.any fun x => decide (x < 0)) = false := by
      rw [List.any_eq_false]; intro w hw; simpa using h0 w hw
    simp only [Table.buildWs, e1, e2, Bool.false_eq_true, if_false]
  have e3 : waArray.isEmpty = false := by
    obtain ⟨a, ha, -⟩ := h
    cases waArray with
    | nil => simp at ha
    | cons _ _ => rfl
  simp only [Table.initArray, hb, Table.buildWaArray, e3, Bool.false_eq_true, if_false]
  exact hne

example : (Table.initArray [(6 : ℚ)] [355, 360] [[1], [2]]).2 = [355, 0] := by decide +kernel

/-- **C84.** Creating a point cloud leaves the array of points unchanged. -/
theorem C84_cloud (points : List (Pt K)) : (Cloud.initArray points).2 = points := rfl

/-- **C84 is false** for adding points to a point cloud: the array of new points is changed if an angle is not from 0 to
360. The wind speeds and boat speeds are kept. -/
theorem C84_add_points_false (cloud : List (Pt K)) {new : List (Pt K)} (hpos : ∀ p ∈ new, 0 < p.1.1)
    (h : ∃ p ∈ new, p.1.2 < 0 ∨ 360 ≤ p.1.2) :
    (Cloud.addPointsArray cloud new).2 ≠ new ∧
      (Cloud.addPointsArray cloud new).2.map (fun p => (p.1.1, p.2)) = new.map fun p => (p.1.1, p.2) := by
  have hany : (new.any fun p => decide (p.1.1 ≤ 0)) = false := by
    rw [List.any_eq_false]; intro p hp; simpa using hpos p hp
  simp only [Cloud.addPointsArray, hany, Bool.false_eq_true, if_false]
  constructor
  · intro he
    have h2 : new.map (fun p => pmod p.1.2 360) = new.map fun p => p.1.2 := by
      conv_rhs => rw [← he]
      rw [List.map_map]
      rfl
    obtain ⟨p, hp, h1⟩ := h
    have := List.map_inj_left.1 h2 p hp
    have a1 := pmod_nonneg p.1.2 (show (0 : K) < 360 by norm_num)
    have a2 := pmod_lt p.1.2 (show (0 : K) < 360 by norm_num)
    rw [this] at a1 a2
    rcases h1 with h1 | h1
    · exact absurd a1 (not_le.2 h1)
    · exact absurd a2 (not_lt.2 h1)
  · rw [List.map_map]; rfl

example : (Cloud.addPointsArray [] [(((6 : ℚ), (-10 : ℚ)), (3 : ℚ))]).2 = [((6, 350), 3)] := by decide +kernel

/-! ## Step sizes -/

theorem mem_arange {x m : K} (hx : 0 < x) (w : K) :
    w ∈ Table.arange x m x ↔ ∃ k : Nat, 1 ≤ k ∧ w = (k : K) * x ∧ w < m := by
  unfold Table.arange
  simp only [List.mem_map, List.mem_range]
  have key : ∀ i : Nat, i < ⌈(m - x) / x⌉.toNat ↔ x + (i : K) * x < m := by
    intro i
    rw [Int.lt_toNat, Int.lt_ceil, Int.cast_natCast, lt_div_iff₀ hx]
    constructor <;> intro h <;> linarith
  constructor
  · rintro ⟨i, hi, rfl⟩
    refine ⟨i + 1, by omega, by push_cast; ring, (key i).1 hi⟩
  · rintro ⟨k, hk, rfl, h⟩
    obtain ⟨i, rfl⟩ := Nat.exists_eq_add_of_le' hk
    refine ⟨i, (key i).2 ?_, by push_cast; ring⟩
    push_cast at h
    linarith

theorem arange_sorted {x m : K} (hx : 0 < x) : (Table.arange x m x).Pairwise (· < ·) := by
  unfold Table.arange
  rw [List.pairwise_map]
  refine List.pairwise_lt_range.imp ?_
  intro a b hab
  have : (a : K) * x < (b : K) * x := mul_lt_mul_of_pos_right (by exact_mod_cast hab) hx
  linarith

/-- **C85.** A step size gives all positive multiples of it below 40 (wind speeds) resp. 360 (wind angles), in increasing
order. -/
theorem C85_step {x : K} (hx : 0 < x) :
    (x ≤ 40 → ∃ ws, Table.buildWs (.step x) = .ok ws ∧ ws.Pairwise (· < ·) ∧
      ∀ w, w ∈ ws ↔ ∃ k : Nat, 1 ≤ k ∧ w = (k : K) * x ∧ w < 40) ∧
    (x ≤ 360 → ∃ wa, Table.buildWa (.step x) = .ok wa ∧ wa.Pairwise (· < ·) ∧
      ∀ a, a ∈ wa ↔ ∃ k : Nat, 1 ≤ k ∧ a = (k : K) * x ∧ a < 360) := by
  constructor
  · intro h
    exact ⟨_, by simp [Table.buildWs, not_le.2 hx, not_lt.2 h], arange_sorted hx, mem_arange hx⟩
  · intro h
    exact ⟨_, by simp [Table.buildWa, not_le.2 hx, not_lt.2 h], arange_sorted hx, mem_arange hx⟩

/-- **C85.** Step sizes that are not positive or larger than the largest value raise `ValueError`. -/
theorem C85_invalid {x : K} : (x ≤ 0 ∨ 40 < x → Table.buildWs (.step x) = .error .valueError) ∧
    (x ≤ 0 ∨ 360 < x → Table.buildWa (.step x) = .error .valueError) := by
  constructor
  · intro h
    by_cases h0 : x ≤ 0
    · simp [Table.buildWs, h0]
    · simp [Table.buildWs, h0, h.resolve_left h0]
  · intro h
    by_cases h0 : x ≤ 0
    · simp [Table.buildWa, h0]
    · simp [Table.buildWa, h0, h.resolve_left h0]

/-- **C85 is false**: the step sizes 2 and 5 of the default resolutions do not give the default resolutions; 40 knots and 0
degrees are missing. -/
theorem C85_default_false : ∃ ws ws' wa wa' : List ℚ, Table.buildWs (.step 2) = .ok ws ∧
    Table.buildWs .standard = .ok ws' ∧ Table.buildWa (.step 5) = .ok wa ∧ Table.buildWa .standard = .ok wa' ∧
      40 ∈ ws' ∧ 40 ∉ ws ∧ 0 ∈ wa' ∧ 0 ∉ wa := by
  refine ⟨_, _, _, _, rfl, rfl, rfl, rfl, ?_⟩
  decide +kernel

/-- **C85 is false** for the largest allowed step sizes: they are accepted, but the table has no wind speeds resp. no wind
angles. -/
theorem C85_empty_false : ∃ t t' : Table ℚ, Table.init (.step 40) .standard none = .ok t ∧ t.ws = [] ∧
    Table.init .standard (.step 360) none = .ok t' ∧ t'.wa = [] := by
  refine ⟨_, _, rfl, ?_, rfl, ?_⟩
  · decide +kernel
  · decide +kernel

example : Table.buildWs (.step (15 : ℚ)) = .ok [15, 30] := by decide +kernel

end Verif
