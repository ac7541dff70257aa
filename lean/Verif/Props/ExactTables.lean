import Verif.Props.TableText
import Verif.Props.TableSlices
import Verif.Props.Pointcloud

/-!
# Exact conditions for properties of tables and point clouds: C35, C37, C53, C58
-/

set_option linter.unusedSectionVars false

namespace Verif.Table

variable {K : Type} [Field K] [LinearOrder K] [IsStrictOrderedRing K] [FloorRing K]

/-- What the printed long table shows. -/
theorem longTable_shown (t : Table K) {wind : List K} (hl : wind.length = 10) {w a x : K} (h : Shows (longTable t wind) w a x) :
    ∃ i k : Nat, t.wa[i]? = some a ∧ wind[k]? = some w ∧ x = (t.bsps.getD i []).getD k 0 := by
  match wind, hl with
  | [w0, w1, w2, w3, w4, w5, w6, w7, w8, w9], _ =>
    obtain ⟨head, i, k, row, h0, hrow, hk, ha, hx⟩ := h
    simp only [longTable, List.cons_append, List.nil_append, List.getElem?_cons_zero, Option.some.injEq] at h0
    subst h0
    simp only [longTable, List.cons_append, List.nil_append, List.getElem?_cons_succ, List.getElem?_map,
      List.getElem?_zipIdx, Nat.zero_add, Option.map_eq_some_iff] at hrow
    obtain ⟨⟨b, i'⟩, ⟨c, hc, he⟩, rfl⟩ := hrow
    cases he
    simp only [List.getElem?_cons_zero, Option.some.injEq, Tok.angle.injEq] at ha
    subst ha
    have hk12 : k < 12 := by
      by_contra hcon
      have : 12 ≤ k := by omega
      rw [List.getElem?_eq_none (by simpa [withDots, List.zipIdx] using this)] at hk
      simp at hk
    refine ⟨i, if k < 6 then k - 1 else k - 2, hc, ?_, ?_⟩
    · interval_cases k <;> simp [withDots, List.zipIdx] at hk ⊢ <;> exact hk
    · interval_cases k <;> simp [withDots, List.zipIdx] at hk hx ⊢ <;> exact hx.symm

/-- **C35**, exactly: all numbers that are printed are right if and only if the table has at most 15 wind speeds or the boat
speeds number 6 to 10 of each wind angle are the last five. -/
theorem C35_exactly {t : Table K} (h : WF t) :
    (∀ w a x, Shows (str t) w a x → get t w a = .ok x) ↔
      t.ws.length ≤ 15 ∨ ∀ i < t.wa.length, ∀ k < 5,
        (t.bsps.getD i []).getD (5 + k) 0 = (t.bsps.getD i []).getD (t.ws.length - 5 + k) 0 := by
  constructor
  · intro hall
    by_contra hcon
    push Not at hcon
    obtain ⟨hn, i, hi, k, hk, hne⟩ := hcon
    obtain ⟨w, hw, x, y, hs, hg, hxy⟩ := C35_long_false h hn hk (List.getElem?_eq_getElem hi) hne
    have := hall _ _ _ hs
    rw [hg] at this
    exact hxy (Except.ok.inj this).symm
  · intro hor w a x hs
    by_cases hn : t.ws.length ≤ 15
    · exact (C35_short_partial h hn).2 w a x hs
    · have hsame := hor.resolve_left hn
      have hstr : str t = longTable t (t.ws.take 5 ++ t.ws.drop (t.ws.length - 5)) := by simp [str, hn]
      rw [hstr] at hs
      obtain ⟨i, k, ha, hw, rfl⟩ := longTable_shown t (by simp; omega) hs
      by_cases hk : k < 5
      · rw [List.getElem?_append_left (by simp; omega), List.getElem?_take, if_pos hk] at hw
        exact wf_get h hw ha
      · rw [List.getElem?_append_right (by simp; omega), List.getElem?_drop] at hw
        simp only [List.length_take, Nat.min_eq_left (show 5 ≤ t.ws.length by omega)] at hw
        have hlt := (List.getElem?_eq_some_iff.1 hw).1
        have := hsame i (List.getElem?_eq_some_iff.1 ha).1 (k - 5) (by omega)
        rw [show 5 + (k - 5) = k by omega] at this
        rw [this]
        exact wf_get h hw ha

/-- A table with the same boat speeds for all wind speeds is printed correctly, whatever its width. -/
example : (∀ i < 1, ∀ k < 5, ([List.replicate 20 (6 : ℚ)].getD i []).getD (5 + k) 0 =
    ([List.replicate 20 (6 : ℚ)].getD i []).getD (20 - 5 + k) 0) := by decide +kernel

/-- **C58**, exactly: the slices at wind speeds of the table exist if and only if the table was made with boat speeds (or no slice
is wanted). -/
theorem C58_exactly (interpolate : List ((K × K) × K) → K × K → Except PyErr K) (nbh : K × K → Bool) (asList : Bool)
    (t : Table K) {ws : List K} (hws : ∀ w ∈ ws, w ∈ t.ws) :
    (∃ r, wsToSlices interpolate nbh asList t ws = .ok r) ↔ asList = false ∨ ws = [] := by
  cases asList with
  | false => simpa using C58_defined_partial interpolate nbh t hws
  | true =>
    cases ws with
    | nil => simp [wsToSlices]
    | cons w ws =>
      rw [C58_zero_table_false interpolate nbh (hws w (by simp))]
      simp

example : ∀ w ∈ [(4 : ℚ)], w ∈ (⟨[2, 4], [10, 20], [[0, 0], [0, 0]]⟩ : Table ℚ).ws := by decide +kernel

end Verif.Table

namespace Verif.Cloud

open Verif.Interp Verif.Table

variable {K : Type} [Field K] [LinearOrder K] [IsStrictOrderedRing K] [FloorRing K]

/-- **C37**, exactly: a stored point is found if and only if its wind speed is positive. -/
theorem C37_exactly (interpolate : List (Pt K) → List K → K × K → Except PyErr K)
    (nbh : List (K × K) → Except PyErr (List Bool)) {cloud : List (Pt K)} (h : Normal cloud)
    (hd : (cloud.map Prod.fst).Nodup) {ws wa bsp : K} (hp : ((ws, wa), bsp) ∈ cloud) :
    call interpolate nbh cloud ws wa = .ok bsp ↔ 0 < ws := by
  constructor
  · intro hc
    by_contra hcon
    unfold call at hc
    rw [if_pos (not_lt.1 hcon)] at hc
    cases hc
  · intro hws
    simpa using C37_lookup_distinct interpolate nbh h hd hws hp 0

example : ((0, 90), 2) ∈ ([((0, 90), 2), ((4, 90), 3)] : List (Pt ℚ)) := by decide +kernel

/-- **C53**, exactly: a point cloud is read back from the file it was written to if and only if it has points. -/
theorem C53_exactly {print : K → Text} {parse : Text → Except PyErr K} (h : RoundTrip print parse) {cloud : List (Pt K)}
    (hn : Normal cloud) : fromCsv parse (toCsv print cloud) = .ok cloud ↔ cloud ≠ [] := by
  constructor
  · rintro he rfl
    rw [C53_empty_false] at he
    cases he
  · exact fun hne => C53_round_trip h hne hn

example : Normal ([] : List (Pt ℚ)) := by
  intro p hp
  simp at hp

end Verif.Cloud
