import Verif.Lemmas.Table
import Verif.Model.TableSlices
import Verif.Props.TableCall
import Verif.Props.Diagram

/-!
# Property C58: slices of tables
-/

set_option linter.unusedSectionVars false

namespace Verif.Table

variable {K : Type} [Field K] [LinearOrder K] [IsStrictOrderedRing K] [FloorRing K]

theorem sliceAt_spec (interpolate : List ((K × K) × K) → K × K → Except PyErr K) (nbh : K × K → Bool) {t : Table K}
    (h : WF t) (asList : Bool) {w : K} {s : List ((K × K) × K)}
    (hs : sliceAt interpolate nbh asList t w = .ok s) :
    s.map Prod.fst = t.wa.map (fun a => (w, a)) ∧ ∀ p ∈ s, call interpolate nbh t p.1.1 p.1.2 = .ok p.2 := by
  unfold sliceAt at hs
  split at hs
  · rename_i hw
    split at hs
    · cases hs
    · cases hs
      constructor
      · rw [List.map_map]
        have : (Prod.fst ∘ fun p : K × List K => ((w, p.1), p.2.getD (t.ws.idxOf w) 0)) = (fun a => (w, a)) ∘ Prod.fst :=
          rfl
        rw [this, ← List.map_map, List.map_fst_zip (by rw [h.rows])]
      · intro p hp
        obtain ⟨q, hq, rfl⟩ := List.mem_map.1 hp
        obtain ⟨i, hi, hq⟩ := List.getElem_of_mem hq
        rw [List.length_zip] at hi
        have hi1 : i < t.wa.length := by omega
        have hi2 : i < t.bsps.length := by omega
        rw [List.getElem_zip] at hq
        have hj : t.ws.idxOf w < t.ws.length := List.idxOf_lt_length_of_mem hw
        have hc : t.ws.idxOf w < t.bsps[i].length := by rw [h.cols _ (List.getElem_mem _)]; exact hj
        have := C52_on_grid interpolate nbh h (i := i) (j := t.ws.idxOf w) (w := w) (a := t.wa[i])
          (x := t.bsps[i][t.ws.idxOf w]) (r := t.bsps[i])
          (by rw [List.getElem?_eq_getElem hj, List.getElem_idxOf hj]) (List.getElem?_eq_getElem hi1)
          (List.getElem?_eq_getElem hi2) (List.getElem?_eq_getElem hc) 0
        subst hq
        simp only [Int.cast_zero, mul_zero, add_zero] at this
        rw [this]
        simp [hc]
  · exact (Diagram.evalWinds_spec _ _).1 s hs

/-- **C58.** Every slice consists of the wind angles of the table in order, together with the values of the table at
the wind speed of the slice and these angles. -/
theorem C58_slices (interpolate : List ((K × K) × K) → K × K → Except PyErr K) (nbh : K × K → Bool) {t : Table K}
    (h : WF t) (asList : Bool) {ws : List K} {r : List (List ((K × K) × K))}
    (hr : wsToSlices interpolate nbh asList t ws = .ok r) :
    List.Forall₂ (fun w s => s.map Prod.fst = t.wa.map (fun a => (w, a)) ∧
      ∀ p ∈ s, call interpolate nbh t p.1.1 p.1.2 = .ok p.2) ws r := by
  induction ws generalizing r with
  | nil => cases hr; exact .nil
  | cons w ws ih =>
    unfold wsToSlices at hr
    split at hr
    · cases hr
    · rename_i s hs
      split at hr
      · cases hr
      · rename_i r' hr'
        cases hr
        exact .cons (sliceAt_spec interpolate nbh h asList hs) (ih hr')

/-- **C58.** For wind speeds of a table with given boat speeds the slices exist, whatever the interpolator. -/
theorem C58_defined_partial (interpolate : List ((K × K) × K) → K × K → Except PyErr K) (nbh : K × K → Bool)
    (t : Table K) {ws : List K} (hws : ∀ w ∈ ws, w ∈ t.ws) : ∃ r, wsToSlices interpolate nbh false t ws = .ok r := by
  induction ws with
  | nil => exact ⟨[], rfl⟩
  | cons w ws ih =>
    obtain ⟨r, hr⟩ := ih fun x hx => hws x (List.mem_cons_of_mem _ hx)
    have hw := hws w List.mem_cons_self
    exact ⟨_ :: r, by simp only [wsToSlices, sliceAt, if_pos hw, hr]; rfl⟩

/-- **C58** is false for tables made without boat speeds: slices at their own wind speeds, given as python numbers,
raise `IndexError`. -/
theorem C58_zero_table_false (interpolate : List ((K × K) × K) → K × K → Except PyErr K) (nbh : K × K → Bool)
    {t : Table K} {w : K} (hw : w ∈ t.ws) (ws : List K) :
    wsToSlices interpolate nbh true t (w :: ws) = .error .indexError := by
  simp [wsToSlices, sliceAt, hw]

/-- **C58.** At other wind speeds slices exist if the interpolator gives a value at all wind angles. -/
theorem C58_between (interpolate : List ((K × K) × K) → K × K → Except PyErr K) (nbh : K × K → Bool) (asList : Bool)
    (t : Table K) {w : K} (hw : w ∉ t.ws) (hi : ∀ a ∈ t.wa, ∃ b, interpolate (t.points.filter fun p =>
      nbh (p.1.1 - w, p.1.2 - a)) (w, a) = .ok b) : ∃ s, wsToSlices interpolate nbh asList t [w] = .ok [s] := by
  obtain ⟨r, hr⟩ := (Diagram.evalWinds_spec (call interpolate nbh t) (t.wa.map fun a => (w, a))).2 (by
    intro p hp
    obtain ⟨a, ha, rfl⟩ := List.mem_map.1 hp
    obtain ⟨b, hb⟩ := hi a ha
    refine ⟨b, ?_⟩
    simp only [call, get_missing (Or.inl hw), hb])
  exact ⟨r, by simp only [wsToSlices, sliceAt, if_neg hw, hr]⟩

example : wsToSlices (K := ℚ) (fun pts _ => .ok ((pts.map Prod.snd).sum / (pts.length : ℚ))) (fun _ => true) false
    (⟨[2, 4], [10, 20], [[1, 2], [3, 4]]⟩ : Table ℚ) [4, 3] =
    .ok [[((4, 10), 2), ((4, 20), 4)], [((3, 10), 5 / 2), ((3, 20), 5 / 2)]] := by decide +kernel

example : wsToSlices (fun _ _ => .ok 0) (fun _ => true) true
    (⟨[2, 4], [10, 20], [[0, 0], [0, 0]]⟩ : Table ℚ) [4] = .error .indexError := by decide +kernel

end Verif.Table
