import Verif.Lemmas.Table
import Verif.Model.TableCall
import Verif.Props.Interpolator

/-!
# Property C52: evaluating tables
-/

set_option linter.unusedSectionVars false

namespace Verif.Table

open Verif.Interp

variable {K : Type} [Field K] [LinearOrder K] [IsStrictOrderedRing K] [FloorRing K]

/-- **C52.** At the winds of the table the entry is returned, whatever the interpolator, the neighbourhood and the
representation of the wind angle. -/
theorem C52_on_grid (interpolate : List ((K × K) × K) → K × K → Except PyErr K) (nbh : K × K → Bool) {t : Table K}
    (h : WF t) {i j : Nat} {w a x : K} {r : List K} (hw : t.ws[j]? = some w) (ha : t.wa[i]? = some a)
    (hr : t.bsps[i]? = some r) (hx : r[j]? = some x) (k : Int) :
    call interpolate nbh t w (a + 360 * k) = .ok x := by
  have ham := List.mem_of_getElem? ha
  have : get t w (a + 360 * k) = .ok x := by
    refine get_entry h hw (i := i) ?_ hr hx
    rw [pmod_add_mul _ (by norm_num), pmod_of_mem (h.wa_nonneg a ham) (h.wa_lt a ham)]
    exact ha
  simp [call, this]

/-- **C52.** At all other winds the interpolator is applied to the points of the table in the neighbourhood. -/
theorem C52_off_grid (interpolate : List ((K × K) × K) → K × K → Except PyErr K) (nbh : K × K → Bool) (t : Table K)
    {w a : K} (h : w ∉ t.ws ∨ pmod a 360 ∉ t.wa) :
    ∃ pts : List ((K × K) × K), (∀ p, p ∈ pts ↔ p ∈ t.points ∧ nbh (p.1.1 - w, p.1.2 - a) = true) ∧
      call interpolate nbh t w a = interpolate pts (w, a) := by
  refine ⟨t.points.filter fun p => nbh (p.1.1 - w, p.1.2 - a), fun p => by simp, ?_⟩
  simp only [call, get_missing h]

theorem mem_points_fst {t : Table K} {p : (K × K) × K} (h : p ∈ t.points) : p.1.1 ∈ t.ws ∧ p.1.2 ∈ t.wa := by
  obtain ⟨q, hq, h⟩ := List.mem_flatMap.1 h
  obtain ⟨s, hs, rfl⟩ := List.mem_map.1 h
  exact ⟨(List.of_mem_zip hs).1, (List.of_mem_zip hq).1⟩

/-- **C52.** With the default arguments, the value at a wind which is not in the table lies between the smallest and
the largest boat speed of the points in the neighbourhood, if there are any. -/
theorem C52_default_in_range {t : Table ℝ} (ht : ∀ a ∈ t.wa, 0 ≤ a ∧ a < 360) {w a : ℝ}
    (h : w ∉ t.ws ∨ pmod a 360 ∉ t.wa) (hne : ∃ p ∈ t.points, scaledEuclidean (p.1.1 - w, p.1.2 - a) ≤ 1) :
    ∃ v, call defaultInterpolate defaultNbh t w a = .ok v ∧
      ∀ lo hi, (∀ p ∈ t.points, scaledEuclidean (p.1.1 - w, p.1.2 - a) ≤ 1 → lo ≤ p.2 ∧ p.2 ≤ hi) →
        lo ≤ v ∧ v ≤ hi := by
  obtain ⟨pts, hpts, hcall⟩ := C52_off_grid defaultInterpolate defaultNbh t h
  have hpts' : ∀ p, p ∈ pts ↔ p ∈ t.points ∧ scaledEuclidean (p.1.1 - w, p.1.2 - a) ≤ 1 := by
    intro p
    rw [hpts, defaultNbh, decide_eq_true_iff]
  obtain ⟨p, hp, hd⟩ := hne
  have hn : NotStored pts (w, a) := by
    intro q hq he
    have hm := mem_points_fst ((hpts' q).1 hq).1
    rw [he] at hm
    rcases h with h | h
    · exact h hm.1
    · exact h (by rw [pmod_of_mem (ht a hm.2).1 (ht a hm.2).2]; exact hm.2)
  obtain ⟨v, h1, h2⟩ := C21_in_range isDist_scaledEuclidean (C21_gauss_positive 50)
    (List.ne_nil_of_mem ((hpts' p).2 ⟨hp, hd⟩)) (weights := List.replicate pts.length 1) (by simp) hn
  refine ⟨v, hcall.trans h1, fun lo hi hb => h2 lo hi fun q hq => ?_⟩
  have := (hpts' q).1 hq
  exact hb q this.1 this.2

/-- **C52.** The value is periodic in the wind angle with period 360 for the winds of the table. -/
theorem C52_periodic_partial (interpolate : List ((K × K) × K) → K × K → Except PyErr K) (nbh : K × K → Bool)
    {t : Table K} (h : WF t) {w a : K} (hw : w ∈ t.ws) (ha : pmod a 360 ∈ t.wa) (k : Int) :
    call interpolate nbh t w (a + 360 * k) = call interpolate nbh t w a := by
  obtain ⟨j, hj, hw⟩ := List.getElem_of_mem hw
  obtain ⟨i, hi, ha⟩ := List.getElem_of_mem ha
  have hr : i < t.bsps.length := by rw [h.rows]; exact hi
  have hx : j < t.bsps[i].length := by rw [h.cols _ (List.getElem_mem _)]; exact hj
  have key : ∀ b, pmod b 360 = pmod a 360 → call interpolate nbh t w b = .ok t.bsps[i][j] := by
    intro b hb
    have : get t w b = .ok t.bsps[i][j] := by
      refine get_entry h (j := j) (i := i) (by rw [List.getElem?_eq_getElem hj, hw]) ?_ (List.getElem?_eq_getElem hr)
        (List.getElem?_eq_getElem hx)
      rw [hb, List.getElem?_eq_getElem hi, ha]
    simp [call, this]
  rw [key _ (pmod_add_mul a (by norm_num) k), key a rfl]

/-- **C52** is false for other winds: the table with the only entry 5 at wind speed 10 and wind angle 0 gives 5 at wind
speed 11 and wind angle 350, and raises `ZeroDivisionError` at wind angle 710. -/
theorem C52_periodic_false :
    call defaultInterpolate defaultNbh ⟨[10], [0], [[5]]⟩ 11 350 = .ok 5 ∧
    call defaultInterpolate defaultNbh ⟨[10], [0], [[5]]⟩ 11 (350 + 360) = .error .zeroDivisionError := by
  have hw : (11 : ℝ) ∉ [(10 : ℝ)] := by norm_num
  constructor
  · have hd : scaledEuclidean (10 - 11, 0 - 350) ≤ 1 := by
      unfold scaledEuclidean
      rw [Real.sqrt_le_left zero_le_one]
      norm_num
    obtain ⟨v, h1, h2⟩ := C52_default_in_range (t := ⟨[10], [0], [[5]]⟩) (w := 11) (a := 350) (by simp)
      (Or.inl hw) ⟨((10, 0), 5), by simp [points], hd⟩
    rw [h1]
    have := h2 5 5 (by simp [points])
    rw [le_antisymm this.2 this.1]
  · obtain ⟨pts, hpts, hcall⟩ := C52_off_grid defaultInterpolate defaultNbh (⟨[10], [0], [[5]]⟩ : Table ℝ) (w := 11)
      (a := 350 + 360) (Or.inl hw)
    have : pts = [] := by
      rw [List.eq_nil_iff_forall_not_mem]
      intro p hp
      have hp := (hpts p).1 hp
      rw [defaultNbh, decide_eq_true_iff] at hp
      have e : p = ((10, 0), 5) := by simpa [points] using hp.1
      have hd := hp.2
      rw [e] at hd
      unfold scaledEuclidean at hd
      rw [Real.sqrt_le_left zero_le_one] at hd
      norm_num at hd
    rw [hcall, this]
    simp [defaultInterpolate, arith, firstAtZero, average, dists]

/-- A wind which is not in the table, with two table points in the neighbourhood. -/
example : ∃ v, call defaultInterpolate defaultNbh ⟨[10, 12], [90], [[5, 6]]⟩ 11 90 = .ok v ∧ 5 ≤ v ∧ v ≤ 6 := by
  have hd : scaledEuclidean (10 - 11, 90 - 90) ≤ 1 := by
    unfold scaledEuclidean
    rw [Real.sqrt_le_left zero_le_one]
    norm_num
  obtain ⟨v, h1, h2⟩ := C52_default_in_range (t := ⟨[10, 12], [90], [[5, 6]]⟩) (w := 11) (a := 90)
    (by intro a ha; simp at ha; rw [ha]; norm_num) (Or.inl (by norm_num)) ⟨((10, 90), 5), by simp [points], hd⟩
  exact ⟨v, h1, h2 5 6 (by intro p hp; simp [points] at hp; rcases hp with rfl | rfl <;> norm_num)⟩

example : WF (⟨[10, 12], [90], [[5, 6]]⟩ : Table Rat) := by
  refine ⟨?_, ?_, ?_, ?_, ?_, ?_, ?_, ?_, ?_⟩ <;> simp <;> norm_num

end Verif.Table
