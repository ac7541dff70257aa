import Verif.Model.Filter
import Mathlib.Tactic.Linarith
import Mathlib.Tactic.Positivity
import Mathlib.Tactic.Ring
import Mathlib.Algebra.Order.Floor.Ring

/-!
# Lemmas for the filters
-/

set_option linter.unusedSectionVars false

namespace Verif.Filter

variable {K : Type} [Field K] [LinearOrder K] [IsStrictOrderedRing K] [FloorRing K]

/-- The sorted weights. -/
def srt (w : List K) : List K := w.insertionSort (· ≤ ·)

/-- The (fractional) position of the percentile. -/
def pos (w : List K) (p : K) : K := ((w.length : K) - 1) * p / 100

theorem length_srt (w : List K) : (srt w).length = w.length := List.length_insertionSort ..

theorem srt_mono (w : List K) {i j : Nat} (hij : i ≤ j) (hj : j < (srt w).length) :
    (srt w)[i]'(lt_of_le_of_lt hij hj) ≤ (srt w)[j] := by
  have h := (List.pairwise_insertionSort (· ≤ ·) w)
  rcases eq_or_lt_of_le hij with rfl | hlt
  · exact le_refl _
  · exact List.pairwise_iff_getElem.1 h i j _ hj hlt

theorem pos_nonneg {w : List K} (hw : w ≠ []) {p : K} (h0 : 0 ≤ p) : 0 ≤ pos w p := by
  have : (1 : K) ≤ w.length := by exact_mod_cast List.length_pos_iff.2 hw
  unfold pos
  have : 0 ≤ ((w.length : K) - 1) * p := mul_nonneg (by linarith) h0
  positivity

theorem pos_le {w : List K} (hw : w ≠ []) {p : K} (h1 : p ≤ 100) : pos w p ≤ (w.length : K) - 1 := by
  have : (1 : K) ≤ w.length := by exact_mod_cast List.length_pos_iff.2 hw
  unfold pos
  rw [div_le_iff₀ (by norm_num)]
  exact mul_le_mul_of_nonneg_left h1 (by linarith)

theorem percentile_index {w : List K} (hw : w ≠ []) {p : K} (h0 : 0 ≤ p) (h1 : p ≤ 100) :
    ⌊pos w p⌋.toNat < w.length ∧ ((⌊pos w p⌋.toNat : Int) = ⌊pos w p⌋) ∧
    (0 < pos w p - ⌊pos w p⌋ → ⌊pos w p⌋.toNat + 1 < w.length) := by
  have a := pos_nonneg hw h0
  have b := pos_le hw h1
  have hf : 0 ≤ ⌊pos w p⌋ := Int.floor_nonneg.2 a
  have hc : ((⌊pos w p⌋.toNat : Int) = ⌊pos w p⌋) := Int.toNat_of_nonneg hf
  have hl := Int.floor_le (pos w p)
  have hlen := List.length_pos_iff.2 hw
  refine ⟨?_, hc, ?_⟩
  · have : ((⌊pos w p⌋ : Int) : K) < ((w.length : Int) : K) := by push_cast; linarith
    have := Int.cast_lt.1 this
    omega
  · intro hg
    have : ((⌊pos w p⌋ + 1 : Int) : K) < ((w.length : Int) : K) := by push_cast; linarith
    have := Int.cast_lt.1 this
    omega

/-- The percentile lies between two consecutive sorted weights. -/
theorem percentile_bounds {w : List K} (hw : w ≠ []) {p : K} (h0 : 0 ≤ p) (h1 : p ≤ 100) :
    (∀ j (hj : j < (srt w).length), ⌈pos w p⌉ ≤ (j : Int) → percentile w p ≤ (srt w)[j]) ∧
    (w.Nodup → ∀ j (hj : j < (srt w).length), (j : Int) < ⌈pos w p⌉ → (srt w)[j] < percentile w p) := by
  obtain ⟨hi, hc, hg1⟩ := percentile_index hw h0 h1
  have hls := length_srt w
  set i := ⌊pos w p⌋.toNat with hidef
  have hlen := List.length_pos_iff.2 hw
  have hi' : i < (srt w).length := by omega
  have ha : (srt w).getD i 0 = (srt w)[i] := by simp [List.getD_eq_getElem?_getD, hi']
  have hb' : min (i + 1) (w.length - 1) < (srt w).length := by omega
  have hb : (srt w).getD (min (i + 1) (w.length - 1)) 0 = (srt w)[min (i + 1) (w.length - 1)] := by
    simp [List.getD_eq_getElem?_getD, hb']
  have hp : percentile w p = (srt w)[i] + (pos w p - ⌊pos w p⌋) *
      ((srt w)[min (i + 1) (w.length - 1)] - (srt w)[i]) := by
    rw [← ha, ← hb]
    rfl
  have hg0 : 0 ≤ pos w p - ⌊pos w p⌋ := by have := Int.floor_le (pos w p); linarith
  have hg2 : pos w p - ⌊pos w p⌋ < 1 := by have := Int.lt_floor_add_one (pos w p); linarith
  rcases eq_or_lt_of_le hg0 with hg | hg
  · have hpos : pos w p = ((⌊pos w p⌋ : Int) : K) := by linarith
    have hceil : ⌈pos w p⌉ = ⌊pos w p⌋ := by
      conv_lhs => rw [hpos]
      exact Int.ceil_intCast _
    rw [← hg] at hp
    simp only [zero_mul, add_zero] at hp
    refine ⟨?_, ?_⟩
    · intro j hj hjc
      rw [hp]
      exact srt_mono w (by omega) hj
    · intro hnd j hj hjc
      rw [hp]
      refine lt_of_le_of_ne (srt_mono w (by omega) hi') ?_
      intro e
      have hnd' : (srt w).Nodup := (List.perm_insertionSort (· ≤ ·) w).nodup_iff.2 hnd
      have := (hnd'.getElem_inj_iff (hi := hj) (hj := hi')).1 e
      omega
  · have hi1 := hg1 hg
    have hmin : min (i + 1) (w.length - 1) = i + 1 := by omega
    have hi1' : i + 1 < (srt w).length := by omega
    have hceil : ⌈pos w p⌉ = ⌊pos w p⌋ + 1 := by
      rw [Int.ceil_eq_iff]
      push_cast
      constructor <;> linarith
    simp only [hmin] at hp
    have hm := srt_mono w (Nat.le_succ i) hi1'
    refine ⟨?_, ?_⟩
    · intro j hj hjc
      have h2 := srt_mono w (show i + 1 ≤ j by omega) hj
      rw [hp]
      nlinarith
    · intro hnd j hj hjc
      have hnd' : (srt w).Nodup := (List.perm_insertionSort (· ≤ ·) w).nodup_iff.2 hnd
      have hlt : (srt w)[i] < (srt w)[i + 1] := by
        refine lt_of_le_of_ne hm ?_
        intro e
        have := (hnd'.getElem_inj_iff (hi := hi') (hj := hi1')).1 e
        omega
      have h2 := srt_mono w (show j ≤ i by omega) hi'
      rw [hp]
      have : 0 < (pos w p - ⌊pos w p⌋) * ((srt w)[i + 1] - (srt w)[i]) := mul_pos hg (by linarith)
      linarith

theorem ceil_pos_nonneg {w : List K} (hw : w ≠ []) {p : K} (h0 : 0 ≤ p) : 0 ≤ ⌈pos w p⌉ :=
  Int.ceil_nonneg (pos_nonneg hw h0)

theorem ceil_pos_lt {w : List K} (hw : w ≠ []) {p : K} (h1 : p ≤ 100) : ⌈pos w p⌉ < (w.length : Int) := by
  have h := pos_le hw h1
  have : ⌈pos w p⌉ ≤ (w.length : Int) - 1 := by
    rw [Int.ceil_le]; push_cast; exact h
  omega

/-- The number of weights below the percentile. -/
theorem countP_lt_percentile {w : List K} (hw : w ≠ []) {p : K} (h0 : 0 ≤ p) (h1 : p ≤ 100) :
    ((w.countP fun x => decide (x < percentile w p)) : Int) ≤ ⌈pos w p⌉ ∧
    (w.Nodup → ((w.countP fun x => decide (x < percentile w p)) : Int) = ⌈pos w p⌉) := by
  obtain ⟨hb1, hb2⟩ := percentile_bounds hw h0 h1
  have hc0 := ceil_pos_nonneg hw h0
  have hc1 := ceil_pos_lt hw h1
  have hls := length_srt w
  set c := ⌈pos w p⌉.toNat with hcdef
  have hcc : (c : Int) = ⌈pos w p⌉ := Int.toNat_of_nonneg hc0
  rw [← (List.perm_insertionSort (· ≤ ·) w).countP_eq]
  change (((srt w).countP _ : Nat) : Int) ≤ _ ∧ (w.Nodup → (((srt w).countP _ : Nat) : Int) = _)
  have hsplit : (srt w).countP (fun x => decide (x < percentile w p)) =
      ((srt w).take c).countP (fun x => decide (x < percentile w p)) +
      ((srt w).drop c).countP (fun x => decide (x < percentile w p)) := by
    rw [← List.countP_append, List.take_append_drop]
  have hdrop : ((srt w).drop c).countP (fun x => decide (x < percentile w p)) = 0 := by
    rw [List.countP_eq_zero]
    intro x hx
    obtain ⟨k, hk, rfl⟩ := List.getElem_of_mem hx
    rw [List.getElem_drop]
    have := hb1 (c + k) (by simp at hk; omega) (by omega)
    simpa using this
  have htake : ((srt w).take c).length = c := by
    rw [List.length_take]; omega
  refine ⟨?_, ?_⟩
  · have : ((srt w).take c).countP (fun x => decide (x < percentile w p)) ≤ c := by
      calc _ ≤ _ := List.countP_le_length
        _ = c := htake
    omega
  · intro hnd
    have : ((srt w).take c).countP (fun x => decide (x < percentile w p)) = c := by
      rw [← htake]
      conv_lhs => rw [htake]
      rw [List.countP_eq_length]
      intro x hx
      obtain ⟨k, hk, rfl⟩ := List.getElem_of_mem hx
      rw [List.getElem_take]
      have := hb2 hnd k (by simp at hk; omega) (by simp at hk; omega)
      simpa using this
    omega

theorem exists_ge_percentile {w : List K} (hw : w ≠ []) {p : K} (h0 : 0 ≤ p) (h1 : p ≤ 100) {m : K}
    (hm : ∀ x ∈ w, x ≤ m) : percentile w p ≤ m := by
  obtain ⟨hb1, _⟩ := percentile_bounds hw h0 h1
  have hc1 := ceil_pos_lt hw h1
  have hls := length_srt w
  have hlen := List.length_pos_iff.2 hw
  have hlt : w.length - 1 < (srt w).length := by omega
  have h2 := hb1 (w.length - 1) hlt (by omega)
  refine h2.trans (hm _ ?_)
  exact (List.perm_insertionSort (· ≤ ·) w).mem_iff.1 (List.getElem_mem hlt)

end Verif.Filter
