import Verif.Model.Neighbourhood
import Mathlib.Tactic.Ring
import Mathlib.Tactic.FieldSimp
import Mathlib.Tactic.Linarith

/-! # Lemmas about order statistics and masks -/

namespace Verif.Nbh

variable {K : Type} [Field K] [LinearOrder K]

omit [Field K] in
theorem sorted_mono {s : List K} (hs : s.Pairwise (· ≤ ·)) {i j : Nat} (hij : i ≤ j) (hj : j < s.length) :
    s[i]'(by omega) ≤ s[j] := by
  rcases Nat.lt_or_ge i j with h | h
  · exact (List.pairwise_iff_getElem.1 hs) i j (by omega) hj h
  · have : i = j := by omega
    subst this
    exact le_refl _

omit [Field K] in
/-- At least `m` entries of a list are at most as large as entry `m - 1` of the sorted list, and fewer than `m`
are strictly smaller. -/
theorem orderStat {l : List K} {m : Nat} (hm : 0 < m) {r : K}
    (hr : (l.insertionSort (· ≤ ·))[m - 1]? = some r) :
    m ≤ l.countP (fun x => decide (x ≤ r)) ∧ l.countP (fun x => decide (x < r)) < m := by
  set s := l.insertionSort (· ≤ ·) with hs
  have hp : s.Perm l := List.perm_insertionSort _ _
  have hsort : s.Pairwise (· ≤ ·) := List.pairwise_insertionSort _ _
  obtain ⟨hlt, hr⟩ := List.getElem?_eq_some_iff.1 hr
  rw [← hp.countP_eq, ← hp.countP_eq]
  constructor
  · have h1 : (s.take m).countP (fun x => decide (x ≤ r)) = (s.take m).length := by
      rw [List.countP_eq_length]
      intro x hx
      obtain ⟨i, hi, rfl⟩ := List.getElem_of_mem hx
      simp only [List.getElem_take, decide_eq_true_eq]
      rw [← hr]
      apply sorted_mono hsort
      simp only [List.length_take] at hi
      omega
    have h2 : (s.take m).countP (fun x => decide (x ≤ r)) ≤ s.countP (fun x => decide (x ≤ r)) :=
      (List.take_sublist m s).countP_le
    rw [h1, List.length_take] at h2
    omega
  · have h0 : (s.drop (m - 1)).countP (fun x => decide (x < r)) = 0 := by
      rw [List.countP_eq_zero]
      intro x hx
      obtain ⟨i, hi, rfl⟩ := List.getElem_of_mem hx
      simp only [List.getElem_drop, decide_eq_true_eq, not_lt]
      rw [← hr]
      apply sorted_mono hsort (by omega)
    have h1 : s.countP (fun x => decide (x < r)) =
        (s.take (m - 1)).countP (fun x => decide (x < r)) + (s.drop (m - 1)).countP (fun x => decide (x < r)) := by
      rw [← List.countP_append, List.take_append_drop]
    have h2 := List.countP_le_length (p := fun x => decide (x < r)) (l := s.take (m - 1))
    rw [List.length_take] at h2
    omega

theorem polytopeLoop_eq (pts : List (K × K)) (ineqs : List ((K × K) × K)) (q : K × K → Bool) :
    polytopeLoop pts ineqs (pts.map q) =
      pts.map fun p => q p && ineqs.all fun i => decide (i.1.1 * p.1 + i.1.2 * p.2 ≤ i.2) := by
  induction ineqs generalizing q with
  | nil => simp [polytopeLoop]
  | cons i rest ih =>
    obtain ⟨a, b⟩ := i
    simp only [polytopeLoop, List.zipWith_map, List.zipWith_self]
    rw [ih]
    simp [Bool.and_assoc]

theorem replicate_true (pts : List (K × K)) : List.replicate pts.length true = pts.map fun _ => true := by
  simp

theorem mulVec_inv [IsStrictOrderedRing K] {m : Mat K} (h : m.det ≠ 0) (x : K × K) : m.mulVec (m.inv.mulVec x) = x := by
  generalize hD : m.det = D at h
  apply Prod.ext <;> simp only [Mat.mulVec, Mat.inv, hD] <;> field_simp <;> rw [← hD, Mat.det] <;> ring

theorem inv_mulVec [IsStrictOrderedRing K] {m : Mat K} (h : m.det ≠ 0) (x : K × K) : m.inv.mulVec (m.mulVec x) = x := by
  generalize hD : m.det = D at h
  apply Prod.ext <;> simp only [Mat.mulVec, Mat.inv, hD] <;> field_simp <;> rw [← hD, Mat.det] <;> ring

end Verif.Nbh
