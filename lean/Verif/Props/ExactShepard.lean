import Verif.Props.Consistency
import Verif.Props.Shepard

/-!
# Exact condition for property C86: constant boat speeds
-/

namespace Verif.Shepard

open Verif.Interp Verif.Ext

variable {K : Type} [Field K] [LinearOrder K] [IsStrictOrderedRing K]

/-- **C86.** Constant boat speeds are reproduced exactly at the data points and closer to one than the tolerance; everywhere else the
result is not a number. -/
theorem C86_constant_exactly {norm2 : K × K → K} (hn : IsDist norm2) {nhood : Nhood K} (hh : ∀ l, ∃ m, nhood l = .ok m)
    (norm3 : Pt K → K) {sqrt : K → K} (hs : sqrt 0 = 0) (tol slope : K) {pts : List (Pt K)} (g : K × K)
    (hp : pts ≠ []) {c : K} (hc : ∀ p ∈ pts, p.2 = c) :
    (shepard nhood norm2 norm3 sqrt tol slope pts g = .ok (some c) ↔ ∃ p ∈ pts, p.1 = g ∨ norm2 (p.1 - g) < tol) ∧
    (shepard nhood norm2 norm3 sqrt tol slope pts g = .ok none ↔ ¬ ∃ p ∈ pts, p.1 = g ∨ norm2 (p.1 - g) < tol) := by
  have key : ((∃ p ∈ pts, p.1 = g ∨ norm2 (p.1 - g) < tol) → shepard nhood norm2 norm3 sqrt tol slope pts g = .ok (some c)) ∧
      ((¬ ∃ p ∈ pts, p.1 = g ∨ norm2 (p.1 - g) < tol) → shepard nhood norm2 norm3 sqrt tol slope pts g = .ok none) := by
    constructor
    · intro h
      rcases stored_or_not pts g with ⟨v, hv⟩ | hns
      · rw [C86_exact hn nhood norm3 sqrt tol slope hv, ← hc _ (Ext.FirstStored.mem hv)]
      · obtain ⟨p, hpm, hpg⟩ := h
        have hpt := hpg.resolve_left (hns p hpm)
        have hne : pts.filter (fun p => decide (norm2 (p.1 - g) < tol)) ≠ [] := by
          intro h0
          rw [List.filter_eq_nil_iff] at h0
          exact h0 p hpm (by simpa using hpt)
        rw [C86_tolerance hn hh norm3 sqrt tol slope hns rfl hne]
        have hall : ∀ x ∈ (pts.filter (fun p => decide (norm2 (p.1 - g) < tol))).map Prod.snd, x = c := by
          intro x hx
          obtain ⟨q, hq, rfl⟩ := List.mem_map.1 hx
          exact hc q (List.mem_of_mem_filter hq)
        have hsum := List.eq_replicate_of_mem hall
        rw [List.length_map] at hsum
        rw [hsum, List.sum_replicate, nsmul_eq_mul, mul_div_cancel_left₀]
        exact Nat.cast_ne_zero.2 fun h0 => hne (List.length_eq_zero_iff.1 h0)
    · intro h
      push Not at h
      exact C86_constant_false hn hh norm3 hs tol slope hp (fun p hpm => (h p hpm).1) (fun p hpm => (h p hpm).2) hc
  refine ⟨⟨fun h => ?_, key.1⟩, ⟨fun h h' => ?_, key.2⟩⟩
  · by_contra h'
    rw [key.2 h'] at h
    simp at h
  · rw [key.1 h'] at h
    simp at h

/-- Three measurements of 3 knots: 3 knots at a measured wind, nan between them. -/
example : interp [((1, 0), 3), ((2, 0), 3), ((4, 0), 3)] (2, 0) = .ok (some 3) ∧
    interp [((1, 0), 3), ((2, 0), 3), ((4, 0), 3)] (3, 0) = .ok none :=
  ⟨((C86_constant_exactly sum2_isDist (fun l => ⟨_, rfl⟩) _ (by decide +kernel) _ _ _ (by simp) (c := 3) (by decide)).1).2
      ⟨((2, 0), 3), by simp, Or.inl rfl⟩,
    ((C86_constant_exactly sum2_isDist (fun l => ⟨_, rfl⟩) _ (by decide +kernel) _ _ _ (by simp) (c := 3) (by decide)).2).2
      (by decide +kernel)⟩

end Verif.Shepard
