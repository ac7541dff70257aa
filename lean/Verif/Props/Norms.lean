import Verif.Model.Norms
import Verif.Model.Interpolator
import Verif.Lemmas.Fold
import Mathlib.Tactic.Linarith
import Mathlib.Tactic.Positivity
import Mathlib.Tactic.NormNum
import Mathlib.Tactic.FieldSimp
import Mathlib.Tactic.Ring

/-!
# Property C107: scaled norms
-/

namespace Verif.Norms

open Verif.Weigher (broadcastMul normScale)

/-- A norm on the lists of length `n`. -/
structure IsNorm (n : Nat) (N : List ℝ → ℝ) : Prop where
  nonneg : ∀ v, v.length = n → 0 ≤ N v
  definite : ∀ v, v.length = n → (N v = 0 ↔ ∀ x ∈ v, x = 0)
  homogeneous : ∀ c v, v.length = n → N (v.map (c * ·)) = |c| * N v
  triangle : ∀ v w, v.length = n → w.length = n → N (List.zipWith (· + ·) v w) ≤ N v + N w

theorem sq_sum_nonneg (v : List ℝ) : 0 ≤ (v.map fun x => x ^ 2).sum := by
  apply List.sum_nonneg
  intro x hx
  obtain ⟨y, _, rfl⟩ := List.mem_map.1 hx
  positivity

theorem euclid_nonneg (v : List ℝ) : 0 ≤ euclid v := Real.sqrt_nonneg _

theorem euclid_sq (v : List ℝ) : euclid v ^ 2 = (v.map fun x => x ^ 2).sum := Real.sq_sqrt (sq_sum_nonneg v)

theorem euclid_cons (x : ℝ) (v : List ℝ) : euclid (x :: v) = Real.sqrt (x ^ 2 + euclid v ^ 2) := by
  rw [euclid_sq]
  simp [euclid]

theorem minkowski (a b c d : ℝ) :
    Real.sqrt ((a + b) ^ 2 + (c + d) ^ 2) ≤ Real.sqrt (a ^ 2 + c ^ 2) + Real.sqrt (b ^ 2 + d ^ 2) := by
  have h1 := Real.sq_sqrt (show 0 ≤ a ^ 2 + c ^ 2 by positivity)
  have h2 := Real.sq_sqrt (show 0 ≤ b ^ 2 + d ^ 2 by positivity)
  have p1 := Real.sqrt_nonneg (a ^ 2 + c ^ 2)
  have p2 := Real.sqrt_nonneg (b ^ 2 + d ^ 2)
  rw [Real.sqrt_le_left (by positivity)]
  have hcs : a * b + c * d ≤ Real.sqrt (a ^ 2 + c ^ 2) * Real.sqrt (b ^ 2 + d ^ 2) := by
    apply le_of_abs_le
    apply abs_le_of_sq_le_sq _ (by positivity)
    rw [mul_pow, h1, h2]
    nlinarith [sq_nonneg (a * d - b * c)]
  nlinarith

/-- **C107**: the euclidean norm is a norm, whatever the number of columns. -/
theorem C107_euclid (n : Nat) : IsNorm n euclid ∧ ∀ v, 0 ≤ euclid v ∧ euclid v ^ 2 = (v.map fun x => x ^ 2).sum := by
  refine ⟨⟨fun v _ => euclid_nonneg v, ?_, ?_, ?_⟩, fun v => ⟨euclid_nonneg v, euclid_sq v⟩⟩
  · intro v _
    constructor
    · intro h
      have h0 : (v.map fun x => x ^ 2).sum = 0 := by rw [← euclid_sq, h]; norm_num
      intro x hx
      have hx2 : x ^ 2 ≤ (v.map fun x => x ^ 2).sum := by
        apply List.single_le_sum
        · intro y hy
          obtain ⟨z, _, rfl⟩ := List.mem_map.1 hy
          positivity
        · exact List.mem_map_of_mem (f := fun x : ℝ => x ^ 2) hx
      have : x ^ 2 = 0 := le_antisymm (h0 ▸ hx2) (by positivity)
      exact pow_eq_zero_iff (by norm_num) |>.1 this
    · intro h
      unfold euclid
      rw [Real.sqrt_eq_zero (sq_sum_nonneg v)]
      apply List.sum_eq_zero
      intro y hy
      obtain ⟨x, hx, rfl⟩ := List.mem_map.1 hy
      rw [h x hx]
      norm_num
  · intro c v hl
    clear hl
    have : ((v.map (c * ·)).map fun x => x ^ 2).sum = c ^ 2 * (v.map fun x => x ^ 2).sum := by
      induction v with
      | nil => simp
      | cons x v ih => simp only [List.map_cons, List.sum_cons, ih]; ring
    unfold euclid
    rw [this, Real.sqrt_mul (sq_nonneg c), Real.sqrt_sq_eq_abs]
  · intro v
    induction n generalizing v with
    | zero =>
      intro w hv hw
      rw [List.length_eq_zero_iff.1 hv, List.length_eq_zero_iff.1 hw]
      simp [euclid]
    | succ n ih =>
      intro w hv hw
      cases v with
      | nil => simp at hv
      | cons x v =>
        cases w with
        | nil => simp at hw
        | cons y w =>
          have := ih v w (by simpa using hv) (by simpa using hw)
          simp only [List.zipWith_cons_cons]
          rw [euclid_cons, euclid_cons, euclid_cons]
          refine le_trans (Real.sqrt_le_sqrt ?_) (minkowski x y (euclid v) (euclid w))
          have h0 := euclid_nonneg (List.zipWith (· + ·) v w)
          nlinarith [euclid_nonneg v, euclid_nonneg w]

theorem broadcast_eq {scales row : List ℝ} (h : row.length = scales.length) :
    broadcastMul scales row = .ok (List.zipWith (· * ·) scales row) := by
  unfold broadcastMul
  rw [if_pos h.symm]

theorem zipWith_mul_zero : ∀ {scales v : List ℝ}, (∀ s ∈ scales, s ≠ 0) → v.length = scales.length →
    ((∀ x ∈ List.zipWith (· * ·) scales v, x = 0) ↔ ∀ x ∈ v, x = 0)
  | [], v, _, h => by
    rw [List.length_eq_zero_iff.1 h]
    simp
  | s :: scales, [], _, h => by simp at h
  | s :: scales, x :: v, hs, h => by
    have ih := zipWith_mul_zero (scales := scales) (v := v) (fun t ht => hs t (List.mem_cons_of_mem _ ht)) (by simpa using h)
    have h0 : s ≠ 0 := hs s List.mem_cons_self
    simp only [List.zipWith_cons_cons, List.mem_cons, forall_eq_or_imp, ih, mul_eq_zero, h0, false_or]

theorem zipWith_mul_map (c : ℝ) : ∀ scales v : List ℝ,
    List.zipWith (· * ·) scales (v.map (c * ·)) = (List.zipWith (· * ·) scales v).map (c * ·)
  | [], v => by simp
  | s :: scales, [] => by simp
  | s :: scales, x :: v => by
    simp only [List.map_cons, List.zipWith_cons_cons, zipWith_mul_map c scales v]
    congr 1
    ring

theorem zipWith_mul_add : ∀ scales v w : List ℝ, List.zipWith (· * ·) scales (List.zipWith (· + ·) v w) =
    List.zipWith (· + ·) (List.zipWith (· * ·) scales v) (List.zipWith (· * ·) scales w)
  | [], v, w => by simp
  | s :: scales, [], w => by simp
  | s :: scales, x :: v, [] => by simp
  | s :: scales, x :: v, y :: w => by
    simp only [List.zipWith_cons_cons, zipWith_mul_add scales v w]
    congr 1
    ring

/-- **C107**: of an array the euclidean norm of each row is taken. -/
theorem C107_rows (rows : List (List ℝ)) : (euclideanNorm rows).length = rows.length ∧
    ∀ (i : Nat) (r : List ℝ), rows[i]? = some r → ∃ v, (euclideanNorm rows)[i]? = some v ∧ 0 ≤ v ∧
      v ^ 2 = (r.map fun x => x ^ 2).sum := by
  refine ⟨by simp [euclideanNorm], fun i r h => ⟨euclid r, by simp [euclideanNorm, h], euclid_nonneg r, euclid_sq r⟩⟩

example : [[(3 : ℝ), 4], [0, 2]][0]? = some [3, 4] := rfl

/-- **C107**: a norm scaled by factors other than 0 is a norm: it is the norm of the scaled vector. -/
theorem C107_scaled {norm : List ℝ → ℝ} {scales : List ℝ} (hn : IsNorm scales.length norm) (hs : ∀ s ∈ scales, s ≠ 0) :
    ∃ N, IsNorm scales.length N ∧ (∀ v, N v = norm (List.zipWith (· * ·) scales v)) ∧
      ∀ rows, (∀ r ∈ rows, r.length = scales.length) → scaledNorm norm scales rows = .ok (rows.map N) := by
  refine ⟨fun v => norm (List.zipWith (· * ·) scales v), ⟨?_, ?_, ?_, ?_⟩, fun v => rfl, ?_⟩
  · intro v hv
    exact hn.nonneg _ (by simp [hv])
  · intro v hv
    rw [hn.definite _ (by simp [hv]), zipWith_mul_zero hs hv]
  · intro c v hv
    rw [zipWith_mul_map, hn.homogeneous _ _ (by simp [hv])]
  · intro v w hv hw
    rw [zipWith_mul_add]
    exact hn.triangle _ _ (by simp [hv]) (by simp [hw])
  · intro rows hr
    unfold scaledNorm
    apply mapM_ok_of
    intro r h
    rw [broadcast_eq (hr r h)]

/-- **C107**: for two or three columns `scaled_euclidean_norm` is a norm of the rows, namely the euclidean norm with wind
speeds divided by 40, wind angles by 360 and boat speeds by 20. -/
theorem C107_default : ∃ N₂ N₃, IsNorm 2 N₂ ∧ IsNorm 3 N₃ ∧
    (∀ ws wa, N₂ [ws, wa] ^ 2 = (ws / 40) ^ 2 + (wa / 360) ^ 2) ∧
    (∀ ws wa bsp, N₃ [ws, wa, bsp] ^ 2 = (ws / 40) ^ 2 + (wa / 360) ^ 2 + (bsp / 20) ^ 2) ∧
    (∀ rows, (∀ r ∈ rows, r.length = 2) → scaledEuclideanNorm 2 rows = .ok (rows.map N₂)) ∧
    (∀ rows, (∀ r ∈ rows, r.length = 3) → scaledEuclideanNorm 3 rows = .ok (rows.map N₃)) := by
  obtain ⟨N₂, h1, h2, h3⟩ := C107_scaled (norm := euclid) (scales := [1 / 40, 1 / 360]) (C107_euclid 2).1 (by simp)
  obtain ⟨N₃, k1, k2, k3⟩ := C107_scaled (norm := euclid) (scales := [1 / 40, 1 / 360, 1 / 20]) (C107_euclid 3).1 (by simp)
  refine ⟨N₂, N₃, h1, k1, ?_, ?_, ?_, ?_⟩
  · intro ws wa
    rw [h2, euclid_sq]
    simp
    ring
  · intro ws wa bsp
    rw [k2, euclid_sq]
    simp
    ring
  · intro rows hr
    exact h3 rows hr
  · intro rows hr
    exact k3 rows hr

/-- **C107**: on differences of winds, as used by the interpolators and point clouds, it is that same norm. -/
theorem C107_winds (x : ℝ × ℝ) : scaledEuclideanNorm 2 [[x.1, x.2]] = .ok [Interp.scaledEuclidean x] ∧
    Interp.scaledEuclidean x ^ 2 = (x.1 / 40) ^ 2 + (x.2 / 360) ^ 2 := by
  have hsq : Interp.scaledEuclidean x ^ 2 = (x.1 / 40) ^ 2 + (x.2 / 360) ^ 2 := by
    unfold Interp.scaledEuclidean
    rw [Real.sq_sqrt (by positivity)]
    ring
  refine ⟨?_, hsq⟩
  simp only [scaledEuclideanNorm, if_true, scaledNorm, List.mapM_cons, List.mapM_nil, broadcastMul, List.length_cons,
    List.length_nil, List.zipWith_cons_cons, List.zipWith_nil_left, pure, Except.pure, bind, Except.bind, euclid,
    Interp.scaledEuclidean, List.map_cons, List.map_nil, List.sum_cons, List.sum_nil, add_zero]

/-- **C107 is false** for other numbers of columns: they raise `NotImplementedError`. -/
theorem C107_width_false {d : Nat} (h2 : d ≠ 2) (h3 : d ≠ 3) (rows : List (List ℝ)) :
    scaledEuclideanNorm d rows = .error .otherError := by
  unfold scaledEuclideanNorm
  rw [if_neg h2, if_neg h3]

/-- **C107 is false** if a factor is 0: a vector other than 0 has norm 0. -/
theorem C107_zero_false : ∃ (scales v : List ℝ), v.length = scales.length ∧ (∃ x ∈ v, x ≠ 0) ∧
    scaledNorm euclid scales [v] = .ok [0] :=
  ⟨[0, 1], [5, 0], rfl, ⟨5, by simp, by norm_num⟩, by simp [scaledNorm, broadcastMul, euclid, pure, Except.pure, bind, Except.bind]⟩

/-- **C107 is false** for the angles: the norm does not know that wind angles are periodic. Winds of the angles 1 and 359 are
further apart than winds of the angles 1 and 180. -/
theorem C107_periodic_false : ∃ a b : ℝ, scaledEuclideanNorm 2 [[0, 359 - 1]] = .ok [a] ∧
    scaledEuclideanNorm 2 [[0, 180 - 1]] = .ok [b] ∧ b < a := by
  refine ⟨358 / 360, 179 / 360, ?_, ?_, by norm_num⟩
  · simp only [scaledEuclideanNorm, if_true, scaledNorm, List.mapM_cons, List.mapM_nil, broadcastMul, List.length_cons, List.length_nil,
      List.zipWith_cons_cons, List.zipWith_nil_left, pure, Except.pure, bind, Except.bind, euclid]
    congr 2
    rw [Real.sqrt_eq_iff_mul_self_eq (sq_sum_nonneg _) (by norm_num)]
    simp
    norm_num
  · simp only [scaledEuclideanNorm, if_true, scaledNorm, List.mapM_cons, List.mapM_nil, broadcastMul, List.length_cons, List.length_nil,
      List.zipWith_cons_cons, List.zipWith_nil_left, pure, Except.pure, bind, Except.bind, euclid]
    congr 2
    rw [Real.sqrt_eq_iff_mul_self_eq (sq_sum_nonneg _) (by norm_num)]
    simp
    norm_num

/-- **C107 is false** in that there is one standard norm: for wind speed and wind angle the weighers scale wind speeds by
1/20, the interpolators and neighbourhoods by 1/40. -/
theorem C107_standard_false {ws : ℝ} (h : 0 < ws) : ∃ a b : ℝ, standardNorm none [[ws, 0]] = .ok [a] ∧
    scaledEuclideanNorm 2 [[ws, 0]] = .ok [b] ∧ a = 2 * b ∧ 0 < b := by
  refine ⟨ws / 20, ws / 40, ?_, ?_, by ring, by positivity⟩
  · have h1 : (normScale "TWS" : ℝ) = 1 / 20 := by simp [normScale]
    have h2 : (normScale "TWA" : ℝ) = 1 / 360 := by simp [normScale]
    simp only [standardNorm, Option.getD_none, List.map_cons, List.map_nil, h1, h2, scaledNorm, List.mapM_cons, List.mapM_nil,
      broadcastMul, List.length_cons, List.length_nil, List.zipWith_cons_cons, List.zipWith_nil_left, if_true, pure, Except.pure,
      bind, Except.bind, euclid]
    congr 2
    rw [Real.sqrt_eq_iff_mul_self_eq (by simp; positivity) (by positivity)]
    simp
    ring
  · simp only [scaledEuclideanNorm, if_true, scaledNorm, List.mapM_cons, List.mapM_nil, broadcastMul, List.length_cons, List.length_nil,
      List.zipWith_cons_cons, List.zipWith_nil_left, pure, Except.pure, bind, Except.bind, euclid]
    congr 2
    rw [Real.sqrt_eq_iff_mul_self_eq (sq_sum_nonneg _) (by positivity)]
    simp
    ring

/-- The norm of the vector (24, 288) is 1. -/
example : scaledEuclideanNorm 2 [[24, 288]] = .ok [1] := by
  simp only [scaledEuclideanNorm, if_true, scaledNorm, List.mapM_cons, List.mapM_nil, broadcastMul, List.length_cons, List.length_nil,
    List.zipWith_cons_cons, List.zipWith_nil_left, pure, Except.pure, bind, Except.bind, euclid]
  congr 2
  rw [Real.sqrt_eq_iff_mul_self_eq (sq_sum_nonneg _) (by norm_num)]
  simp
  norm_num

end Verif.Norms
