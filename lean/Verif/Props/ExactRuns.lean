import Verif.Props.Curve
import Verif.Props.Expander
import Verif.Props.Interpolator
import Verif.Props.Pipeline
import Verif.Props.Weigher
import Verif.Props.WeightedPoints

/-!
# Exact conditions for weighted points, weighers, means, statistics, expanded data and curves (C10, C15, C21, C41, C42, C59)
-/

set_option linter.unusedSectionVars false

namespace Verif.WPoints

variable {κ V τ : Type} [DecidableEq κ] [DecidableEq τ] [HasType V τ]

/-- **C10**, exactly: one weight can be given for all points, such that every point has this weight, if and only if the points are an
array or a non-empty dictionary whose columns have the same length. -/
theorem C10_scalar_exactly (p : Points κ V τ) (w : Rat) : (∃ r, ofScalar p w = .ok r ∧ Aligned r) ↔
    (∃ rows, p = .array rows) ∨ ∃ d, p = .dict d ∧ d ≠ [] ∧ ∀ q ∈ d, ∀ q' ∈ d, q.2.length = q'.2.length := by
  cases p with
  | array rows => simp [ofScalar, len, Aligned]
  | data D => simp [ofScalar, len]
  | dict d =>
    cases d with
    | nil => simp [ofScalar, len]
    | cons x xs =>
      obtain ⟨k, c⟩ := x
      simp only [ofScalar, len, Except.ok.injEq, exists_eq_left', Aligned, List.length_replicate]
      constructor
      · intro h
        exact .inr ⟨_, rfl, by simp, fun q hq q' hq' => (h q hq).trans (h q' hq').symm⟩
      · rintro (⟨rows, h⟩ | ⟨d, h, -, h'⟩)
        · exact absurd h (by simp)
        · cases h
          exact fun q hq => h' q hq (k, c) (by simp)

example : (∃ r, ofScalar (κ := String) (V := Val) (τ := Ty) (.dict [("a", [.int 1, .int 2]), ("b", [.int 3, .int 4])]) 7 = .ok r ∧ Aligned r) ∧
    ¬ ∃ r, ofScalar (κ := String) (V := Val) (τ := Ty) (.dict [("a", [.int 1, .int 2]), ("b", [.int 3])]) 7 = .ok r ∧ Aligned r := by
  constructor
  · refine (C10_scalar_exactly _ _).mpr (.inr ⟨_, rfl, by simp, ?_⟩)
    decide
  · intro h
    rcases (C10_scalar_exactly _ _).mp h with ⟨rows, h⟩ | ⟨d, h, -, h'⟩
    · cases h
    · cases h
      exact absurd (h' ("a", [.int 1, .int 2]) (by simp) ("b", [.int 3]) (by simp)) (by decide)

end Verif.WPoints

namespace Verif.Weigher

open Verif.Data

/-- **C15**, exactly: a second call after a successful one, with dimensions given and whatever data with rows, raises `ValueError` if and
only if the dimensions name exactly one boat speed. -/
theorem C15_second_exactly {s : MeanState} {ds : List String} {D E : Data String Val Ty} (hs : s.dims = some ds) (hD : D.nRows ≠ 0)
    {job : Job} (h : (meanWeighData s D).2 = .ok (some job)) (hE : E.nRows ≠ 0) :
    (meanWeighData (meanWeighData s D).1 E).2 = .error .valueError ↔ ds.count "BSP" + ds.count "SOG" = 1 := by
  have key : ∀ (m : MeanState) (l : List String), m.dims = some l →
      ((meanWeighData m E).2 = .error .valueError ↔ l.count "BSP" + l.count "SOG" = 0) := by
    intro m l hm
    have h0 : l.count "BSP" + l.count "SOG" = 0 ↔ "BSP" ∉ l ∧ "SOG" ∉ l := by
      rw [Nat.add_eq_zero_iff, List.count_eq_zero, List.count_eq_zero]
    rw [h0]
    unfold meanWeighData
    rw [if_neg hE, hm, Option.getD_some]
    unfold chooseSpeed
    split_ifs with h1 h2
    · cases hc : E.cols.get? "BSP" <;> simp [h1, hc]
    · cases hc : E.cols.get? "SOG" <;> simp [h2, hc]
    · simp [h1, h2]
  obtain ⟨l, hl, hc⟩ : ∃ l, (meanWeighData s D).1.dims = some l ∧
      ds.count "BSP" + ds.count "SOG" = l.count "BSP" + l.count "SOG" + 1 := by
    unfold meanWeighData at h ⊢
    rw [if_neg hD, hs, Option.getD_some] at h ⊢
    unfold chooseSpeed at h ⊢
    split_ifs at h ⊢ with h1 h2
    · cases hc : D.cols.get? "BSP" with
      | none => simp [hc] at h
      | some c =>
        refine ⟨ds.erase "BSP", by simp [hc], ?_⟩
        have := List.count_pos_iff.2 h1
        rw [List.count_erase_self, List.count_erase_of_ne (by decide)]
        omega
    · cases hc : D.cols.get? "SOG" with
      | none => simp [hc] at h
      | some c =>
        refine ⟨ds.erase "SOG", by simp [hc], ?_⟩
        have := List.count_pos_iff.2 h2
        rw [List.count_erase_self, List.count_erase_of_ne (by decide)]
        omega
  rw [key _ l hl]
  omega

example : ["TWS", "TWA", "BSP"].count "BSP" + ["TWS", "TWA", "BSP"].count "SOG" = 1 := by decide +kernel

end Verif.Weigher

namespace Verif.Interp

variable {K : Type} [Field K] [LinearOrder K] [IsStrictOrderedRing K]

/-- **C21**, exactly: at winds without data, points with the same boat speed give this boat speed if and only if it is 0 or the parameter
`s` is 1. -/
theorem C21_level_exactly {norm : K × K → K} (hn : IsDist norm) {distr : K → K → K} (hdistr : ∀ d w, 0 < distr d w) {pts : List (Pt K)}
    (hp : pts ≠ []) {weights : List K} (hw : weights.length = pts.length) {g : K × K} (h : NotStored pts g) {b : K}
    (hb : ∀ p ∈ pts, p.2 = b) (s : K) : arith norm s distr pts weights g = .ok b ↔ s = 1 ∨ b = 0 := by
  obtain ⟨v, hv, hr, -⟩ := C21_scaled_mean hn hdistr hp hw h
  have hvb := hr b b fun p hp => by rw [hb p hp]; exact ⟨le_rfl, le_rfl⟩
  obtain rfl : v = b := le_antisymm hvb.2 hvb.1
  rw [hv, Except.ok.injEq]
  constructor
  · intro he
    have : (s - 1) * v = 0 := by linear_combination he
    rcases mul_eq_zero.1 this with h | h
    · exact .inl (by linear_combination h)
    · exact .inr h
  · rintro (rfl | rfl) <;> simp

/-- **C21.** For positive boat speeds between `lo` and `hi`, a parameter `s` greater than `hi / lo` gives values above all stored
ones, everywhere but at the data points. -/
theorem C21_above {norm : K × K → K} (hn : IsDist norm) {distr : K → K → K} (hdistr : ∀ d w, 0 < distr d w) {pts : List (Pt K)}
    (hp : pts ≠ []) {weights : List K} (hw : weights.length = pts.length) {g : K × K} (h : NotStored pts g) {lo hi s : K} (hlo : 0 < lo)
    (hb : ∀ p ∈ pts, lo ≤ p.2 ∧ p.2 ≤ hi) (hs : hi / lo < s) : ∃ v, arith norm s distr pts weights g = .ok v ∧ ∀ p ∈ pts, p.2 < v := by
  obtain ⟨v, hv, hr, -⟩ := C21_scaled_mean hn hdistr hp hw h
  have h1 := hr lo hi hb
  obtain ⟨q, hq⟩ := List.exists_mem_of_ne_nil _ hp
  have hhi : 0 < hi := lt_of_lt_of_le hlo ((hb q hq).1.trans (hb q hq).2)
  have hs0 : 0 < s := (div_pos hhi hlo).trans hs
  refine ⟨s * v, hv s, fun p hp => ?_⟩
  have h2 : hi < s * lo := (div_lt_iff₀ hlo).1 hs
  calc p.2 ≤ hi := (hb p hp).2
    _ < s * lo := h2
    _ ≤ s * v := mul_le_mul_of_nonneg_left h1.1 hs0.le

example : (0 : ℚ) < 4 ∧ (8 : ℚ) / 4 < 50 := by norm_num

end Verif.Interp

namespace Verif.Pipeline

variable {S I D W K G σ : Type}

/-- **C41**, exactly: the field `pre_expanding_filter` of the training statistics is always that of the filter before the influence model,
so it is right if and only if both filters have the same statistics. -/
theorem C41_pre_expanding_exactly {ops : Ops D W K σ} {c : Components S I D W K G σ} {fl : Flags} (training : List I) (test : Option (List I))
    {s s₁ s' : S} {out : Output G σ} (he : execute ops c fl training test s = .ok (out, s')) {r : G × Statistics σ × σ × σ}
    (hr : train ops c fl training s = .ok (r, s₁)) :
    out.training.preExpandingFilter = r.2.1.preInfluenceFilter ∧ out.training.preInfluenceFilter = r.2.1.preInfluenceFilter ∧
    (out.training.preExpandingFilter = r.2.1.preExpandingFilter ↔ r.2.1.preInfluenceFilter = r.2.1.preExpandingFilter) := by
  unfold execute at he
  obtain ⟨r', s₂, h1, h2⟩ := bind_ok he
  obtain ⟨t, s₃, h3, h4⟩ := bind_ok h2
  rw [hr] at h1
  cases h1
  cases h4
  exact ⟨rfl, rfl, Iff.rfl⟩

example : ∃ out r, (execute sampleOps (sample fun _ => modify (· + 1)) allOn [3, 4] (some [5]) 0).map (·.1) = .ok out ∧
    (train sampleOps (sample fun _ => modify (· + 1)) allOn [3, 4] 0).map (·.1) = .ok r ∧
    out.training.preExpandingFilter = r.2.1.preInfluenceFilter ∧ out.training.preExpandingFilter ≠ r.2.1.preExpandingFilter := by
  have h1 : ∃ out s', execute sampleOps (sample fun _ => modify (· + 1)) allOn [3, 4] (some [5]) 0 = .ok (out, s') := ⟨_, _, rfl⟩
  have h2 : ∃ r s', train sampleOps (sample fun _ => modify (· + 1)) allOn [3, 4] 0 = .ok (r, s') ∧
    r.2.1.preInfluenceFilter ≠ r.2.1.preExpandingFilter := ⟨_, _, rfl, fun h => by cases h⟩
  obtain ⟨out, s', h1⟩ := h1
  obtain ⟨r, s₁, h2, hne⟩ := h2
  have h := C41_pre_expanding_exactly [3, 4] (some [5]) h1 h2
  exact ⟨out, r, by rw [h1]; rfl, by rw [h2]; rfl, h.1, fun h' => hne (h.2.2.mp h')⟩

end Verif.Pipeline

namespace Verif.Expander

open Verif.Data

variable {κ V τ : Type} [DecidableEq κ] [DecidableEq τ] [HasType V τ]

/-- **C42**, exactly: the expanded data has one row per remaining measurement if and only if no measurement remains. -/
theorem C42_rows_exactly {kt klat klon : κ} {dup : κ → κ} {std : Data κ V τ → Res (Data κ V τ)}
    (hstd : ∀ X X', Reachable X → std X = (X', none) → Reachable X' ∧ X'.nRows = X.nRows ∧ (X'.keys = [] → X.keys = []))
    {getW : Place V → Except PyErr (Weather κ V)} (hw : ∀ p w, getW p = .ok w → w ≠ [] ∧ (Dict.keys w).Nodup) {mode : Mode}
    {D D' : Data κ V τ} (hD : Reachable D) {ps : List (Place V)} (hps : places kt klat klon D = .ok ps)
    (h : expand kt klat klon dup std getW mode D = .ok D') :
    D'.nRows = (remaining getW mode ps).length ↔ remaining getW mode ps = [] := by
  rw [C42_count_partial hstd hw hD hps h, ← List.length_eq_zero_iff]
  omega

/-- One measurement remains, but the data has two rows. -/
example : (remaining exW .delete [(⟨some (.int 100), some (.int 1), some (.int 5)⟩ : Place Val), ⟨some (.int 200), some (.int 2), some (.int 6)⟩]).length = 1 ∧
    (expand "datetime" "lat" "lon" (· ++ "(duplicate)") (fun X => (X, none)) exW .delete exD).map (·.nRows) = .ok 2 := by
  constructor <;> rfl

end Verif.Expander

namespace Verif.Curve

/-- **C59**, exactly: at angles between 0 and a full turn the symmetrised curve of a function of radians has the same value on both sides
if and only if the function summed over `a` and `360 - a` (degrees, though `a` is in radians) does. -/
theorem C59_radians_exactly (f : ℝ → ℝ → ℝ) {ws a : ℝ} (hws : 0 ≤ ws) (h0 : 0 < a) (h1 : a < 2 * Real.pi) :
    call (symFunc f) true ws a = call (symFunc f) true ws (2 * Real.pi - a) ↔
      f ws a + f ws (360 - a) = f ws (2 * Real.pi - a) + f ws (360 - (2 * Real.pi - a)) := by
  have hpi := Real.pi_pos
  have key : ∀ x : ℝ, 0 < x → x < 2 * Real.pi → call (symFunc f) true ws x = .ok (symFunc f ws x) := by
    intro x hx0 hx1
    obtain ⟨y, hy0, hy1, ⟨k, hk⟩, hc⟩ := (C59_radians (symFunc f) ws x).2 hws
    have hk0 : k = 0 := by
      have e1 : (k : ℝ) < 1 := by nlinarith
      have e2 : (-1 : ℝ) < k := by nlinarith
      have e3 : k < 1 := by exact_mod_cast e1
      have e4 : -1 < k := by exact_mod_cast e2
      omega
    rw [hc, hk, hk0]
    simp
  rw [key a h0 h1, key _ (by linarith) (by linarith), Except.ok.injEq]
  unfold symFunc
  constructor <;> intro h <;> linarith

example : (0 : ℝ) < 1 ∧ 1 < 2 * Real.pi := ⟨one_pos, by linarith [Real.pi_gt_three]⟩

end Verif.Curve
