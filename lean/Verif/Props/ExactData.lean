import Verif.Props.DataStrip
import Verif.Props.Sharp
import Verif.Props.Imputator
import Verif.Props.Filter
import Verif.Props.Weigher
import Verif.Props.Fuzzy
import Verif.Props.Influence

/-!
# Exact conditions for properties of data tables, weighers and influence models: C05, C07, C11, C14, C17, C26, C48
-/

set_option linter.unusedSectionVars false

namespace Verif.Data

variable {κ V τ : Type} [DecidableEq κ] [DecidableEq τ] [HasType V τ]

/-- **C05**, exactly: the selection of columns is right if and only if the list of keys is not empty (or there is nothing to
select from). -/
theorem C05_exactly {D : Data κ V τ} (h : Reachable D) (ks : List κ) :
    (∀ k, (getItem D (.keys ks)).cols.get? k = if k ∈ ks then D.cols.get? k else none) ↔ ks ≠ [] ∨ D.keys = [] := by
  constructor
  · intro hall
    by_contra hcon
    push Not at hcon
    obtain ⟨rfl, hk⟩ := hcon
    obtain ⟨k, hk⟩ := List.exists_mem_of_ne_nil _ hk
    obtain ⟨c, hc⟩ := (Dict.mem_keys_iff _ _).1 hk
    have := hall k
    simp [getItem, maskRows, Dict.get?_mapVals, hc] at this
  · rintro (hks | hD) k
    · exact C05_keys_partial h hks k
    · have h0 : D.cols = [] := by
        have : Dict.keys D.cols = [] := hD
        simpa [Dict.keys] using this
      cases ks with
      | nil => simp [getItem, maskRows, h0, Dict.mapVals]
      | cons x ks => simp [getItem, getSlice, h0, Dict.filterItems]

example : Reachable (empty : Data String Val Ty) := .empty

/-- **C07**, exactly: `strip()` returns if and only if some value was measured. -/
theorem C07_exactly {D : Data κ V τ} (h : Reachable D) :
    (∃ fuel r, stripAll fuel D = some r) ↔ ∃ k v, some v ∈ colOf D k := by
  constructor
  · rintro ⟨fuel, r, hr⟩
    by_contra hcon
    push Not at hcon
    rw [C07_strip_diverges] at hr
    · cases hr
    · intro p hp v hv
      cases v with
      | none => rfl
      | some v =>
        refine absurd ?_ (hcon p.1 v)
        rwa [colOf_of_get? (Dict.get?_of_mem h.rect.nodup hp)]
  · rintro ⟨k, v, hv⟩
    obtain ⟨fuel, D', a, l, hs, -⟩ := C07_strip_partial h hv
    exact ⟨fuel, _, hs⟩

/-- **C07.** `strip()` never changes `n_rows`, which is therefore right exactly if no row is removed. -/
theorem C07_n_rows_kept {D D' : Data κ V τ} {fuel : Nat} {e : Option PyErr} (h : stripAll fuel D = some (D', e)) :
    D'.nRows = D.nRows := by
  unfold stripAll stripRows at h
  split at h
  · cases h
  · cases h
    rfl
  · split at h
    · cases h
    · cases h
      rfl
    · cases h
      rfl

example : (stripAll 5 exData).map (·.1.nRows) = some 2 := by decide +kernel

end Verif.Data

namespace Verif.Imputator

variable {κ V τ : Type} [DecidableEq κ] [DecidableEq τ] [HasType V τ]

/-- **C26**, exactly: the reported number of removed rows is right if and only if half of the rows are complete. -/
theorem C26_exactly {D : Data κ V τ} (h : Data.Reachable D) {rs : List (Dict κ (Option V))}
    (hrs : D.rows = some rs) {D' : Data κ V τ} {st : Stats} (hd : removeOnly D = .ok (D', st)) :
    st.removedRows = (rs.length : Int) - ((rs.filter fun r => decide (Complete r)).length : Int) ↔
      rs.length = 2 * (rs.filter fun r => decide (Complete r)).length := by
  rw [C26_statistics_false h hrs hd]
  omega

/-- One of two rows is complete, so the number is right. -/
example : (removeOnly Data.exData).map (·.2.removedRows) = .ok 1 := by rfl

end Verif.Imputator

namespace Verif.Filter

variable {K : Type} [Field K] [LinearOrder K] [IsStrictOrderedRing K] [FloorRing K]

/-- **C11**, exactly: for different weights at most the given percentage of the points is discarded if and only if the fractional
part of this percentage of the number of points is at most a hundredth of the percentage. -/
theorem C11_exactly {percent : K} (h0 : 0 ≤ percent) (h1 : percent ≤ 100) {wts : List K} (hw : wts ≠ [])
    (hn : wts.Nodup) :
    100 * (discarded (quantileFilter percent wts).1 : K) ≤ percent * wts.length ↔
      Int.fract (percent * wts.length / 100) ≤ percent / 100 := by
  have e := (C11_number_partial h0 h1 hw).2 hn
  have e' : (discarded (quantileFilter percent wts).1 : K) = ((⌈((wts.length : K) - 1) * percent / 100⌉ : Int) : K) := by
    rw [← e]
    simp
  rw [e']
  have h2 : 100 * ((⌈((wts.length : K) - 1) * percent / 100⌉ : Int) : K) ≤ percent * wts.length ↔
      ((⌈((wts.length : K) - 1) * percent / 100⌉ : Int) : K) ≤ percent * wts.length / 100 := by
    rw [le_div_iff₀ (by norm_num), mul_comm]
  rw [h2, ← Int.le_floor, Int.ceil_le, Int.fract]
  constructor
  · intro h
    have e2 : ((wts.length : K) - 1) * percent / 100 = percent * wts.length / 100 - percent / 100 := by ring
    rw [e2] at h
    linarith
  · intro h
    have e2 : ((wts.length : K) - 1) * percent / 100 = percent * wts.length / 100 - percent / 100 := by ring
    rw [e2]
    linarith

/-- 25 percent of 8 points are 2 points; 15 percent of 10 points are one and a half, and the half is too much. -/
example : Int.fract (25 * ([1, 2, 3, 4, 5, 6, 7, 8] : List ℚ).length / 100 : ℚ) ≤ 25 / 100 ∧ ¬ Int.fract (15 * 10 / 100 : ℚ) ≤ 15 / 100 := by
  decide +kernel

end Verif.Filter

namespace Verif.Weigher

/-- **C14**, exactly: the sum, product, … of a weigher and a number returns if and only if the weigher gives exactly two weights,
and the result is made of the first one. -/
theorem C14_exactly {P : Type} (w : W P) (f : Rat → Rat) (pts : List P) (o : Out) :
    unaryWeigh w f pts = .ok o ↔ ∃ a b, w pts = .ok (.vec [a, b]) ∧ o = .scalar (f a) := by
  unfold unaryWeigh
  constructor
  · intro h
    match hw : w pts, h with
    | .error e, h => simp [unpack] at h
    | .ok (.scalar a), h => simp [unpack] at h
    | .ok (.vec []), h => simp [unpack] at h
    | .ok (.vec [a]), h => simp [unpack] at h
    | .ok (.vec [a, b]), h =>
      simp only [unpack] at h
      exact ⟨a, b, rfl, (Except.ok.inj h).symm⟩
    | .ok (.vec (a :: b :: c :: l)), h => simp [unpack] at h
  · rintro ⟨a, b, hw, rfl⟩
    simp only [hw, unpack]

example : unaryWeigh (fun _ : List ℕ => .ok (.vec [3, 5])) (· * 2) [1, 2] = .ok (.scalar 6) ∧
    ∀ o, unaryWeigh (fun _ : List ℕ => .ok (.vec [3, 5, 7])) (· * 2) [1, 2, 3] ≠ .ok o := by
  refine ⟨(C14_exactly _ _ _ _).mpr ⟨3, 5, rfl, by norm_num⟩, fun o h => ?_⟩
  obtain ⟨a, b, h, -⟩ := (C14_exactly _ _ _ _).mp h
  simp at h

/-- **C14 is false** for all weighers and all points: one weight per point is never given. -/
theorem C14_weights_false {P : Type} (v w : W P) (f : Rat → Rat) (g : Rat → Rat → Rat) (pts : List P) (ws : List Rat) :
    unaryWeigh w f pts ≠ .ok (.vec ws) ∧ binaryWeigh v w g pts ≠ .ok (.vec ws) := by
  constructor
  · intro h
    obtain ⟨a, b, -, h'⟩ := (C14_exactly w f pts _).1 h
    cases h'
  · intro h
    unfold binaryWeigh at h
    split at h
    · cases h
    · split at h
      · cases h
      · cases h

/-- **C17**, exactly: `x(s) == a` is the conjunction of both comparisons with sharpness `s` if and only if `s` is the default. -/
theorem C17_exactly {d s : ℝ} (hs : 0 < s) (hd : 0 < d) (a : ℝ) :
    (((FuzzyVar.init d).call s).eq a).1 =
      FuzzyBool.and (((FuzzyVar.init d).call s).compare 1 a).1 (((FuzzyVar.init d).call s).compare (-1) a).1 ↔ s = d := by
  constructor
  · intro h
    have := congrFun h (a - 1)
    simp only [FuzzyVar.eq, FuzzyVar.compare, FuzzyVar.call, FuzzyVar.take, FuzzyVar.init, FuzzyBool.and, sigmoid] at this
    have e1 : a - 1 - a = -1 := by ring
    rw [e1] at this
    have h1 : Real.exp (1 * s * -1) < 1 := by rw [Real.exp_lt_one_iff]; linarith
    have h2 : (1 : ℝ) < Real.exp (-1 * d * -1) := by rw [Real.one_lt_exp_iff]; linarith
    have h3 : (1 : ℝ) < Real.exp (-1 * s * -1) := by rw [Real.one_lt_exp_iff]; linarith
    have p1 := Real.exp_pos (1 * s * -1)
    have l1 : 1 / (1 + Real.exp (-1 * d * -1)) < 1 / (1 + Real.exp (1 * s * -1)) :=
      one_div_lt_one_div_of_lt (by positivity) (by linarith)
    have l2 : 1 / (1 + Real.exp (-1 * s * -1)) < 1 / (1 + Real.exp (1 * s * -1)) :=
      one_div_lt_one_div_of_lt (by positivity) (by linarith)
    rw [min_eq_right l1.le, min_eq_right l2.le, one_div, one_div, inv_inj, add_right_inj, Real.exp_eq_exp] at this
    linarith
  · rintro rfl
    rfl

example : ¬ (((FuzzyVar.init 1).call 2).eq 3).1 =
    FuzzyBool.and (((FuzzyVar.init 1).call 2).compare 1 3).1 (((FuzzyVar.init 1).call 2).compare (-1) 3).1 :=
  fun h => absurd ((C17_exactly (by norm_num) (by norm_num) 3).1 h) (by norm_num)

end Verif.Weigher

namespace Verif.Influence

variable {K : Type} [Field K] [LinearOrder K] [IsStrictOrderedRing K] [FloorRing K]

/-- **C48**, exactly: for single values the corrected angle is used if and only if it makes no difference. -/
theorem C48_exactly (shift : K) (pd : K → K → Except PyErr K) (ws wa : K) :
    correctingAdd shift pd (.one ws wa) = (pd ws (pmod (wa + shift) 360)).map .one ↔
      pd ws wa = pd ws (pmod (wa + shift) 360) := by
  simp only [correctingAdd]
  constructor
  · intro h
    cases h1 : pd ws wa with
    | error e =>
      cases h2 : pd ws (pmod (wa + shift) 360) with
      | error e' => simpa [h1, h2, Except.map] using h
      | ok y => simp [h1, h2, Except.map] at h
    | ok x =>
      cases h2 : pd ws (pmod (wa + shift) 360) with
      | error e' => simp [h1, h2, Except.map] at h
      | ok y => simpa [h1, h2, Except.map] using h
  · intro h
    rw [h]

example : correctingAdd (360 : ℚ) (fun w a => .ok (w + a)) (.one 5 40) = .ok (.one 45) ∧
    correctingAdd (10 : ℚ) (fun w a => .ok (w + a)) (.one 5 40) ≠ .ok (.one 55) := by
  have h1 : pmod (40 + 360 : ℚ) 360 = 40 := by decide +kernel
  have h2 : pmod (40 + 10 : ℚ) 360 = 50 := by decide +kernel
  have e1 := C48_exactly (360 : ℚ) (fun w a => .ok (w + a)) 5 40
  have e2 := C48_exactly (10 : ℚ) (fun w a => .ok (w + a)) 5 40
  rw [h1] at e1
  rw [h2] at e2
  constructor
  · rw [e1.mpr rfl]
    norm_num [Except.map]
  · intro h
    have := e2.mp (by rw [h]; norm_num [Except.map])
    norm_num at this

end Verif.Influence
