import Verif.Lemmas.Filter
import Verif.Props.Filter

/-!
# Property C119: the filters depend on the order of the weights only
-/

set_option linter.unusedSectionVars false

namespace Verif.Filter

variable {K : Type} [Field K] [LinearOrder K] [IsStrictOrderedRing K] [FloorRing K]

/-- The sorted weight at the rounded up position. -/
theorem le_iff_threshold {w : List K} (hw : w ≠ []) {p : K} (h0 : 0 ≤ p) (h1 : p ≤ 100) {x : K} (hx : x ∈ w) :
    percentile w p ≤ x ↔ (srt w).getD ⌈pos w p⌉.toNat 0 ≤ x := by
  obtain ⟨hi, hc, hg1⟩ := percentile_index hw h0 h1
  have hls := length_srt w
  set i := ⌊pos w p⌋.toNat with hidef
  have hlen := List.length_pos_iff.2 hw
  have hi' : i < (srt w).length := by omega
  have ha : (srt w).getD i 0 = (srt w)[i] := by simp [List.getD_eq_getElem?_getD, hi']
  have hb' : min (i + 1) (w.length - 1) < (srt w).length := by omega
  have hb : (srt w).getD (min (i + 1) (w.length - 1)) 0 = (srt w)[min (i + 1) (w.length - 1)] := by
    simp [List.getD_eq_getElem?_getD, hb']
  have hp : percentile w p = (srt w)[i] + (pos w p - ⌊pos w p⌋) *
      ((srt w)[min (i + 1) (w.length - 1)] - (srt w)[i]) := by
    rw [← ha, ← hb]
    rfl
  have hg0 : 0 ≤ pos w p - ⌊pos w p⌋ := by have := Int.floor_le (pos w p); linarith
  have hg2 : pos w p - ⌊pos w p⌋ < 1 := by have := Int.lt_floor_add_one (pos w p); linarith
  rcases eq_or_lt_of_le hg0 with hg | hg
  · have hpos : pos w p = ((⌊pos w p⌋ : Int) : K) := by linarith
    have hceil : ⌈pos w p⌉ = ⌊pos w p⌋ := by
      conv_lhs => rw [hpos]
      exact Int.ceil_intCast _
    rw [← hg] at hp
    simp only [zero_mul, add_zero] at hp
    rw [hceil, hp, ← hidef, ha]
  · have hi1 := hg1 hg
    have hmin : min (i + 1) (w.length - 1) = i + 1 := by omega
    have hi1' : i + 1 < (srt w).length := by omega
    have hceil : ⌈pos w p⌉.toNat = i + 1 := by
      have : ⌈pos w p⌉ = ⌊pos w p⌋ + 1 := by
        rw [Int.ceil_eq_iff]
        push_cast
        constructor <;> linarith
      omega
    simp only [hmin] at hp
    have hm := srt_mono w (Nat.le_succ i) hi1'
    have hd : (srt w).getD (i + 1) 0 = (srt w)[i + 1] := by simp [List.getD_eq_getElem?_getD, hi1']
    rw [hceil, hd, hp]
    have hxs : x ∈ srt w := (List.perm_insertionSort (· ≤ ·) w).mem_iff.2 hx
    obtain ⟨j, hj, rfl⟩ := List.getElem_of_mem hxs
    constructor
    · intro h
      rcases Nat.lt_or_ge j (i + 1) with hlt | hge
      · have h3 := srt_mono w (show j ≤ i by omega) hi'
        have : (srt w)[i] = (srt w)[i + 1] := by
          by_contra hne
          have := lt_of_le_of_ne hm hne
          have := mul_pos hg (sub_pos.2 this)
          linarith
        rw [← this] at h ⊢
        simpa using h
      · exact srt_mono w hge hj
    · intro h
      nlinarith

theorem mem_ne_nil {w : List K} {x : K} {i : Nat} (h : w[i]? = some x) : w ≠ [] := by
  rintro rfl
  simp at h

theorem quantile_get {p : K} {w : List K} {i : Nat} {x : K} (h : w[i]? = some x) :
    (quantileFilter p w).1[i]? = some (decide (percentile w p ≤ x)) := by
  have hl : ¬ w.length = 0 := by simpa using mem_ne_nil h
  simp [quantileFilter, hl, h]

theorem srt_map {w : List K} {f : K → K} (hf : ∀ x ∈ w, ∀ y ∈ w, x < y → f x < f y) : srt (w.map f) = (srt w).map f := by
  unfold srt
  rw [List.map_insertionSort (r := (· ≤ ·)) (s := (· ≤ ·))]
  intro a ha b hb
  constructor
  · intro h
    rcases eq_or_lt_of_le h with rfl | h
    · exact le_refl _
    · exact (hf a ha b hb h).le
  · intro h
    by_contra hc
    exact absurd (hf b hb a ha (not_le.1 hc)) (not_lt.2 h)

/-- **C119.** Changing the weights by a function that increases strictly, e.g. to other units, does not change which points
`QuantileFilter` keeps nor its statistics. -/
theorem C119_order {percent : K} (h0 : 0 ≤ percent) (h1 : percent ≤ 100) {wts : List K} {f : K → K}
    (hf : ∀ x ∈ wts, ∀ y ∈ wts, x < y → f x < f y) :
    quantileFilter percent (wts.map f) = quantileFilter percent wts := by
  by_cases hw : wts = []
  · subst hw; rfl
  have hw' : wts.map f ≠ [] := by simpa using hw
  have hpos : pos (wts.map f) percent = pos wts percent := by simp [pos]
  have hmask : ∀ x ∈ wts, decide (f x ≥ percentile (wts.map f) percent) = decide (x ≥ percentile wts percent) := by
    intro x hx
    rw [decide_eq_decide, ge_iff_le, ge_iff_le, le_iff_threshold hw' h0 h1 (List.mem_map_of_mem hx),
      le_iff_threshold hw h0 h1 hx, hpos, srt_map hf]
    have hlt : ⌈pos wts percent⌉.toNat < (srt wts).length := by
      have := ceil_pos_lt hw h1
      have := ceil_pos_nonneg hw h0
      rw [length_srt]
      omega
    have hm : (srt wts)[⌈pos wts percent⌉.toNat] ∈ wts :=
      (List.perm_insertionSort (· ≤ ·) wts).mem_iff.1 (List.getElem_mem hlt)
    simp only [List.getD_eq_getElem?_getD, List.getElem?_map, List.getElem?_eq_getElem hlt, Option.map_some,
      Option.getD_some]
    constructor
    · intro h
      by_contra hc
      exact absurd (hf x hx _ hm (not_le.1 hc)) (not_lt.2 h)
    · intro h
      rcases eq_or_lt_of_le h with he | h
      · rw [he]
      · exact (hf _ hm x hx h).le
  have hl : ¬ wts.length = 0 := by simpa using hw
  have e : (wts.map f).map (fun w => decide (w ≥ percentile (wts.map f) percent)) =
      wts.map fun w => decide (w ≥ percentile wts percent) := by
    rw [List.map_map]
    exact List.map_congr_left hmask
  unfold quantileFilter
  simp only [List.length_map, if_neg hl, e]

example : quantileFilter (30 : Rat) ([1, 2, 3].map fun x : Rat => x ^ 2) = quantileFilter (30 : Rat) [1, 2, 3] :=
  C119_order (by norm_num) (by norm_num) (by decide +kernel)

/-- **C119.** A greater percentage keeps fewer points. -/
theorem C119_percent {p q : K} (h0 : 0 ≤ p) (hpq : p ≤ q) (h1 : q ≤ 100) {wts : List K} {i : Nat}
    (h : (quantileFilter q wts).1[i]? = some true) : (quantileFilter p wts).1[i]? = some true := by
  have hlen := (C11_upward_closed q wts).1
  have hi : i < wts.length := by
    rw [← hlen]
    exact (List.getElem?_eq_some_iff.1 h).1
  have hx : wts[i]? = some wts[i] := List.getElem?_eq_getElem hi
  have hw := mem_ne_nil hx
  rw [quantile_get hx, Option.some.injEq, decide_eq_true_eq] at h ⊢
  rw [le_iff_threshold hw (h0.trans hpq) h1 (List.getElem_mem hi)] at h
  rw [le_iff_threshold hw h0 (hpq.trans h1) (List.getElem_mem hi)]
  refine le_trans ?_ h
  have hpos : pos wts p ≤ pos wts q := by
    unfold pos
    have : (1 : K) ≤ wts.length := by exact_mod_cast List.length_pos_iff.2 hw
    gcongr
  have hc := Int.ceil_le_ceil hpos
  have h2 := ceil_pos_nonneg hw h0
  have h3 := ceil_pos_lt hw h1
  have hj : ⌈pos wts q⌉.toNat < (srt wts).length := by rw [length_srt]; omega
  have hij : ⌈pos wts p⌉.toNat ≤ ⌈pos wts q⌉.toNat := by omega
  simp only [List.getD_eq_getElem?_getD, List.getElem?_eq_getElem hj, List.getElem?_eq_getElem (lt_of_le_of_lt hij hj),
    Option.getD_some]
  exact srt_mono wts hij hj

example : (quantileFilter (80 : Rat) [1, 2, 3]).1[2]? = some true := by decide +kernel

theorem percentile_perm {w w' : List K} (h : w.Perm w') (p : K) : percentile w p = percentile w' p := by
  unfold percentile
  have : w.insertionSort (· ≤ ·) = w'.insertionSort (· ≤ ·) :=
    List.Perm.eq_of_pairwise (fun _ _ _ _ => le_antisymm) (List.pairwise_insertionSort _ _) (List.pairwise_insertionSort _ _)
      ((List.perm_insertionSort _ _).trans (h.trans (List.perm_insertionSort _ _).symm))
  simp only [this, h.length_eq]

/-- **C119.** The order of the points does not matter: points with equal weights are both kept or both not kept, also if the
points are permuted. -/
theorem C119_permutation (percent : K) {wts wts' : List K} (h : wts.Perm wts') {i j : Nat} {x : K} (hi : wts[i]? = some x)
    (hj : wts'[j]? = some x) : (quantileFilter percent wts).1[i]? = (quantileFilter percent wts').1[j]? := by
  rw [quantile_get hi, quantile_get hj, percentile_perm h]

example : [1, 2, 3].Perm [3, 1, (2 : Rat)] ∧ [1, 2, (3 : Rat)][1]? = some 2 ∧ [3, 1, (2 : Rat)][2]? = some 2 := by decide

/-- **C119.** Wider bounds keep more points; filtering by two pairs of bounds is filtering by the greater lower and the
smaller upper bound. -/
theorem C119_bounds {lo hi lo' hi' : K} {wts : List K} {i : Nat} :
    (lo ≤ lo' → hi' ≤ hi → (boundFilter lo' hi' wts).1[i]? = some true → (boundFilter lo hi wts).1[i]? = some true) ∧
    ((boundFilter lo hi wts).1[i]? = some true ∧ (boundFilter lo' hi' wts).1[i]? = some true ↔
      (boundFilter (max lo lo') (min hi hi') wts).1[i]? = some true) := by
  by_cases hl : i < wts.length
  · have hx : wts[i]? = some wts[i] := List.getElem?_eq_getElem hl
    rw [(C12_bounds lo hi wts).2 i _ hx, (C12_bounds lo' hi' wts).2 i _ hx,
      (C12_bounds (max lo lo') (min hi hi') wts).2 i _ hx, max_le_iff, le_min_iff]
    constructor
    · intro h1 h2 h
      exact ⟨h1.trans h.1, h.2.trans h2⟩
    · tauto
  · have hn : ∀ a b : K, (boundFilter a b wts).1[i]? = none := by
      intro a b
      rw [List.getElem?_eq_none_iff, (C12_bounds a b wts).1]
      omega
    simp [hn]

example : (boundFilter (2 : Rat) 3 [1, 2, 3, 4]).1 = [false, true, true, false] := by decide +kernel

/-- **C119.** Changing weights and bounds by a function that increases strictly does not change which points `BoundFilter`
keeps. -/
theorem C119_bounds_order {lo hi : K} {wts : List K} {f : K → K} (hf : StrictMono f) :
    boundFilter (f lo) (f hi) (wts.map f) = boundFilter lo hi wts := by
  unfold boundFilter
  simp [List.map_map, Function.comp_def, hf.le_iff_le]

example : boundFilter (2 * 2 + 1 : Rat) (2 * 3 + 1) ([1, 2, 3, 4].map fun x => 2 * x + 1) = boundFilter (2 : Rat) 3 [1, 2, 3, 4] :=
  C119_bounds_order (f := fun x : Rat => 2 * x + 1) fun x y h => by simpa using h

end Verif.Filter
