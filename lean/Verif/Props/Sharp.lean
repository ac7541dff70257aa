import Verif.Props.Data
import Verif.Props.WeigherSym
import Verif.Props.Course

/-!
# Exact conditions

For properties that only hold with restrictions: the exact set of cases in which they hold, or what happens in the other cases.
-/

set_option linter.unusedSectionVars false

namespace Verif.Data

variable {κ V τ : Type} [DecidableEq κ] [DecidableEq τ] [HasType V τ]

/-! ## C04 and C05: tables without columns -/

/-- The object with its number of rows set to zero if there are no columns. -/
def withoutHeight (d : Data κ V τ) : Data κ V τ := { d with maxLen := if d.cols = [] then 0 else d.maxLen }

theorem rect_withoutHeight {d : Data κ V τ} (h : Rect d) : Rect (withoutHeight d) := by
  refine ⟨h.nodup, ?_, ?_⟩
  · unfold withoutHeight
    simp only
    split
    · exact le_refl _
    · exact h.nonneg
  · intro k c hc
    have hne : d.cols ≠ [] := by
      intro e
      simp only [withoutHeight, e] at hc
      cases hc
    simp only [withoutHeight, if_neg hne]
    exact h.eq k c hc

theorem forEach_withoutHeight (ds : List (Data κ V τ)) (D : Data κ V τ) :
    Res.forEach updateData ds D = Res.forEach updateData (ds.map withoutHeight) D := by
  induction ds generalizing D with
  | nil => rfl
  | cons d ds ih =>
    simp only [List.map_cons, Res.forEach]
    have e : updateData D (withoutHeight d) = updateData D d := rfl
    rw [e]
    rcases updateData D d with ⟨D1, _ | e⟩
    · exact ih D1
    · rfl

/-- **C04** for all lists: a table without columns (e.g. one whose columns have been deleted) contributes no rows, even if it has
some. -/
theorem C04_all {ds : List (Data κ V τ)} {D' : Data κ V τ} (hds : ∀ d ∈ ds, Reachable d) (h : concatenate ds = (D', none)) :
    D'.nRows = (ds.map fun d => if d.keys = [] then 0 else d.nRows).sum ∧
    (∀ k, k ∈ D'.keys ↔ ∃ d ∈ ds, k ∈ d.keys) ∧
    ∀ k ∈ D'.keys, colOf D' k = ds.flatMap fun d =>
      if k ∈ d.keys then colOf d k else if d.keys = [] then [] else List.replicate d.nRows.toNat none := by
  unfold concatenate at h
  rw [forEach_withoutHeight] at h
  obtain ⟨h1, h2, h3⟩ := forEach_updateData (D := empty) (fun d hd => by
    obtain ⟨d', hd', rfl⟩ := List.mem_map.1 hd
    exact ⟨rect_withoutHeight (hds d' hd').rect, fun hc => by
      have hc' : d'.cols = [] := hc
      simp [withoutHeight, hc']⟩) rect_empty h
  have hk : ∀ d : Data κ V τ, d.keys = [] ↔ d.cols = [] := fun d => by simp [keys, Dict.keys]
  refine ⟨?_, fun k => ?_, ?_⟩
  · rw [h1, List.map_map]
    simp only [nRows, empty, zero_add]
    congr 1
    apply List.map_congr_left
    intro d _
    simp only [Function.comp, withoutHeight, hk]
    rfl
  · rw [h2 k]
    simp only [keys, empty, Dict.keys, List.map_nil, List.not_mem_nil, false_or, List.mem_map]
    constructor
    · rintro ⟨d, ⟨d', hd', rfl⟩, h⟩; exact ⟨d', hd', h⟩
    · rintro ⟨d, hd, h⟩; exact ⟨_, ⟨d, hd, rfl⟩, h⟩
  · intro k hkD
    rw [h3 k hkD]
    have e0 : block k (empty : Data κ V τ) = [] := by simp [block, keys, empty, nRows]
    rw [e0, List.nil_append, List.flatMap_map]
    congr 1
    funext d
    unfold block
    by_cases hkd : k ∈ d.keys
    · have : k ∈ (withoutHeight d).keys := hkd
      rw [if_pos this, if_pos hkd]
      rfl
    · have : k ∉ (withoutHeight d).keys := hkd
      rw [if_neg this, if_neg hkd]
      by_cases hc : d.cols = []
      · rw [if_pos ((hk d).2 hc)]
        simp [withoutHeight, hc, nRows]
      · rw [if_neg (fun e => hc ((hk d).1 e))]
        simp [withoutHeight, hc, nRows]

/-- A table with two rows and no column. -/
def bare : Data String Val Ty := (deleteCol (update empty [("TWS", .list [some (.int 1), some (.int 2)])] false).1 "TWS").1

theorem bare_reachable : Reachable bare :=
  .deleteCol (D := (update empty [("TWS", .list [some (.int 1), some (.int 2)])] false).1) (k := "TWS")
    (.update .empty (d := [("TWS", .list [some (.int 1), some (.int 2)])]) (compress := false) (by decide)) (by decide)

example : bare.nRows = 2 ∧ ∃ D', concatenate [bare] = (D', none) ∧ D'.nRows = 0 := ⟨by decide, _, Prod.ext rfl (by decide), by decide⟩

/-- **C05 is false** for tables without columns: a table with rows, all of whose columns have been deleted, has no rows after
masking, whatever the mask. -/
theorem C05_no_columns_false {D : Data κ V τ} (hk : D.keys = []) (mask : List Bool) :
    (getItem D (.mask mask)).rows = some [] ∧ (getItem D (.mask mask)).nRows = 0 := by
  have hc : D.cols = [] := by simpa [keys, Dict.keys] using hk
  simp [getItem, maskRows, hc, Dict.mapVals, maxColLen, rows, nRows]

example : bare.rows = some [[], []] ∧ (getItem bare (.mask [true, true])).rows = some [] := by decide

/-! ## C06: deleting rows -/

theorem length_without {α : Type} (idx : List Int) (l : List α) :
    (without idx l).length + ((List.range l.length).filter fun i : Nat => decide ((i : Int) ∈ idx)).length = l.length := by
  have e : (without idx l).length = ((List.range l.length).filter fun i : Nat => !decide ((i : Int) ∈ idx)).length := by
    unfold without
    have hr : List.range l.length = l.zipIdx.map Prod.snd := by simp [List.range_eq_range']
    rw [hr, List.filter_map, List.length_map, List.length_map]
    congr 2
    funext p
    simp [Function.comp]
  rw [e, add_comm]
  have := List.length_eq_length_filter_add (l := List.range l.length) fun i : Nat => decide ((i : Int) ∈ idx)
  simp only [List.length_range] at this
  exact this.symm

/-- **C06**: the number of rows is right exactly if the given indices are distinct and exist. -/
theorem C06_exactly {D : Data κ V τ} (h : Reachable D) (idx : List Int) {rs : List (Dict κ (Option V))} (hrs : D.rows = some rs) :
    (deleteRows D idx).nRows = ((without idx rs).length : Int) ↔ idx.Nodup ∧ ∀ i ∈ idx, 0 ≤ i ∧ i < D.nRows := by
  constructor
  · intro he
    obtain ⟨rs', h1, h2⟩ := (C01_rectangular h).2
    rw [hrs, Option.some.injEq] at h1
    subst h1
    have hw := length_without idx rs
    have hn : (deleteRows D idx).nRows = D.nRows - idx.length := by
      unfold deleteRows nRows
      split
      · rename_i e; simp [e]
      · rfl
    rw [hn] at he
    set A := (List.range rs.length).filter fun i : Nat => decide ((i : Int) ∈ idx) with hA
    have hlen : idx.length = (A.map fun i : Nat => (i : Int)).length := by
      rw [List.length_map]
      omega
    have hnd : (A.map fun i : Nat => (i : Int)).Nodup :=
      (List.nodup_range.filter _).map fun a b e => by simpa using e
    have hsub : (A.map fun i : Nat => (i : Int)) ⊆ idx := by
      intro x hx
      obtain ⟨i, hi, rfl⟩ := List.mem_map.1 hx
      simpa using (List.mem_filter.1 hi).2
    have hp := (List.subperm_of_subset hnd hsub).perm_of_length_le (le_of_eq hlen)
    refine ⟨hp.nodup_iff.1 hnd, fun i hi => ?_⟩
    obtain ⟨j, hj, rfl⟩ := List.mem_map.1 (hp.mem_iff.2 hi)
    have := List.mem_range.1 (List.mem_filter.1 hj).1
    omega
  · rintro ⟨hnd, hv⟩
    exact (C06_delete_partial h hnd hv hrs).2

example : (deleteRows exData [0]).nRows = 1 ∧ (deleteRows exData [0, 0]).nRows = 0 := by decide

end Verif.Data

namespace Verif.Weigher

/-- **C121.** The same for `CylindricMeanWeigher`: movements of the winds that keep distances do not change the weights. -/
theorem C121_isometry_mean {P : Type} [Sub P] (norm : P → ℝ) (radius : ℝ) (points : List (P × ℝ)) {f : P → P}
    (hf : ∀ p q, norm (f p - f q) = norm (p - q)) :
    meanWeigh norm radius (points.map fun p => (f p.1, p.2)) = meanWeigh norm radius points := by
  have hc : ∀ p : P, cylinderSpeeds norm radius (points.map fun p => (f p.1, p.2)) (f p) = cylinderSpeeds norm radius points p := by
    intro p
    unfold cylinderSpeeds
    rw [List.filter_map, List.map_map]
    simp only [Function.comp_def, hf]
  unfold meanWeigh
  have e : (points.map fun p => (f p.1, p.2)).mapM (meanRaw norm radius (points.map fun p => (f p.1, p.2))) =
      points.mapM (meanRaw norm radius points) := by
    rw [List.mapM_map]
    congr 1
    funext p
    simp only [Function.comp, meanRaw, hc]
  rw [e]

example (points : List (ℝ × ℝ)) : meanWeigh (fun x : ℝ => |x|) 1 (points.map fun p => (p.1 + 5, p.2)) =
    meanWeigh (fun x : ℝ => |x|) 1 points :=
  C121_isometry_mean (f := fun p => p + 5) _ _ _ fun p q => by simp

end Verif.Weigher

namespace Verif.Cruising

/-! ## C46: which places are recovered -/

/-- **C46**: what really happens, for all longitudes except those where the projection is infinite (odd multiples of 90 degrees):
the latitude is kept and the longitude changed by a multiple of 180 degrees to a number between -90 and 90. -/
theorem C46_actual (latMp lat : ℝ) {long : ℝ} (hlong : Real.cos (Real.pi * long / 180) ≠ 0) :
    ∃ l : ℝ, inverseMercator latMp (mercator latMp (lat, long)) = (lat, l) ∧ -90 < l ∧ l < 90 ∧ ∃ k : ℤ, long = l + 180 * k := by
  have hpi := Real.pi_pos
  set k : ℤ := ⌊(long + 90) / 180⌋ with hk
  have k1 : (k : ℝ) ≤ (long + 90) / 180 := Int.floor_le _
  have k2 : (long + 90) / 180 < k + 1 := Int.lt_floor_add_one _
  rw [le_div_iff₀ (by norm_num)] at k1
  rw [div_lt_iff₀ (by norm_num)] at k2
  set l := long - 180 * k with hl
  have hne : l ≠ -90 := by
    intro e
    apply hlong
    have : Real.pi * long / 180 = -(Real.pi / 2) + k * Real.pi := by
      have : long = -90 + 180 * k := by linarith
      rw [this]; ring
    rw [this, Real.cos_eq_zero_iff]
    exact ⟨k - 1, by push_cast; ring⟩
  have l1 : -90 < l := lt_of_le_of_ne (by linarith) (Ne.symm hne)
  have l2 : l < 90 := by linarith
  refine ⟨l, ?_, l1, l2, k, by linarith⟩
  have e : mercator latMp (lat, long) = mercator latMp (lat, l) := by
    unfold mercator
    simp only
    have : Real.pi * long / 180 = Real.pi * l / 180 + k * Real.pi := by rw [hl]; ring
    rw [this, Real.tan_add_int_mul_pi]
  rw [e]
  exact C46_round_trip_partial latMp lat l l1 l2

/-- **C46**: the places that are recovered are exactly those with longitudes between -90 and 90. -/
theorem C46_exactly (latMp lat : ℝ) {long : ℝ} (hlong : Real.cos (Real.pi * long / 180) ≠ 0) :
    inverseMercator latMp (mercator latMp (lat, long)) = (lat, long) ↔ -90 < long ∧ long < 90 := by
  constructor
  · intro he
    obtain ⟨l, h1, h2, h3, -⟩ := C46_actual latMp lat hlong
    rw [he] at h1
    have := congrArg Prod.snd h1
    simp only at this
    rw [this]
    exact ⟨h2, h3⟩
  · rintro ⟨h1, h2⟩
    exact C46_round_trip_partial latMp lat long h1 h2

example : inverseMercator 50 (mercator 50 (54, 170)) ≠ (54, 170) := by
  have hc : Real.cos (Real.pi * 170 / 180) ≠ 0 := by
    have e : Real.pi * 170 / 180 = Real.pi - Real.pi / 18 := by ring
    rw [e, Real.cos_pi_sub, neg_ne_zero]
    exact (Real.cos_pos_of_mem_Ioo ⟨by linarith [Real.pi_pos], by linarith [Real.pi_pos]⟩).ne'
  rw [Ne, C46_exactly 50 54 hc]
  norm_num

end Verif.Cruising

namespace Verif.Course

/-! ## C75: which directions are right -/

/-- **C75**: travelling in the direction `d` really leads into the direction `90 - d`: the components on the map are exchanged. -/
theorem C75_exchanged (start : ℝ × ℝ) (direction s : ℝ) :
    let p := Cruising.mercator start.1 start
    let q := Cruising.mercator start.1 (isoEnd start direction s)
    q.1 - p.1 = s * Real.sin (direction * Real.pi / 180) ∧ q.2 - p.2 = s * Real.cos (direction * Real.pi / 180) := by
  intro p q
  have hq : q = (p.1 + s * (isoDirection direction).1, p.2 + s * (isoDirection direction).2) :=
    Cruising.C46_inverse start.1 _ _
  have e : Real.pi * (1 / 2 - direction / 180) = Real.pi / 2 - direction * Real.pi / 180 := by ring
  rw [hq]
  simp only [isoDirection, e, Real.cos_pi_div_two_sub, Real.sin_pi_div_two_sub, add_sub_cancel_left, and_self]

/-- **C75**: the direction is right (north is the first component of the map, east the second) exactly for the directions 45 and
225 degrees, up to full turns. -/
theorem C75_exactly (start : ℝ × ℝ) (direction : ℝ) {s : ℝ} (hs : s ≠ 0) :
    (let p := Cruising.mercator start.1 start
     let q := Cruising.mercator start.1 (isoEnd start direction s)
     q.1 - p.1 = s * Real.cos (direction * Real.pi / 180) ∧ q.2 - p.2 = s * Real.sin (direction * Real.pi / 180)) ↔
      ∃ k : ℤ, direction = 45 + 180 * k := by
  have h := C75_exchanged start direction s
  simp only at h ⊢
  rw [h.1, h.2]
  have hpi := Real.pi_pos
  constructor
  · rintro ⟨h1, -⟩
    have h1 := mul_left_cancel₀ hs h1
    have h2 : Real.sin (direction * Real.pi / 180 - Real.pi / 4) = 0 := by
      rw [Real.sin_sub, Real.cos_pi_div_four, Real.sin_pi_div_four, h1]
      ring
    obtain ⟨k, hk⟩ := Real.sin_eq_zero_iff.1 h2
    refine ⟨k, ?_⟩
    have : direction * Real.pi = (45 + 180 * k) * Real.pi := by linarith
    exact mul_right_cancel₀ hpi.ne' this
  · rintro ⟨k, rfl⟩
    have e : (45 + 180 * (k : ℝ)) * Real.pi / 180 = Real.pi / 4 + k * Real.pi := by ring
    have : Real.sin ((45 + 180 * (k : ℝ)) * Real.pi / 180) = Real.cos ((45 + 180 * (k : ℝ)) * Real.pi / 180) := by
      rw [e, Real.sin_add_int_mul_pi, Real.cos_add_int_mul_pi, Real.cos_pi_div_four, Real.sin_pi_div_four]
    rw [this]
    exact ⟨rfl, rfl⟩

example : ¬ ∃ k : ℤ, (0 : ℝ) = 45 + 180 * k := by
  rintro ⟨k, hk⟩
  have : (0 : ℤ) = 45 + 180 * k := by exact_mod_cast hk
  omega

end Verif.Course
