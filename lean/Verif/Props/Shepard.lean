import Verif.Props.Interpolator
import Verif.Model.Shepard
import Mathlib.Tactic.FieldSimp
import Mathlib.Tactic.Linarith
import Mathlib.Tactic.Ring
import Mathlib.Tactic.IntervalCases

/-!
# Property C86: the interpolator of Shepard
-/

set_option linter.unusedSectionVars false

namespace Verif.Shepard

open Verif.Interp

variable {K : Type} [Field K] [LinearOrder K] [IsStrictOrderedRing K]

/-! ### Auxiliary facts -/

/-- The rows computed from the data. -/
def rowsOf (norm2 : K × K → K) (pts : List (Pt K)) (g : K × K) (w : K → K) : List (Row K) :=
  pts.map fun p => (p, norm2 (p.1 - g), w (norm2 (p.1 - g)))

theorem zip_rows (norm2 : K × K → K) (pts : List (Pt K)) (g : K × K) (w : K → K) :
    pts.zip ((dists norm2 pts g).zip ((dists norm2 pts g).map w)) = rowsOf norm2 pts g w := by
  induction pts with
  | nil => rfl
  | cons p ps ih =>
    simp only [dists, rowsOf, List.map_cons, List.zip_cons_cons] at ih ⊢
    rw [ih]

theorem shepard_eq {nhood : Nhood K} {norm2 : K × K → K} {norm3 : Pt K → K} {sqrt : K → K} {tol slope : K}
    {pts : List (Pt K)} {g : K × K} (hp : pts ≠ []) (h : firstAtZero norm2 g pts = none) :
    ∃ w : K → K, shepard nhood norm2 norm3 sqrt tol slope pts g =
      evaluate nhood norm3 sqrt tol slope g (rowsOf norm2 pts g w) := by
  obtain ⟨p, ps, rfl⟩ := List.exists_cons_of_ne_nil hp
  refine ⟨setWeight (maxOf (norm2 (p.1 - g)) (dists norm2 ps g)), ?_⟩
  rw [← zip_rows]
  simp only [shepard, h, dists, List.map_cons, setWeights]

theorem derivs_ok {nhood : Nhood K} (hn : ∀ l, ∃ m, nhood l = .ok m) (norm3 : Pt K → K) (rows : List (Row K)) :
    ∃ ds, derivs nhood norm3 rows = .ok ds ∧ ds.length = rows.length ∧
      ∀ (i : Nat) p, rows[i]? = some p → ∃ m, nhood ((rows.eraseIdx i).map fun q => q.1 - p.1) = .ok m ∧
        ds[i]? = some (deriv norm3 p (masked (rows.eraseIdx i) m)) := by
  choose m hm using hn
  have key : ∀ l : List (Row K × List (Row K)),
      (l.mapM fun c => derivAt nhood norm3 c.1 c.2) =
        .ok (l.map fun c => deriv norm3 c.1 (masked c.2 (m (c.2.map fun q => q.1 - c.1.1)))) := by
    intro l
    induction l with
    | nil => rfl
    | cons a l ih =>
      rw [List.mapM_cons, ih]
      simp [derivAt, hm, bind, Except.bind, pure, Except.pure]
  refine ⟨_, key _, by simp, ?_⟩
  intro i p hp
  exact ⟨_, hm _, by simp [List.getElem?_mapIdx, hp]⟩

theorem near_eq (norm2 : K × K → K) (pts : List (Pt K)) (g : K × K) (w : K → K) (tol : K) :
    (rowsOf norm2 pts g w).filter (fun p => decide (p.2.1 < tol)) =
      rowsOf norm2 (pts.filter fun p => decide (norm2 (p.1 - g) < tol)) g w := by
  simp only [rowsOf, List.filter_map]
  congr 1

theorem rows_with (g : K × K) (rows : List (Row K)) :
    ((reweighted rows (includeDirection g rows)).map fun p => p.1) = rows.map fun p => p.1 := by
  unfold includeDirection
  simp only
  split_ifs with h
  · rfl
  · simp only [reweighted, List.map_zipWith]
    refine List.ext_getElem (by simp) fun i h1 h2 => ?_
    simp

/-- The rows used for the slopes. -/
theorem rows_with_length (g : K × K) (rows : List (Row K)) :
    (reweighted rows (includeDirection g rows)).length = rows.length := by
  have := congrArg List.length (rows_with g rows)
  simpa using this

/-! ## C86 -/

/-- **C86.** The tolerance and the slope have to be positive. -/
theorem C86_init (tol slope : K) :
    (0 < tol → 0 < slope → init tol slope = .ok (tol, slope)) ∧
      (tol ≤ 0 ∨ slope ≤ 0 → init tol slope = .error .valueError) := by
  constructor
  · intro h1 h2
    simp [init, not_le.2 h1, not_le.2 h2]
  · rintro (h | h)
    · simp [init, h]
    · simp only [init, h, if_true]
      split_ifs <;> rfl

/-- **C86.** At a data point the interpolator returns the stored boat speed, for all data and neighbourhoods. -/
theorem C86_exact {norm2 : K × K → K} (hn : IsDist norm2) (nhood : Nhood K) (norm3 : Pt K → K) (sqrt : K → K)
    (tol slope : K) {pts : List (Pt K)} {g : K × K} {v : K} (h : FirstStored pts g v) :
    shepard nhood norm2 norm3 sqrt tol slope pts g = .ok (some v) := by
  simp [shepard, firstAtZero_stored hn h]

/-- **C86.** Without data a `ValueError` is raised. -/
theorem C86_empty (norm2 : K × K → K) (nhood : Nhood K) (norm3 : Pt K → K) (sqrt : K → K) (tol slope : K) (g : K × K) :
    shepard nhood norm2 norm3 sqrt tol slope [] g = .error .valueError := rfl

/-- **C86.** If some data points are closer than the tolerance, the result is the mean of their boat speeds. -/
theorem C86_tolerance {norm2 : K × K → K} (hn : IsDist norm2) {nhood : Nhood K} (hh : ∀ l, ∃ m, nhood l = .ok m)
    (norm3 : Pt K → K) (sqrt : K → K) (tol slope : K) {pts near : List (Pt K)} {g : K × K} (h : NotStored pts g)
    (hnear : pts.filter (fun p => decide (norm2 (p.1 - g) < tol)) = near) (hne : near ≠ []) :
    shepard nhood norm2 norm3 sqrt tol slope pts g = .ok (some ((near.map Prod.snd).sum / near.length)) := by
  have hp : pts ≠ [] := by
    rintro rfl
    exact hne (by simpa using hnear.symm)
  obtain ⟨w, hw⟩ := shepard_eq (nhood := nhood) (norm3 := norm3) (sqrt := sqrt) (tol := tol) (slope := slope) hp
    (firstAtZero_notStored hn h)
  rw [hw]
  unfold evaluate
  simp only
  obtain ⟨ds, hds, -⟩ := derivs_ok hh norm3 (reweighted (rowsOf norm2 pts g w) (includeDirection g (rowsOf norm2 pts g w)))
  rw [hds]
  simp only
  rw [near_eq, hnear]
  obtain ⟨q, qs, rfl⟩ := List.exists_cons_of_ne_nil hne
  simp [rowsOf, Function.comp_def]

/-- What remains of `evaluate` when no data point is within the tolerance. -/
theorem evaluate_far {norm2 : K × K → K} {tol : K} {pts : List (Pt K)} {g : K × K} {w : K → K} (hf : ∀ p ∈ pts, tol ≤ norm2 (p.1 - g)) :
    (rowsOf norm2 pts g w).filter (fun p => decide (p.2.1 < tol)) = [] := by
  rw [near_eq, List.filter_eq_nil_iff.2]
  · rfl
  · intro p hp
    simpa using hf p hp

theorem deriv_const {norm3 : Pt K → K} {p : Row K} {near : List (Row K)} {d : K × K}
    (h : deriv norm3 p near = some d) (hc : ∀ q ∈ near, q.1.2 = p.1.2) : d = (0, 0) := by
  unfold deriv at h
  simp only at h
  split_ifs at h
  obtain rfl := Option.some.inj h
  have : ∀ f : Row K → K, (near.map fun q => q.2.2 * (q.1.2 - p.1.2) * f q / norm3 (q.1 - p.1) ^ 2).sum = 0 := by
    intro f
    apply List.sum_eq_zero
    intro x hx
    obtain ⟨q, hq, rfl⟩ := List.mem_map.1 hx
    simp [hc q hq]
  rw [this (fun q => q.1.1.1 - p.1.1.1), this (fun q => q.1.1.2 - p.1.1.2)]
  simp

theorem masked_subset {α : Type} (l : List α) (m : List Bool) : ∀ x ∈ masked l m, x ∈ l := by
  induction l generalizing m with
  | nil => intro x hx; simp [masked] at hx
  | cons a l ih =>
    intro x hx
    cases m with
    | nil => simp [masked] at hx
    | cons b m =>
      simp only [masked] at hx
      split_ifs at hx
      · rcases List.mem_cons.1 hx with rfl | hx
        · simp
        · exact List.mem_cons_of_mem _ (ih m x hx)
      · exact List.mem_cons_of_mem _ (ih m x hx)

theorem mapM_id_some {α : Type} {l : List (Option α)} {r : List α} (h : l.mapM id = some r) : l = r.map some := by
  induction l generalizing r with
  | nil => simp at h; subst h; rfl
  | cons a l ih =>
    simp only [List.mapM_cons, id] at h
    cases a with
    | none => simp at h
    | some a =>
      cases hl : l.mapM id with
      | none => simp [hl] at h
      | some r' =>
        simp [hl] at h
        subst h
        simp [ih hl]

/-- **C86 (negative).** Constant data is not reproduced: if all boat speeds are equal, then the result is not a number
for every point which is neither a data point nor closer than the tolerance to one. -/
theorem C86_constant_false {norm2 : K × K → K} (hn : IsDist norm2) {nhood : Nhood K} (hh : ∀ l, ∃ m, nhood l = .ok m)
    (norm3 : Pt K → K) {sqrt : K → K} (hs : sqrt 0 = 0) (tol slope : K) {pts : List (Pt K)} {g : K × K}
    (hp : pts ≠ []) (h : NotStored pts g) (hf : ∀ p ∈ pts, tol ≤ norm2 (p.1 - g)) {c : K} (hc : ∀ p ∈ pts, p.2 = c) :
    shepard nhood norm2 norm3 sqrt tol slope pts g = .ok none := by
  obtain ⟨w, hw⟩ := shepard_eq (nhood := nhood) (norm3 := norm3) (sqrt := sqrt) (tol := tol) (slope := slope) hp
    (firstAtZero_notStored hn h)
  rw [hw]
  unfold evaluate
  simp only
  set rows' := (reweighted (rowsOf norm2 pts g w) (includeDirection g (rowsOf norm2 pts g w))) with hrows
  have hmem : ∀ q ∈ rows', q.1.2 = c := by
    intro q hq
    have : q.1 ∈ rows'.map fun p => p.1 := List.mem_map_of_mem (f := fun p : Row K => p.1) hq
    rw [hrows, rows_with] at this
    obtain ⟨q', hq', he⟩ := List.mem_map.1 this
    obtain ⟨p, hp', rfl⟩ := List.mem_map.1 hq'
    rw [← he]
    exact hc p hp'
  have hlen : rows'.length = pts.length := by
    rw [hrows, rows_with_length]
    simp [rowsOf]
  obtain ⟨ds, hds, hl, hd⟩ := derivs_ok hh norm3 rows'
  rw [hds]
  simp only [evaluate_far hf]
  cases hi : includeDirection g (rowsOf norm2 pts g w) with
  | none => rfl
  | some ws =>
    cases hm : ds.mapM id with
    | none => rfl
    | some r =>
      have hr := mapM_id_some hm
      have hz : ∀ d ∈ r, d = (0, 0) := by
        intro d hdm
        obtain ⟨i, hi⟩ := List.mem_iff_getElem?.1 hdm
        have h1 : ds[i]? = some (some d) := by rw [hr]; simp [hi]
        have hi' : i < rows'.length := by
          rw [← hl]
          exact (List.getElem?_eq_some_iff.1 h1).1
        obtain ⟨m, -, h2⟩ := hd i rows'[i] (List.getElem?_eq_getElem hi')
        rw [h1] at h2
        refine deriv_const (Option.some.inj h2).symm fun q hq => ?_
        rw [hmem q (List.mem_of_mem_eraseIdx (masked_subset _ _ q hq)), hmem _ (List.getElem_mem hi')]
      have hrl : r.length = pts.length := by
        rw [← hlen, ← hl, hr]
        simp
      have hzd : zdelta sqrt slope g rows' r = none := by
        obtain ⟨q, qs, hq⟩ : ∃ q qs, rows' = q :: qs := by
          cases hr' : rows' with
          | nil => rw [hr'] at hlen; exact absurd (List.length_eq_zero_iff.1 hlen.symm) hp
          | cons q qs => exact ⟨q, qs, rfl⟩
        obtain ⟨e, es, he⟩ : ∃ e es, r = e :: es := by
          cases hr' : r with
          | nil => rw [hr'] at hrl; exact absurd (List.length_eq_zero_iff.1 hrl.symm) hp
          | cons q qs => exact ⟨q, qs, rfl⟩
        rw [hq, he]
        simp only [zdelta, List.map_cons]
        have h0 : maxOf (e.1 ^ 2 + e.2 ^ 2) (es.map fun d => d.1 ^ 2 + d.2 ^ 2) = 0 := by
          have := maxOf_mem (e.1 ^ 2 + e.2 ^ 2) (es.map fun d => d.1 ^ 2 + d.2 ^ 2)
          rw [← List.map_cons (f := fun d : K × K => d.1 ^ 2 + d.2 ^ 2)] at this
          obtain ⟨d, hd, he'⟩ := List.mem_map.1 this
          rw [← he', hz d (he ▸ hd)]
          simp
        rw [h0, hs, if_pos rfl]
      simp [hzd]

/-- **C86 (negative).** One data point without any other data in its neighbourhood spoils the interpolation everywhere:
the result is not a number for every point which is neither a data point nor closer than the tolerance to one. -/
theorem C86_isolated_false {norm2 : K × K → K} (hn : IsDist norm2) {f : Pt K → Bool} {nhood : Nhood K}
    (hf' : ∀ l, nhood l = .ok (l.map f)) (norm3 : Pt K → K) (sqrt : K → K) (tol slope : K) {pts : List (Pt K)}
    {g : K × K} (h : NotStored pts g) (hf : ∀ p ∈ pts, tol ≤ norm2 (p.1 - g)) {i : Nat} {p : Pt K}
    (hi : pts[i]? = some p) (hiso : ∀ (j : Nat) q, j ≠ i → pts[j]? = some q → f (q - p) = false) :
    shepard nhood norm2 norm3 sqrt tol slope pts g = .ok none := by
  have hp : pts ≠ [] := by
    rintro rfl
    simp at hi
  obtain ⟨w, hw⟩ := shepard_eq (nhood := nhood) (norm3 := norm3) (sqrt := sqrt) (tol := tol) (slope := slope) hp
    (firstAtZero_notStored hn h)
  rw [hw]
  unfold evaluate
  simp only
  set rows' := (reweighted (rowsOf norm2 pts g w) (includeDirection g (rowsOf norm2 pts g w))) with hrows
  have hmap : rows'.map (fun q => q.1) = pts := by
    rw [hrows, rows_with]
    simp [rowsOf, Function.comp_def]
  obtain ⟨ds, hds, hl, hd⟩ := derivs_ok (fun l => ⟨_, hf' l⟩) norm3 rows'
  rw [hds]
  simp only [evaluate_far hf]
  have hlt : i < rows'.length := by
    have := congrArg List.length hmap
    rw [List.length_map] at this
    rw [this]
    exact (List.getElem?_eq_some_iff.1 hi).1
  obtain ⟨m, hm, h2⟩ := hd i rows'[i] (List.getElem?_eq_getElem hlt)
  have hpi : rows'[i].1 = p := by
    have : (rows'.map fun q => q.1)[i]? = some p := by rw [hmap]; exact hi
    rw [List.getElem?_map, List.getElem?_eq_getElem hlt] at this
    simpa using this
  have hnone : masked (rows'.eraseIdx i) m = [] := by
    rw [hf'] at hm
    obtain rfl := Except.ok.inj hm
    have hall : ∀ q ∈ rows'.eraseIdx i, f (q.1 - rows'[i].1) = false := by
      intro q hq
      obtain ⟨j, hj, hq'⟩ := List.mem_eraseIdx_iff_getElem?.1 hq
      rw [hpi]
      refine hiso j q.1 hj ?_
      rw [← hmap, List.getElem?_map, hq']
      rfl
    generalize rows'[i] = r at hall
    generalize rows'.eraseIdx i = l at hall
    induction l with
    | nil => rfl
    | cons a l ih =>
      simp only [List.map_cons, masked, hall a (by simp)]
      simpa using ih fun q hq => hall q (by simp [hq])
  have hbad : ds[i]? = some none := by
    rw [h2, hnone]
    simp [deriv]
  have hm' : ds.mapM id = none := by
    cases hm' : ds.mapM id with
    | none => rfl
    | some r =>
      rw [mapM_id_some hm'] at hbad
      simp at hbad
  rw [hm']
  cases includeDirection g (rowsOf norm2 pts g w) <;> rfl

/-- **C86.** A ball contains the differences whose norm is at most the radius, including those on the boundary. -/
theorem C86_ball (norm : Pt K → K) (radius : K) (l : List (Pt K)) :
    ∃ mask, ball norm radius l = .ok mask ∧ mask.length = l.length ∧
      ∀ (i : Nat) d, l[i]? = some d → (mask[i]? = some true ↔ norm d ≤ radius) := by
  refine ⟨_, rfl, by simp, fun i d h => ?_⟩
  simp [h]

/-- **C86 (negative).** Ellipsoids and polytopes cannot be used as neighbourhoods: for at least two data points a
`ValueError` is raised for every point that is not a data point. -/
theorem C86_planar_false {norm2 : K × K → K} (hn : IsDist norm2) (norm3 : Pt K → K) (sqrt : K → K) (tol slope : K)
    {pts : List (Pt K)} {g : K × K} (hl : 2 ≤ pts.length) (h : NotStored pts g) :
    shepard planar norm2 norm3 sqrt tol slope pts g = .error .valueError := by
  have hp : pts ≠ [] := by
    rintro rfl
    simp at hl
  obtain ⟨w, hw⟩ := shepard_eq (nhood := planar) (norm3 := norm3) (sqrt := sqrt) (tol := tol) (slope := slope) hp
    (firstAtZero_notStored hn h)
  rw [hw]
  unfold evaluate
  simp only
  set rows' := (reweighted (rowsOf norm2 pts g w) (includeDirection g (rowsOf norm2 pts g w))) with hrows
  have hlen : rows'.length = pts.length := by
    rw [hrows, rows_with_length]
    simp [rowsOf]
  have : derivs planar norm3 rows' = .error .valueError := by
    match hr : rows' with
    | [] => simp at hlen; omega
    | [a] => simp at hlen; omega
    | a :: b :: l =>
      simp [derivs, List.mapIdx_cons, List.mapM_cons, derivAt, planar, bind, Except.bind]
  rw [this]

/-! ### Adding a constant to all boat speeds -/

/-- Add `c` to the boat speed of a data point. -/
def addPt (c : K) (p : Pt K) : Pt K := (p.1, p.2 + c)

theorem addPt_sub (c : K) (p q : Pt K) : addPt c p - addPt c q = p - q := by
  ext <;> simp [addPt]

theorem maxOf_add (c a : K) (l : List K) : maxOf (a + c) (l.map (· + c)) = maxOf a l + c := by
  induction l generalizing a with
  | nil => rfl
  | cons b l ih =>
    simp only [List.map_cons, maxOf]
    rw [← ih, max_add_add_right]

theorem minOf_add (c a : K) (l : List K) : minOf (a + c) (l.map (· + c)) = minOf a l + c := by
  induction l generalizing a with
  | nil => rfl
  | cons b l ih =>
    simp only [List.map_cons, minOf]
    rw [← ih, min_add_add_right]

/-- Add `c` to the boat speed of a row. -/
def addRow (c : K) (p : Row K) : Row K := (addPt c p.1, p.2)

theorem includeDirection_add (c : K) (g : K × K) (rows : List (Row K)) :
    includeDirection g (rows.map (addRow c)) = includeDirection g rows := by
  have h1 : (rows.map (addRow c)).map (fun p => p.2.2) = rows.map fun p => p.2.2 := by
    simp [Function.comp_def, addRow]
  have h2 : ∀ (p : Row K) (l : List (Row K)), turn g (addRow c p) (l.map (addRow c)) = turn g p l := by
    intro p l
    simp [turn, Function.comp_def, addRow, cosine, addPt]
  unfold includeDirection
  simp only [h1]
  split_ifs
  · rfl
  · congr 1
    refine List.ext_getElem (by simp) fun i hi1 hi2 => ?_
    simp only [List.getElem_mapIdx, List.getElem_map, List.eraseIdx_map, h2]
    simp [addRow]

theorem masked_map {α β : Type} (f : α → β) (l : List α) (m : List Bool) :
    masked (l.map f) m = (masked l m).map f := by
  induction l generalizing m with
  | nil => simp [masked]
  | cons a l ih =>
    cases m with
    | nil => simp [masked]
    | cons b m =>
      simp only [List.map_cons, masked, ih]
      split_ifs <;> simp

theorem deriv_add (c : K) (norm3 : Pt K → K) (p : Row K) (near : List (Row K)) :
    deriv norm3 (addRow c p) (near.map (addRow c)) = deriv norm3 p near := by
  unfold deriv
  simp only [List.map_map, Function.comp_def, List.mem_map, exists_exists_and_eq_and]
  simp only [addRow, addPt_sub]
  simp [addPt]

theorem derivs_add (c : K) (nhood : Nhood K) (norm3 : Pt K → K) (rows : List (Row K)) :
    derivs nhood norm3 (rows.map (addRow c)) = derivs nhood norm3 rows := by
  have h : ((rows.map (addRow c)).mapIdx fun i p => (p, (rows.map (addRow c)).eraseIdx i)) =
      (rows.mapIdx fun i p => (p, rows.eraseIdx i)).map fun d => (addRow c d.1, d.2.map (addRow c)) := by
    refine List.ext_getElem (by simp) fun i hi1 hi2 => ?_
    simp [List.eraseIdx_map]
  have h2 : ∀ (p : Row K) (l : List (Row K)),
      derivAt nhood norm3 (addRow c p) (l.map (addRow c)) = derivAt nhood norm3 p l := by
    intro p l
    have : (l.map (addRow c)).map (fun q => q.1 - (addRow c p).1) = l.map fun q => q.1 - p.1 := by
      simp [Function.comp_def, addRow, addPt_sub]
    simp only [derivAt, this, masked_map, deriv_add]
  unfold derivs
  rw [h, List.mapM_map]
  congr 1
  funext d
  exact h2 d.1 d.2

theorem zdelta_add (c : K) (sqrt : K → K) (slope : K) (g : K × K) (rows : List (Row K)) (ds : List (K × K)) :
    zdelta sqrt slope g (rows.map (addRow c)) ds = zdelta sqrt slope g rows ds := by
  cases rows with
  | nil => rfl
  | cons r rs =>
    cases ds with
    | nil => rfl
    | cons d ds =>
      have hz : (rs.map (addRow c)).map (fun q => q.1.2) = (rs.map fun q => q.1.2).map (· + c) := by
        simp [Function.comp_def, addRow, addPt]
      simp only [List.map_cons, zdelta, hz]
      have h1 : (addRow c r).1.2 = r.1.2 + c := rfl
      rw [h1, maxOf_add, minOf_add, add_sub_add_right_eq_sub]
      split_ifs
      · rfl
      · congr 1
        simp only [List.zipWith_cons_cons, List.zipWith_map_left]
        simp [addRow, addPt]

theorem sum_add_const (c : K) (l : List K) : (l.map (· + c)).sum = l.sum + l.length * c := by
  induction l with
  | nil => simp
  | cons a l ih => simp [ih]; ring

theorem dot_add_const (c : K) (v z d : List K) (h1 : v.length = z.length) (h2 : d.length = z.length) :
    dot v (List.zipWith (· + ·) (z.map (· + c)) d) = dot v (List.zipWith (· + ·) z d) + v.sum * c := by
  induction v generalizing z d with
  | nil => simp [dot]
  | cons a v ih =>
    cases z with
    | nil => simp at h1
    | cons b z =>
      cases d with
      | nil => simp at h2
      | cons e d =>
        simp only [List.map_cons, List.zipWith_cons_cons, dot_cons, List.sum_cons]
        rw [ih z d (by simpa using h1) (by simpa using h2)]
        ring

/-- The result after adding `c`. -/
def addRes (c : K) : Except PyErr (Option K) → Except PyErr (Option K)
  | .error e => .error e
  | .ok none => .ok none
  | .ok (some v) => .ok (some (v + c))

theorem zdelta_length {sqrt : K → K} {slope : K} {g : K × K} {rows : List (Row K)} {ds : List (K × K)} {zd : List K}
    (hl : ds.length = rows.length) (h : zdelta sqrt slope g rows ds = some zd) : zd.length = rows.length := by
  cases rows with
  | nil =>
    simp [zdelta] at h
    subst h
    rfl
  | cons r rs =>
    cases ds with
    | nil => simp at hl
    | cons d ds =>
      simp only [zdelta, List.map_cons] at h
      split_ifs at h
      obtain rfl := Option.some.inj h
      simp at hl
      simp [hl]

theorem derivs_length {nhood : Nhood K} {norm3 : Pt K → K} {rows : List (Row K)} {ds : List (Option (K × K))}
    (h : derivs nhood norm3 rows = .ok ds) : ds.length = rows.length := by
  have key : ∀ (l : List (Row K × List (Row K))) (ds : List (Option (K × K))),
      (l.mapM fun c => derivAt nhood norm3 c.1 c.2) = .ok ds → ds.length = l.length := by
    intro l
    induction l with
    | nil =>
      intro ds h
      simp [pure, Except.pure] at h
      subst h
      rfl
    | cons a l ih =>
      intro ds h
      simp only [List.mapM_cons, bind, Except.bind, pure, Except.pure] at h
      cases h1 : derivAt nhood norm3 a.1 a.2 with
      | error e => simp [h1] at h
      | ok v =>
        cases h2 : (l.mapM fun c => derivAt nhood norm3 c.1 c.2) with
        | error e => simp [h1, h2] at h
        | ok r =>
          simp [h1, h2] at h
          subst h
          simp [ih r h2]
  simpa using key _ _ h

theorem evaluate_add (nhood : Nhood K) (norm3 : Pt K → K) (sqrt : K → K) (tol slope c : K) (g : K × K)
    (rows : List (Row K)) : evaluate nhood norm3 sqrt tol slope g (rows.map (addRow c)) =
      addRes c (evaluate nhood norm3 sqrt tol slope g rows) := by
  unfold evaluate
  simp only
  have hrows : reweighted (rows.map (addRow c)) (includeDirection g (rows.map (addRow c))) =
      (reweighted rows (includeDirection g rows)).map (addRow c) := by
    rw [includeDirection_add]
    cases includeDirection g rows with
    | none => rfl
    | some ws => simp [reweighted, List.zipWith_map_left, List.map_zipWith, addRow]
  rw [hrows, derivs_add]
  have hlen := rows_with_length g rows
  set rows' := (reweighted rows (includeDirection g rows)) with hr'
  cases hd : derivs nhood norm3 rows' with
  | error e => rfl
  | ok ds =>
    have hdl := derivs_length hd
    have hnear : (rows.map (addRow c)).filter (fun p => decide (p.2.1 < tol)) =
        (rows.filter fun p => decide (p.2.1 < tol)).map (addRow c) := by
      simp only [List.filter_map]
      congr 1
    simp only [hnear]
    have hz : ∀ l : List (Row K), (l.map (addRow c)).map (fun p => p.1.2) = (l.map fun p => p.1.2).map (· + c) := by
      intro l
      simp [Function.comp_def, addRow, addPt]
    cases hn : rows.filter fun p => decide (p.2.1 < tol) with
    | cons q qs =>
      simp only [List.map_cons, addRes]
      have h1 := hz (q :: qs)
      simp only [List.map_cons] at h1
      rw [h1]
      have h2 := sum_add_const c ((q :: qs).map fun p => p.1.2)
      simp only [List.map_cons] at h2
      rw [h2]
      have h3 : ((qs.length : K) + 1) ≠ 0 := by positivity
      congr 2
      simp only [List.length_cons, List.length_map, Nat.cast_add, Nat.cast_one]
      field_simp
    | nil =>
      simp only [List.map_nil, includeDirection_add]
      cases hi : includeDirection g rows with
      | none => rfl
      | some ws =>
        have hwl : ws.length = rows.length := by
          unfold includeDirection at hi
          simp only at hi
          split_ifs at hi
          obtain rfl := Option.some.inj hi
          simp
        cases hm : ds.mapM id with
        | none => rfl
        | some r =>
          have hrl : r.length = rows'.length := by
            rw [← hdl, mapM_id_some hm]
            simp
          simp only [zdelta_add]
          cases hzd : zdelta sqrt slope g rows' r with
          | none => rfl
          | some zd =>
            have hzl := zdelta_length hrl hzd
            simp only [hz, normalisedDot]
            split_ifs with h0
            · rfl
            · simp only [addRes]
              congr 2
              rw [dot_map_div, dot_map_div, dot_add_const _ _ _ _ (by simp [hwl]) (by simp [hzl, hlen])]
              field_simp

/-- **C86.** Adding a constant to all boat speeds adds it to the result, for all data, neighbourhoods and norms. -/
theorem C86_shift (nhood : Nhood K) (norm2 : K × K → K) (norm3 : Pt K → K) (sqrt : K → K) (tol slope c : K)
    (pts : List (Pt K)) (g : K × K) :
    shepard nhood norm2 norm3 sqrt tol slope (pts.map fun p => (p.1, p.2 + c)) g =
      match shepard nhood norm2 norm3 sqrt tol slope pts g with
      | .ok (some v) => .ok (some (v + c))
      | r => r := by
  have hr : ∀ r : Except PyErr (Option K), (match r with
      | .ok (some v) => .ok (some (v + c))
      | r => r) = addRes c r := by
    intro r
    rcases r with e | _ | v <;> rfl
  rw [hr]
  have h0 : firstAtZero norm2 g (pts.map fun p => (p.1, p.2 + c)) = (firstAtZero norm2 g pts).map (· + c) := by
    induction pts with
    | nil => rfl
    | cons p ps ih =>
      simp only [List.map_cons, firstAtZero, ih]
      split_ifs <;> rfl
  have hd : dists norm2 (pts.map fun p => (p.1, p.2 + c)) g = dists norm2 pts g := by
    simp [dists, Function.comp_def]
  unfold shepard
  rw [h0, hd]
  cases firstAtZero norm2 g pts with
  | some v => rfl
  | none =>
    simp only [Option.map_none]
    cases hw : setWeights (dists norm2 pts g) with
    | error e => rfl
    | ok wts =>
      simp only
      rw [← evaluate_add]
      congr 1
      simp only [List.zip, List.map_zipWith, List.zipWith_map_left]
      rfl

/-! ### Concrete data -/

/-- A square root of rational numbers which is exact for squares. -/
def ratSqrt (q : ℚ) : ℚ := (Nat.sqrt q.num.toNat : ℚ) / (Nat.sqrt q.den : ℚ)

/-- The sum norm in the plane. -/
def sum2 (x : ℚ × ℚ) : ℚ := |x.1| + |x.2|

/-- The sum norm in space. -/
def sum3 (x : Pt ℚ) : ℚ := |x.1.1| + |x.1.2| + |x.2|

theorem sum2_isDist : IsDist sum2 := by
  refine ⟨fun x => by unfold sum2; positivity, fun x => ⟨fun h => ?_, fun h => by simp [h, sum2]⟩⟩
  unfold sum2 at h
  have h1 := abs_nonneg x.1
  have h2 := abs_nonneg x.2
  ext
  · exact abs_eq_zero.1 (by linarith)
  · exact abs_eq_zero.1 (by linarith)

/-- Three data points with the same wind angle. -/
def line : List (Pt ℚ) := [((1, 0), 1), ((2, 0), 3), ((4, 0), 4)]

/-- The interpolator used in the examples: a big ball as neighbourhood. -/
def interp (pts : List (Pt ℚ)) (g : ℚ × ℚ) : Except PyErr (Option ℚ) :=
  shepard (ball sum3 100) sum2 sum3 ratSqrt (1 / 1000) (1 / 10) pts g

/-- The square root in the examples is exact where it is used. -/
example : ratSqrt (9 / 4) ^ 2 = 9 / 4 ∧ ratSqrt 0 = 0 := by decide +kernel

/-- **C86 (negative).** Exchanging the roles of wind speed and wind angle, in the data and in the point, should
change nothing for a symmetric norm. It does, since the second coordinate is compared with the wind speeds of the
other data points. -/
theorem C86_swap_false : ∃ (pts : List (Pt ℚ)) (g : ℚ × ℚ) (v w : ℚ),
    interp pts g = .ok (some v) ∧ interp (pts.map fun p => ((p.1.2, p.1.1), p.2)) (g.2, g.1) = .ok (some w) ∧ v ≠ w :=
  ⟨line, (2, 1), 361173 / 128828, 816771 / 278096, by decide +kernel⟩

/-- **C86 (negative).** Moving all data points and the point by the same wind should change nothing. It does. -/
theorem C86_translate_false : ∃ (pts : List (Pt ℚ)) (g d : ℚ × ℚ) (v w : ℚ),
    interp pts g = .ok (some v) ∧ interp (pts.map fun p => (p.1 + d, p.2)) (g + d) = .ok (some w) ∧ v ≠ w :=
  ⟨line, (2, 1), (1, 0), 361173 / 128828, 7627 / 2736, by decide +kernel⟩

/-- **C86 (negative).** Doubling all boat speeds, as a change of the unit does, does not double the result, since the
distances between the data points include their boat speeds. -/
theorem C86_scale_false : ∃ (pts : List (Pt ℚ)) (g : ℚ × ℚ) (v w : ℚ),
    interp pts g = .ok (some v) ∧ interp (pts.map fun p => (p.1, 2 * p.2)) g = .ok (some w) ∧ w ≠ 2 * v :=
  ⟨line, (2, 1), 361173 / 128828, 7172606 / 1281325, by decide +kernel⟩

example : interp line (2, 0) = .ok (some 3) :=
  C86_exact sum2_isDist _ _ _ _ _ ⟨1, rfl, fun j q hj hq => by
    interval_cases j
    obtain rfl : q = ((1, 0), 1) := (Option.some.inj hq).symm
    decide⟩

example : init (1 / 1000 : ℚ) (1 / 10) = .ok (1 / 1000, 1 / 10) := (C86_init _ _).1 (by norm_num) (by norm_num)

/-- Two data points are closer than the tolerance, the third one is not. -/
example : shepard (ball sum3 100) sum2 sum3 ratSqrt 3 (1 / 10) line (2, 1) =
    .ok (some 2) := by
  have h := C86_tolerance sum2_isDist (nhood := ball sum3 100) (fun l => ⟨_, rfl⟩) sum3 ratSqrt 3 (1 / 10)
    (pts := line) (near := [((1, 0), 1), ((2, 0), 3)]) (g := (2, 1)) (by unfold NotStored; decide)
    (by decide +kernel) (by simp)
  rw [h]
  norm_num

/-- Constant boat speeds. -/
example : interp [((1, 0), 3), ((2, 0), 3), ((4, 0), 3)] (2, 1) = .ok none :=
  C86_constant_false sum2_isDist (fun l => ⟨_, rfl⟩) _ (by decide +kernel) _ _ (by simp) (by unfold NotStored; decide)
    (by decide +kernel) (c := 3) (by decide)

/-- The second data point is far from the others. -/
example : interp [((1, 0), 1), ((500, 0), 3), ((4, 0), 4)] (2, 1) = .ok none :=
  C86_isolated_false sum2_isDist (f := fun d => decide (sum3 d ≤ 100)) (fun _ => rfl) _ _ _ _
    (by unfold NotStored; decide) (by decide +kernel) (i := 1) rfl (fun j q hj hq => by
      have : j < 3 := (List.getElem?_eq_some_iff.1 hq).1
      interval_cases j
      · obtain rfl := (Option.some.inj hq).symm
        decide +kernel
      · exact absurd rfl hj
      · obtain rfl := (Option.some.inj hq).symm
        decide +kernel)

example : shepard planar sum2 sum3 ratSqrt (1 / 1000) (1 / 10) line (2, 1) = .error .valueError :=
  C86_planar_false sum2_isDist _ _ _ _ (by decide) (by unfold NotStored; decide)

example : interp (line.map fun p => (p.1, p.2 + 7)) (2, 1) = .ok (some (361173 / 128828 + 7)) := by
  unfold interp
  rw [C86_shift]
  decide +kernel

end Verif.Shepard
