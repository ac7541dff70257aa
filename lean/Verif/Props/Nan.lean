import Verif.Model.Nan
import Verif.Lemmas.DefaultTable
import Verif.Lemmas.Weigher
import Verif.Props.DefaultTable

/-!
# C177: measurements which are not numbers

A measurement with a missing value should be ignored, and the others be treated as if it were not there. `BoundFilter`,
`CylindricMemberWeigher` and `Ball` do this; `CylindricMeanWeigher`, `QuantileFilter`, `ScalingBall`, the interpolators and with them
the default pipeline do not: a single missing value makes all weights `nan`, and every measurement is discarded.
-/

namespace Verif.Nan

/-- A point without missing values. -/
def proper? {P K : Type} : Option P × Option K → Option (P × K)
  | (some p, some z) => some (p, z)
  | _ => none

/-- A point without missing values, as a point of an array. -/
def lift {P K : Type} (p : P × K) : Option P × Option K := (some p.1, some p.2)

@[simp] theorem proper?_lift {P K : Type} (p : P × K) : proper? (lift p) = some p := rfl

theorem proper?_some {P K : Type} {q : Option P × Option K} {p : P × K} (h : proper? q = some p) : q = lift p := by
  obtain ⟨a, b⟩ := q
  cases a <;> cases b <;> simp [proper?, lift] at *
  rw [← h]; exact ⟨rfl, rfl⟩

theorem proper?_none {P K : Type} {q : Option P × Option K} : proper? q = none ↔ q.1 = none ∨ q.2 = none := by
  obtain ⟨a, b⟩ := q
  cases a <;> cases b <;> simp [proper?]

/-! ### Arrays with and without missing values -/

@[simp] theorem numbers_nil {α : Type} : numbers ([] : List (Option α)) = some [] := rfl

theorem numbers_cons {α : Type} (x : Option α) (l : List (Option α)) :
    numbers (x :: l) = x.bind fun a => (numbers l).map (a :: ·) := by
  unfold numbers
  rw [List.mapM_cons]
  cases x <;> simp
  cases l.mapM id <;> rfl

theorem numbers_eq_none {α : Type} {l : List (Option α)} : numbers l = none ↔ none ∈ l := by
  induction l with
  | nil => simp
  | cons x l ih =>
    rw [numbers_cons]
    cases x with
    | none => simp
    | some a => simp [ih]

theorem numbers_eq_some {α : Type} {l : List (Option α)} {m : List α} : numbers l = some m ↔ l = m.map some := by
  induction l generalizing m with
  | nil => cases m <;> simp
  | cons x l ih =>
    rw [numbers_cons]
    cases x with
    | none => cases m <;> simp
    | some a =>
      cases m with
      | nil => simp
      | cons b m =>
        simp only [Option.bind_some, Option.map_eq_some_iff, List.cons.injEq, List.map_cons, Option.some.injEq]
        constructor
        · rintro ⟨m', h, rfl, rfl⟩
          exact ⟨rfl, ih.1 h⟩
        · rintro ⟨rfl, h⟩
          exact ⟨m, ih.2 h, rfl, rfl⟩

@[simp] theorem numbers_map_some {α : Type} (m : List α) : numbers (m.map some) = some m := numbers_eq_some.2 rfl

theorem numbers_map {α β : Type} (f : α → Option β) (l : List α) : numbers (l.map f) = l.mapM f := by
  induction l with
  | nil => rfl
  | cons a l ih =>
    rw [List.map_cons, numbers_cons, List.mapM_cons, ih]
    cases f a <;> simp
    cases l.mapM f <;> rfl

/-! ### Filters -/

section filters

variable {K : Type} [Field K] [LinearOrder K]

/-- `BoundFilter` removes every weight which is `nan`, and treats each of the others as if it were alone. -/
theorem C177_bound (lower upper : K) (wts : List (Option K)) :
    (boundFilter lower upper wts).1 = wts.map fun w => match w with
      | none => false
      | some x => decide (lower ≤ x) && decide (x ≤ upper) := by
  unfold boundFilter
  simp only
  induction wts with
  | nil => rfl
  | cons w l ih =>
    simp only [List.map_cons, List.zipWith_cons_cons, ih, List.cons.injEq, and_true]
    cases w <;> simp [le]

example : (boundFilter (K := ℚ) 0 1 [some (1 / 2), none, some 2]).1 = [true, false, false] := by decide +kernel

/-- Without missing values it is the filter for numbers. -/
theorem C177_bound_numbers (lower upper : K) (wts : List K) :
    boundFilter lower upper (wts.map some) = Filter.boundFilter lower upper wts := by
  unfold boundFilter Filter.boundFilter
  simp [le, ge_iff_le, Function.comp_def]

example : boundFilter (K := ℚ) 0 1 ([1 / 2, 2].map some) = ([true, false], ⟨1, 1⟩) := by decide +kernel

variable [FloorRing K]

/-- Without missing values it is the filter for numbers. -/
theorem C177_quantile_numbers (percent : K) (wts : List K) :
    quantileFilter percent (wts.map some) = Filter.quantileFilter percent wts := by
  unfold quantileFilter Filter.quantileFilter
  simp [le, ge_iff_le, Function.comp_def]

example : (quantileFilter (K := ℚ) 50 ([1, 2, 3].map some)).1 = [false, true, true] := by decide +kernel

/-- A weight which is `nan` makes `QuantileFilter` remove everything, whatever the percentage is. -/
theorem C177_quantile_false (percent : K) {wts : List (Option K)} (h : none ∈ wts) :
    (quantileFilter percent wts).1 = List.replicate wts.length false ∧
      (quantileFilter percent wts).2 = some ⟨wts.length, 0⟩ := by
  have hl : wts.length ≠ 0 := by
    intro h0
    rw [List.length_eq_zero_iff.1 h0] at h
    simp at h
  have hm : (wts.map fun w => le (((numbers wts).map fun w => Filter.percentile w percent)) w) =
      List.replicate wts.length false := by
    rw [numbers_eq_none.2 h]
    apply List.eq_replicate_iff.2
    simp [le]
  unfold quantileFilter
  rw [if_neg hl]
  simp only [hm]
  refine ⟨trivial, ?_⟩
  simp [Filter.statistics]

example : quantileFilter (K := ℚ) 0 [some 1, none, some 3] = ([false, false, false], some ⟨3, 0⟩) := by decide +kernel

end filters

/-! ### `CylindricMemberWeigher` -/

section member

variable {K : Type} [Field K] [LinearOrder K] [IsStrictOrderedRing K] {P : Type} [Sub P]

theorem count_improper (norm : P → K) (radius length : K) (points : List (Option P × Option K)) {p : Option P × Option K}
    (hp : proper? p = none) : countInCylinder norm radius length points p = 0 := by
  unfold countInCylinder
  rw [List.length_eq_zero_iff, List.filter_eq_nil_iff]
  intro q _
  obtain ⟨a, b⟩ := p
  obtain ⟨c, d⟩ := q
  cases a <;> cases b <;> cases c <;> cases d <;> simp_all [proper?, absDiff, dist, le]

theorem count_proper (norm : P → K) (radius length : K) (points : List (Option P × Option K)) (p : P × K) :
    countInCylinder norm radius length points (lift p) =
      Weigher.countInCylinder norm radius length (points.filterMap proper?) p := by
  unfold countInCylinder Weigher.countInCylinder
  induction points with
  | nil => rfl
  | cons q l ih =>
    rw [List.filterMap_cons]
    cases hq : proper? q with
    | none =>
      simp only
      rw [List.filter_cons, if_neg, ih]
      obtain ⟨c, d⟩ := q
      cases c <;> cases d <;> simp_all [proper?, absDiff, dist, le, lift]
    | some r =>
      rw [proper?_some hq]
      simp only
      rw [List.filter_cons, List.filter_cons]
      have : (le (absDiff (lift r).2 (lift p).2) (some length) && le (dist norm (lift r).1 (lift p).1) (some radius)) =
          (decide (|r.2 - p.2| ≤ length) && decide (norm (r.1 - p.1) ≤ radius)) := rfl
      rw [this]
      split
      · simp [ih]
      · exact ih

theorem normalize_of_max {l : List K} {m : K} (hm : m ∈ l) (hmax : ∀ x ∈ l, x ≤ m) :
    Weigher.normalize l = l.map fun x => if m = 0 then x else x / m := by
  cases l with
  | nil => simp at hm
  | cons a l =>
    have : Weigher.maxOf a l = m := le_antisymm (hmax _ (Weigher.maxOf_mem a l)) (Weigher.le_maxOf a l m hm)
    simp only [Weigher.normalize, this]
    by_cases h0 : m = 0
    · simp [h0]
    · simp [h0]

theorem mask_map {α β : Type} (c : α → Bool) (f : α → β) (l : List α) :
    Data.maskList (l.map c) (l.map f) = (l.filter c).map f := by
  induction l with
  | nil => rfl
  | cons a l ih =>
    simp only [List.map_cons, Data.maskList, ih, List.filter_cons]
    split <;> rfl

theorem map_filter_proper {α P K : Type} (f : Option P × Option K → α) (l : List (Option P × Option K)) :
    (l.filter fun p => (proper? p).isSome).map f = (l.filterMap proper?).map fun p => f (lift p) := by
  induction l with
  | nil => rfl
  | cons q l ih =>
    rw [List.filter_cons, List.filterMap_cons]
    cases hq : proper? q with
    | none => simpa using ih
    | some r => simp [ih, proper?_some hq]

/-- `CylindricMemberWeigher`: if at least one point has no missing value, the weights of the points without missing values are
those which they have if the others are left out, and the weights of the others are negative. -/
theorem C177_member (norm : P → K) {radius length : K} (hl : 0 ≤ length) (hr : ∀ p : P, norm (p - p) ≤ radius)
    {points : List (Option P × Option K)} (hne : points.filterMap proper? ≠ []) :
    Data.maskList (points.map fun p => (proper? p).isSome) (memberWeigh norm radius length points) =
        Weigher.memberWeigh norm radius length (points.filterMap proper?) ∧
      ∀ w ∈ Data.maskList (points.map fun p => (proper? p).isNone) (memberWeigh norm radius length points), w < 0 := by
  set good := points.filterMap proper? with hgood
  set f : P × K → K := fun p => (Weigher.countInCylinder norm radius length good p : K) - 1 with hf
  set g : Option P × Option K → K := fun p => (countInCylinder norm radius length points p : K) - 1 with hg
  have hgf : ∀ p, g (lift p) = f p := fun p => by simp only [hg, hf, count_proper, ← hgood]
  have hgn : ∀ p, proper? p = none → g p = -1 := fun p hp => by simp [hg, count_improper norm radius length points hp]
  have hf0 : ∀ p ∈ good, 0 ≤ f p := by
    intro p hp
    have : 0 < Weigher.countInCylinder norm radius length good p := by
      unfold Weigher.countInCylinder
      refine List.length_pos_of_mem (List.mem_filter.2 ⟨hp, ?_⟩)
      simp [hl, hr]
    have h1 : (1 : K) ≤ (Weigher.countInCylinder norm radius length good p : K) := by exact_mod_cast this
    simp only [hf]
    linarith
  obtain ⟨m, hm, hmax⟩ : ∃ m ∈ good.map f, ∀ x ∈ good.map f, x ≤ m := by
    cases hgd : good with
    | nil => exact absurd hgd hne
    | cons a l =>
      exact ⟨_, Weigher.maxOf_mem (f a) (l.map f), Weigher.le_maxOf (f a) (l.map f)⟩
  have hm0 : 0 ≤ m := by
    obtain ⟨p, hp, rfl⟩ := List.mem_map.1 hm
    exact hf0 p hp
  have hm' : m ∈ points.map g := by
    obtain ⟨p, hp, rfl⟩ := List.mem_map.1 hm
    obtain ⟨q, hq, hqp⟩ := List.mem_filterMap.1 hp
    refine List.mem_map.2 ⟨q, hq, ?_⟩
    rw [proper?_some hqp, hgf]
  have hmax' : ∀ x ∈ points.map g, x ≤ m := by
    intro x hx
    obtain ⟨q, hq, rfl⟩ := List.mem_map.1 hx
    cases hp : proper? q with
    | none => rw [hgn q hp]; linarith
    | some p =>
      rw [proper?_some hp, hgf]
      exact hmax _ (List.mem_map.2 ⟨p, List.mem_filterMap.2 ⟨q, hq, hp⟩, rfl⟩)
  have h1 : memberWeigh norm radius length points = points.map fun p => if m = 0 then g p else g p / m := by
    unfold memberWeigh
    rw [normalize_of_max hm' hmax', List.map_map]
    rfl
  have h2 : Weigher.memberWeigh norm radius length good = good.map fun p => if m = 0 then f p else f p / m := by
    unfold Weigher.memberWeigh
    rw [normalize_of_max hm hmax, List.map_map]
    rfl
  refine ⟨?_, ?_⟩
  · rw [h1, h2, mask_map, map_filter_proper]
    simp only [hgf, ← hgood]
  · rw [h1, mask_map]
    intro w hw
    obtain ⟨q, hq, rfl⟩ := List.mem_map.1 hw
    have hq' := (List.mem_filter.1 hq).2
    rw [Option.isNone_iff_eq_none] at hq'
    rw [hgn q hq']
    split
    · linarith
    · rename_i h0
      exact div_neg_of_neg_of_pos (by linarith) (lt_of_le_of_ne hm0 (Ne.symm h0))

example : memberWeigh (P := ℚ) (K := ℚ) (fun x => |x|) 1 1 [(some 1, some 2), (none, some 2), (some 2, some 1), (some 1, none), (some 9, some 9)] =
    [1, -1, 1, -1, 0] := by decide +kernel

/-- Without missing values it is the weigher for numbers. -/
theorem C177_member_numbers (norm : P → K) (radius length : K) (points : List (P × K)) :
    memberWeigh norm radius length (points.map lift) = Weigher.memberWeigh norm radius length points := by
  unfold memberWeigh Weigher.memberWeigh
  rw [List.map_map]
  congr 1
  apply List.map_congr_left
  intro p _
  rw [Function.comp, count_proper]
  congr 3
  simp [List.filterMap_map, Function.comp_def]

example : memberWeigh (P := ℚ) (K := ℚ) (fun x => |x|) 1 1 (([(1, 2), (2, 1), (9, 9)] : List (ℚ × ℚ)).map lift) = [1, 1, 0] := by
  decide +kernel

/-- If every point has a missing value, all of them are given the largest weight. -/
theorem C177_member_all_false (norm : P → K) (radius length : K) {points : List (Option P × Option K)}
    (h : ∀ p ∈ points, proper? p = none) : memberWeigh norm radius length points = points.map fun _ => 1 := by
  unfold memberWeigh
  have : (points.map fun p => (countInCylinder norm radius length points p : K) - 1) = points.map fun _ => -1 := by
    apply List.map_congr_left
    intro p hp
    simp [count_improper norm radius length points (h p hp)]
  rw [this]
  cases points with
  | nil => rfl
  | cons a l =>
    rw [normalize_of_max (m := -1) (by simp) (by intro x hx; obtain ⟨_, _, rfl⟩ := List.mem_map.1 hx; exact le_refl _),
      List.map_map]
    apply List.map_congr_left
    intro _ _
    simp

example : memberWeigh (P := ℚ) (K := ℚ) (fun x => |x|) 1 1 [(some 1, none), (none, some 2)] = [1, 1] := by decide +kernel

end member

/-! ### `Ball` and `ScalingBall` -/

section ball

variable {K : Type} [Field K] [LinearOrder K]

/-- A `Ball` contains no point with a missing value, and of the others those which it contains without them. -/
theorem C177_ball {P : Type} (norm : P → K) (radius : K) (pts : List (Option P)) :
    inBall norm radius pts = pts.map fun x => match x with
      | none => false
      | some x => decide (norm x ≤ radius) := by
  unfold inBall
  apply List.map_congr_left
  intro x _
  cases x <;> simp [le]

example : inBall (P := ℚ) (K := ℚ) (fun x => |x|) 1 [some 1, none, some 2] = [true, false, false] := by decide +kernel

/-- `y < x` is false for neighbouring entries. -/
def Ascending (l : List (Option K)) : Prop := l.IsChain fun x y => ∀ a ∈ x, ∀ b ∈ y, a ≤ b

/-- `sorted` leaves a list without a descent as it is (it consists of one run). -/
def KeepsRuns (sorted : List (Option K) → List (Option K)) : Prop := ∀ l, Ascending l → sorted l = l

/-- A missing value behind the `min_pts - 1` nearest points makes the radius of a `ScalingBall` `nan`, and it contains no point. -/
theorem C177_scaling_false {sorted : List (Option K) → List (Option K)} (hs : KeepsRuns sorted) {minPts : Nat}
    {near far : List K} (hlen : near.length = minPts - 1) (hnear : near.IsChain (· ≤ ·)) (hfar : far.IsChain (· ≤ ·)) :
    scalingBall sorted minPts (near.map some ++ none :: far.map some) =
      .ok (List.replicate (near.length + 1 + far.length) false) := by
  have hasc : Ascending (near.map some ++ none :: far.map some) := by
    unfold Ascending
    have hmap : ∀ l : List K, l.IsChain (· ≤ ·) →
        (l.map some).IsChain fun x y : Option K => ∀ a ∈ x, ∀ b ∈ y, a ≤ b := by
      intro l hl
      rw [List.isChain_map]
      exact hl.imp fun a b hab => by simpa using hab
    rw [List.isChain_append]
    refine ⟨hmap _ hnear, ?_, by simp⟩
    rw [List.isChain_cons]
    exact ⟨by simp, hmap _ hfar⟩
  have hget : (near.map some ++ none :: far.map some)[minPts - 1]? = some (none : Option K) := by
    rw [← hlen, List.getElem?_append_right (by simp)]
    simp
  unfold scalingBall
  rw [hs _ hasc, hget]
  simp only [Except.ok.injEq]
  apply List.eq_replicate_iff.2
  refine ⟨by simp; omega, ?_⟩
  intro b hb
  obtain ⟨d, _, rfl⟩ := List.mem_map.1 hb
  cases d <;> rfl

example : scalingBall (K := ℚ) id 2 ([1].map some ++ none :: [2, 3].map some) = .ok [false, false, false, false] :=
  C177_scaling_false (K := ℚ) (sorted := id) (near := [1]) (far := [2, 3]) (fun _ _ => rfl) rfl (by simp) (by norm_num)

/-- With ascending distances and missing values only behind them it contains the nearest points. -/
theorem C177_scaling_last {sorted : List (Option K) → List (Option K)} (hs : KeepsRuns sorted) {minPts n : Nat}
    {near : List K} {r : K} (hr : near[minPts - 1]? = some r) (hnear : near.IsChain (· ≤ ·)) :
    scalingBall sorted minPts (near.map some ++ List.replicate n none) =
      .ok (near.map (fun d => decide (d ≤ r)) ++ List.replicate n false) := by
  have hasc : Ascending (near.map some ++ List.replicate n (none : Option K)) := by
    unfold Ascending
    rw [List.isChain_append]
    refine ⟨?_, ?_, ?_⟩
    · rw [List.isChain_map]
      exact hnear.imp fun a b hab => by simpa using hab
    · induction n with
      | zero => simp
      | succ n ih =>
        rw [List.replicate_succ, List.isChain_cons]
        exact ⟨by simp, ih⟩
    · intro x _ y hy a _ b hb
      have := List.eq_of_mem_replicate (List.mem_of_mem_head? hy)
      subst this
      simp at hb
  have hget : (near.map some ++ List.replicate n (none : Option K))[minPts - 1]? = some (some r) := by
    have hlt : minPts - 1 < near.length := (List.getElem?_eq_some_iff.1 hr).1
    rw [List.getElem?_append_left (by simpa using hlt)]
    simp [hr]
  unfold scalingBall
  rw [hs _ hasc, hget]
  simp [le]

example : scalingBall (K := ℚ) id 2 ([1, 2, 3].map some ++ List.replicate 1 none) = .ok [true, true, false, false] :=
  C177_scaling_last (K := ℚ) (sorted := id) (near := [1, 2, 3]) (n := 1) (r := 2) (fun _ _ => rfl) rfl (by norm_num)

end ball

/-! ### `IDWInterpolator` -/

section idw

variable {K : Type} [Field K] [LinearOrder K] (norm : K × K → K) (p : Nat) (g : K × K)

/-- Without missing values it is the interpolator for numbers. -/
theorem C177_idw_numbers (pts : List (Interp.Pt K)) : idw norm p (pts.map lift) g = Interp.idw norm p pts g := by
  have hfind : ∀ l : List (Interp.Pt K),
      ((l.map lift).find? fun q => decide (dist norm q.1 (some g) = some 0)) =
        (l.find? fun q => decide (norm (q.1 - g) = 0)).map lift := by
    intro l
    rw [List.find?_map]
    simp [Function.comp_def, lift, dist]
  have hzero : ∀ l : List (Interp.Pt K), Interp.firstAtZero norm g l =
      (l.find? fun q => decide (norm (q.1 - g) = 0)).map Prod.snd := by
    intro l
    induction l with
    | nil => rfl
    | cons q l ih =>
      simp only [Interp.firstAtZero, List.find?_cons]
      by_cases h : norm (q.1 - g) = 0
      · simp [h]
      · simp [h, ih]
  unfold idw Interp.idw
  rw [hfind, hzero]
  cases hc : pts.find? fun q => decide (norm (q.1 - g) = 0) with
  | some q => simp [lift]
  | none =>
    have h1 : ((pts.map lift).map fun q => idwWeight p (dist norm q.1 (some g))) =
        ((Interp.dists norm pts g).map fun d => 1 / d ^ p).map some := by
      unfold Interp.dists
      simp only [List.map_map]
      apply List.map_congr_left
      intro q _
      simp only [Function.comp, lift, dist, idwWeight, Option.map_some]
      split
      · rename_i h0
        simp [h0]
      · rfl
    have h2 : (pts.map lift).map Prod.snd = (pts.map Prod.snd).map some := by
      simp [lift]
    rw [h1, h2, numbers_map_some, numbers_map_some]
    simp

example : idw (K := ℚ) (fun x => |x.1|) 1 (([((1, 0), 4), ((2, 0), 6)] : List ((ℚ × ℚ) × ℚ)).map lift) (0, 0) = .ok (some (14 / 3)) := by
  rw [C177_idw_numbers]
  norm_num [Interp.idw, Interp.firstAtZero, Interp.normalisedDot, Interp.dists, Interp.dot]

/-- If no considered point is the grid point, the interpolated speed is `nan` if the speed of one of them is missing, or the wind of
one of them and the exponent is not zero. -/
theorem C177_idw_false {pts : List (Option (K × K) × Option K)} (h0 : ∀ q ∈ pts, ∀ w ∈ q.1, norm (w - g) ≠ 0)
    (h : (∃ q ∈ pts, q.2 = none) ∨ p ≠ 0 ∧ ∃ q ∈ pts, q.1 = none) : idw norm p pts g = .ok none := by
  have hne : pts.length ≠ 0 := by
    intro hl
    rw [List.length_eq_zero_iff.1 hl] at h
    simp at h
  have hf : (pts.find? fun q => decide (dist norm q.1 (some g) = some 0)) = none := by
    rw [List.find?_eq_none]
    intro q hq
    cases hw : q.1 with
    | none => simp [dist]
    | some w => simpa [dist] using h0 q hq w hw
  unfold idw
  rw [if_neg hne, hf]
  rcases h with ⟨q, hq, hq2⟩ | ⟨hp, q, hq, hq1⟩
  · rw [(numbers_eq_none (l := pts.map Prod.snd)).2 (List.mem_map.2 ⟨q, hq, hq2⟩)]
    simp
  · rw [(numbers_eq_none (l := pts.map fun q => idwWeight p (dist norm q.1 (some g)))).2
      (List.mem_map.2 ⟨q, hq, by simp [hq1, dist, idwWeight, hp]⟩)]

example : idw (K := ℚ) (fun x => |x.1|) 1 [(some (1, 0), some 4), (some (2, 0), none)] (0, 0) = .ok none :=
  C177_idw_false _ _ _ (by simp) (Or.inl ⟨(some (2, 0), none), by simp, rfl⟩)

/-- A point measured at the grid point decides the speed, whatever is missing in the points after it or elsewhere. -/
theorem C177_idw_measured {before after : List (Option (K × K) × Option K)} {w : K × K} {z : K} (hw : norm (w - g) = 0)
    (h0 : ∀ q ∈ before, ∀ w ∈ q.1, norm (w - g) ≠ 0) :
    idw norm p (before ++ (some w, some z) :: after) g = .ok (some z) := by
  have hf : ((before ++ (some w, some z) :: after).find? fun q => decide (dist norm q.1 (some g) = some 0)) =
      some (some w, some z) := by
    rw [List.find?_append]
    have : (before.find? fun q => decide (dist norm q.1 (some g) = some 0)) = none := by
      rw [List.find?_eq_none]
      intro q hq
      cases hw : q.1 with
      | none => simp [dist]
      | some w => simpa [dist] using h0 q hq w hw
    rw [this]
    simp [dist, hw]
  unfold idw
  rw [if_neg (by simp), hf]

example : idw (K := ℚ) (fun x => |x.1|) 1 ([(none, none)] ++ (some (1, 0), some 4) :: [(some (2, 0), none)]) (1, 0) = .ok (some 4) :=
  C177_idw_measured _ _ _ (by norm_num) (by simp)

end idw

/-! ### `CylindricMeanWeigher` -/

section mean

variable {P : Type} [Sub P]

theorem cylinder_lift (norm : P → ℝ) (radius : ℝ) (points : List (P × ℝ)) (p : P) :
    cylinderSpeeds norm radius (points.map lift) (some p) = (Weigher.cylinderSpeeds norm radius points p).map some := by
  unfold cylinderSpeeds Weigher.cylinderSpeeds
  rw [List.filter_map, List.map_map, List.map_map]
  simp only [Function.comp_def, lift, dist, le]

theorem meanRaw_lift (norm : P → ℝ) (radius : ℝ) (points : List (P × ℝ)) (p : P × ℝ) :
    meanRaw norm radius (points.map lift) (lift p) = Weigher.meanRaw norm radius points p := by
  unfold meanRaw Weigher.meanRaw
  have h : (lift p).1 = some p.1 := rfl
  have h2 : (lift p).2 = some p.2 := rfl
  rw [h, h2, cylinder_lift, numbers_map_some]
  simp only [Option.bind_some]
  cases Weigher.stdOr1 (Weigher.cylinderSpeeds norm radius points p.1) <;>
    cases Weigher.meanOf (Weigher.cylinderSpeeds norm radius points p.1) <;> rfl

/-- Without missing values it is the weigher for numbers. -/
theorem C177_mean_numbers (norm : P → ℝ) (radius : ℝ) (points : List (P × ℝ)) :
    meanWeigh norm radius (points.map lift) = match Weigher.meanWeigh norm radius points with
      | some wts => wts.map some
      | none => points.map fun _ => none := by
  have h : ((points.map lift).map (meanRaw norm radius (points.map lift))) = points.map (Weigher.meanRaw norm radius points) := by
    rw [List.map_map]
    apply List.map_congr_left
    intro p _
    exact meanRaw_lift norm radius points p
  unfold meanWeigh Weigher.meanWeigh
  rw [h, numbers_map]
  cases points.mapM (Weigher.meanRaw norm radius points) with
  | none => rw [List.map_map]; rfl
  | some raw => rfl

example : meanWeigh (P := ℝ) (fun x => |x|) 1 (([] : List (ℝ × ℝ)).map lift) = [] := by
  rw [C177_mean_numbers]
  simp [Weigher.meanWeigh, Weigher.normalize]

theorem meanRaw_improper (norm : P → ℝ) (radius : ℝ) (points : List (Option P × Option ℝ)) {p : Option P × Option ℝ}
    (hp : proper? p = none) : meanRaw norm radius points p = none := by
  unfold meanRaw
  rcases proper?_none.1 hp with h | h
  · have : cylinderSpeeds norm radius points p.1 = [] := by
      unfold cylinderSpeeds
      rw [List.map_eq_nil_iff, List.filter_eq_nil_iff]
      intro q _
      rw [h]
      cases q.1 <;> simp [dist, le]
    rw [this]
    simp [Weigher.stdOr1, Weigher.meanOf]
  · rw [h]
    split <;> simp_all

/-- A missing value in one of the points makes the weights of all points `nan`. -/
theorem C177_mean_false (norm : P → ℝ) (radius : ℝ) {points : List (Option P × Option ℝ)} (h : ∃ p ∈ points, proper? p = none) :
    meanWeigh norm radius points = points.map fun _ => none := by
  obtain ⟨p, hp, hn⟩ := h
  unfold meanWeigh
  rw [numbers_eq_none.2 (List.mem_map.2 ⟨p, hp, meanRaw_improper norm radius points hn⟩)]

example : meanWeigh (P := ℝ) (fun x => |x|) 1 [(some 1, some 2), (some 2, none), (some 3, some 4)] = [none, none, none] :=
  C177_mean_false _ _ ⟨(some 2, none), by simp, rfl⟩

/-- If the radius is not negative, weights are `nan` exactly if there is a missing value. -/
theorem C177_mean_exactly {norm : P → ℝ} {radius : ℝ} (hr : ∀ p : P, norm (p - p) ≤ radius) {points : List (Option P × Option ℝ)} :
    none ∈ meanWeigh norm radius points ↔ ∃ p ∈ points, proper? p = none := by
  constructor
  · intro h
    by_contra hc
    have hall : points = (points.filterMap proper?).map lift := by
      clear h
      induction points with
      | nil => rfl
      | cons q l ih =>
        have hq : proper? q ≠ none := fun hq => hc ⟨q, by simp, hq⟩
        obtain ⟨r, hqr⟩ := Option.ne_none_iff_exists'.1 hq
        rw [List.filterMap_cons, hqr]
        simp only [List.map_cons]
        rw [← proper?_some hqr, ← ih (fun ⟨p, hp, hn⟩ => hc ⟨p, List.mem_cons_of_mem _ hp, hn⟩)]
    rw [hall, C177_mean_numbers] at h
    set good := points.filterMap proper?
    have hsome : ∃ wts, Weigher.meanWeigh norm radius good = some wts := by
      unfold Weigher.meanWeigh
      cases hm : good.mapM (Weigher.meanRaw norm radius good) with
      | some raw => exact ⟨_, rfl⟩
      | none =>
        exfalso
        rw [← numbers_map, numbers_eq_none] at hm
        obtain ⟨p, hp, hpn⟩ := List.mem_map.1 hm
        obtain ⟨x, hx, _⟩ := Weigher.meanRaw_some (norm := norm) (radius := radius) hp (hr p.1)
        rw [hpn] at hx
        simp at hx
    obtain ⟨wts, hw⟩ := hsome
    rw [hw] at h
    simp at h
  · intro h
    rw [C177_mean_false norm radius h]
    obtain ⟨p, hp, _⟩ := h
    exact List.mem_map.2 ⟨p, hp, rfl⟩

example : none ∉ meanWeigh (P := ℝ) (fun x => |x|) 1 [(some 1, some 2), (some 2, some 5)] := by
  rw [C177_mean_exactly (by simp)]
  simp [proper?]

/-! ### The default pipeline -/

/-- With a missing value in the data no point is kept, and the default pipeline fails. -/
theorem C177_default_false (s : Default.Settings) {data : List (Option (ℝ × ℝ) × Option ℝ)} (h : ∃ p ∈ data, proper? p = none) :
    weighAndFilter s data = [] ∧ usable s data = .error .runtimeError := by
  have hw : weighAndFilter s data = [] := by
    unfold weighAndFilter
    rw [C177_mean_false _ _ h]
    have hn : (none : Option ℝ) ∈ data.map fun _ => (none : Option ℝ) := by
      obtain ⟨p, hp, _⟩ := h
      exact List.mem_map.2 ⟨p, hp, rfl⟩
    rw [(C177_quantile_false s.percent hn).1]
    generalize (data.map fun _ => (none : Option ℝ)).length = n
    clear hn h
    induction data generalizing n with
    | nil => cases n <;> rfl
    | cons a l ih =>
      cases n with
      | zero => rfl
      | succ n => simpa [List.replicate_succ, Data.maskList] using ih n
  refine ⟨hw, ?_⟩
  unfold usable
  rw [hw]
  rfl

example : usable Default.defaults [(some (10, 90), some 6), (some (11, 90), none), (some (12, 90), some 7)] = .error .runtimeError :=
  (C177_default_false _ ⟨(some (11, 90), none), by simp, rfl⟩).2

/-- Without missing values the points are kept which C112 describes. -/
theorem C177_default_numbers {s : Default.Settings} (hs : s.Ok) (data : List (Interp.Pt ℝ)) :
    weighAndFilter s (data.map lift) = (Default.kept s data).map fun q => lift q.1 := by
  unfold weighAndFilter
  rw [C177_mean_numbers, Default.meanWeigh_eq hs]
  simp only
  rw [C177_quantile_numbers]
  have hm : (Filter.quantileFilter s.percent (data.map (Default.wt s data))).1 =
      data.map fun p => decide (Default.wt s data p ≥ Filter.percentile (data.map (Default.wt s data)) s.percent) := by
    unfold Filter.quantileFilter
    split
    · rename_i h
      have : data = [] := by simpa using h
      subst this
      rfl
    · simp [Function.comp_def]
  rw [hm, mask_map]
  unfold Default.kept
  rw [List.filter_map, List.map_map]
  rfl

/-- Without missing values the default pipeline does not fail here. -/
theorem C177_default_succeeds {s : Default.Settings} (hs : s.Ok) {data : List (Interp.Pt ℝ)} (hne : data ≠ []) :
    usable s (data.map lift) = .ok ((Default.kept s data).map fun q => lift q.1) := by
  unfold usable
  rw [C177_default_numbers hs, if_neg]
  simpa using Default.kept_ne hs hne

example : usable Default.defaults (([((10, 90), 6), ((12, 90), 7)] : List (Interp.Pt ℝ)).map lift) =
    .ok ((Default.kept Default.defaults [((10, 90), 6), ((12, 90), 7)]).map fun q => lift q.1) :=
  C177_default_succeeds Default.defaults_ok (by simp)

end mean

/-! ### `FluctuationWeigher` -/

section fluctuation

/-- The standard deviation in the time interval, if it is a number. -/
noncomputable def spread (c : List (Option ℝ) × ℝ) : Option ℝ := (numbers c.1).bind Weigher.stdOf

/-- The weight is `nan` exactly if the measurements of one of the attributes contain a missing value (or none at all, or the bound 0
is not exceeded), and no later attribute exceeds its bound. -/
theorem C177_fluctuation_exactly (cols : List (List (Option ℝ) × ℝ)) :
    fluctuationWeight cols = none ↔ ∃ before c after, cols = before ++ c :: after ∧
      (∀ x ∈ spread c, c.2 = 0 ∧ x ≤ 0) ∧ ∀ d ∈ after, ∀ x ∈ spread d, x ≤ d.2 := by
  unfold fluctuationWeight
  induction cols using List.reverseRecOn with
  | nil => simp
  | append_singleton l c ih =>
    rw [List.foldl_append, List.foldl_cons, List.foldl_nil]
    have hstep : ∀ w, fluctuationStep w c = none ↔ (∀ x ∈ spread c, c.2 = 0 ∧ x ≤ 0) ∨ (∀ x ∈ spread c, x ≤ c.2) ∧ w = none := by
      intro w
      unfold fluctuationStep spread
      cases hc : (numbers c.1).bind Weigher.stdOf with
      | none => simp
      | some x =>
        simp only [Option.mem_def, Option.some.injEq, forall_eq']
        by_cases h1 : c.2 < x
        · simp only [h1, if_true]
          constructor
          · intro h; simp at h
          · rintro (⟨h, h'⟩ | ⟨h, _⟩) <;> linarith
        · simp only [h1, if_false]
          by_cases h2 : c.2 = 0
          · simp only [h2, if_true, true_and, true_iff]
            left; linarith
          · simp [h2, not_lt.1 h1]
    rw [hstep, ih]
    constructor
    · rintro (h | ⟨h, b, d, a, rfl, hd, ha⟩)
      · exact ⟨l, c, [], rfl, h, by simp⟩
      · refine ⟨b, d, a ++ [c], by simp, hd, ?_⟩
        intro e he
        rcases List.mem_append.1 he with he | he
        · exact ha e he
        · rw [List.mem_singleton.1 he]; exact h
    · rintro ⟨b, d, a, he, hd, ha⟩
      rcases List.eq_nil_or_concat a with rfl | ⟨a', c', rfl⟩
      · left
        have : l = b ∧ c = d := by
          have := List.append_inj' he rfl
          simpa using this
        rw [this.2]; exact hd
      · right
        rw [List.concat_eq_append, ← List.cons_append, ← List.append_assoc] at he
        have := List.append_inj' he rfl
        simp only [List.cons.injEq, and_true] at this
        obtain ⟨h1, rfl⟩ := this
        refine ⟨ha c (by simp), b, d, a', h1, hd, fun e he => ha e (by simp [he])⟩

/-- A missing value of the last attribute makes the weight `nan`. -/
theorem C177_fluctuation_last (cols : List (List (Option ℝ) × ℝ)) {c : List (Option ℝ) × ℝ} (h : none ∈ c.1) :
    fluctuationWeight (cols ++ [c]) = none :=
  (C177_fluctuation_exactly _).2 ⟨cols, c, [], rfl, by simp [spread, numbers_eq_none.2 h], by simp⟩

example : fluctuationWeight [([some 1, some 2], 3), ([some 4, none], 1)] = none :=
  C177_fluctuation_last [([some 1, some 2], 3)] (by simp)

/-- Without missing values it is the weight for numbers. -/
theorem C177_fluctuation_numbers (a b : Nat) (cols : List (List ℝ × ℝ)) :
    fluctuationWeight (cols.map fun c => (((c.1.drop a).take (b + 1 - a)).map some, c.2)) = Weigher.fluctuationWeight a b cols := by
  unfold fluctuationWeight Weigher.fluctuationWeight
  rw [List.foldl_map]
  congr 1
  funext w c
  unfold fluctuationStep Weigher.fluctuationStep
  rw [numbers_map_some]
  rfl

example : fluctuationWeight [([some 1, some 1], 2)] = some 1 := by
  have := C177_fluctuation_numbers 0 1 [([1, 1], 2)]
  refine Eq.trans this ?_
  have h : Weigher.stdOf [1, 1] = some 0 := by
    unfold Weigher.stdOf Weigher.meanOf
    rw [if_neg (by simp)]
    norm_num
  have h' : Weigher.fluctuationWeight 0 1 [([1, 1], 2)] = Weigher.fluctuationStep 0 1 (some 1) ([1, 1], 2) := rfl
  rw [h']
  unfold Weigher.fluctuationStep
  simp only [List.drop_zero, List.take_of_length_le (show [(1 : ℝ), 1].length ≤ 1 + 1 - 0 by simp), h]
  norm_num

end fluctuation

end Verif.Nan
