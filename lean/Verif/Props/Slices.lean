import Mathlib.Tactic.FieldSimp
import Mathlib.Tactic.Linarith
import Mathlib.Tactic.NormNum
import Mathlib.Tactic.Push
import Mathlib.Tactic.Ring
import Verif.Lemmas.Fold
import Verif.Lemmas.Table
import Verif.Model.Slices
import Verif.Props.Diagram
import Verif.Props.Injector

/-!
# Property C90: arguments and defaults of `get_slices` and `get_points`
-/

set_option linter.unusedSectionVars false

namespace Verif.Slices

open Verif.Injector (linspace)

variable {K : Type} [Field K] [LinearOrder K] [IsStrictOrderedRing K]

/-! ### The argument `ws` -/

/-- The arguments for which `get_slices` works, as in C39. -/
def asArg : Form K → Option (Diagram.WsArg K)
  | .default => some .default
  | .number w => some (.number w)
  | .sequence l => some (.list l)
  | _ => none

/-- **C90 (part).** For `None`, an `int` or `float`, and a sequence of numbers `get_slices` returns the wind speeds
described in C39 together with the slices for them. (Missing: iterables which are not sequences and numbers of numpy,
see below.) -/
theorem C90_forms_partial {σ : Type} (f : List K → Except PyErr (List σ)) (defaults : List K) {ws : Form K}
    {arg : Diagram.WsArg K} (h : asArg ws = some arg) (n : Option Int) (labels : List K) (slices : List σ) :
    getSlices f defaults ws n = .ok (labels, slices) ↔
      Diagram.windSpeeds defaults arg n = .ok labels ∧ f labels = .ok slices := by
  have key : ∀ r : Except PyErr (List K), (match r.map Labels.speeds with
      | .error e => (.error e : Except PyErr (List K × List σ))
      | .ok .object => .error .typeError
      | .ok (.speeds l) =>
        match f l with
        | .error e => .error e
        | .ok slices => .ok (l, slices)) = .ok (labels, slices) ↔ r = .ok labels ∧ f labels = .ok slices := by
    intro r
    cases r with
    | error e => simp [Except.map]
    | ok l =>
      simp only [Except.map, Except.ok.injEq]
      cases hf : f l with
      | error e =>
        simp only [reduceCtorEq, false_iff, not_and]
        rintro rfl
        simp [hf]
      | ok s =>
        simp only [Except.ok.injEq, Prod.mk.injEq]
        constructor
        · rintro ⟨rfl, rfl⟩; exact ⟨rfl, hf⟩
        · rintro ⟨rfl, h⟩
          rw [hf] at h
          exact ⟨rfl, by cases h; rfl⟩
  cases ws with
  | default => cases h; exact key _
  | number w => cases h; exact key (.ok [w])
  | sequence l => cases h; exact key _
  | numpyNumber w => cases h
  | iterator l => cases h
  | set l => cases h
  | mixed => cases h
  | other => cases h

example : asArg (.sequence [(10 : Rat), 20]) = some (.list [10, 20]) ∧
    getSlices (fun l => .ok (l.map fun w => [w])) [] (.sequence [(10 : Rat), 20]) (some 1) =
      .ok ([10, 15, 20], [[10], [15], [20]]) := by
  refine ⟨rfl, ?_⟩
  decide +kernel

/-- **C90 (refuted).** `ws` may be an iterable of numbers, but iterators and sets of numbers always raise. -/
theorem C90_iterable_false {σ : Type} (f : List K → Except PyErr (List σ)) (defaults l : List K) (n : Option Int) :
    (∃ e, getSlices f defaults (.iterator l) n = .error e) ∧ (∃ e, getSlices f defaults (.set l) n = .error e) ∧
    getSlices f defaults (.iterator l) none = .error .typeError ∧
    getSlices f defaults (.set l) none = .error .typeError ∧
    (∀ k, n = some k → getSlices f defaults (.iterator l) n = .error (if k ≤ 0 then .valueError else .typeError) ∧
      getSlices f defaults (.set l) n = .error (if k ≤ 0 then .valueError else .typeError)) := by
  have key : ∀ ws : Form K, ws = .iterator l ∨ ws = .set l → ∃ e, getSlices f defaults ws n = .error e := by
    rintro ws (rfl | rfl) <;> cases n with
    | none => exact ⟨_, rfl⟩
    | some n =>
      simp only [getSlices, windSpeeds]
      split_ifs
      · exact ⟨_, rfl⟩
      · exact ⟨_, rfl⟩
  refine ⟨key _ (Or.inl rfl), key _ (Or.inr rfl), rfl, rfl, ?_⟩
  rintro k rfl
  by_cases h : k ≤ 0 <;> simp [getSlices, windSpeeds, h]

/-- **C90 (refuted).** A number of a numpy type which is not a `float` raises, although a sequence containing only this
number is accepted. -/
theorem C90_numpy_false {σ : Type} (f : List K → Except PyErr (List σ)) (defaults : List K) (w : K) (n : Option Int)
    {slices : List σ} (hf : f [w] = .ok slices) :
    getSlices f defaults (.numpyNumber w) n = .error .typeError ∧
    getSlices f defaults (.sequence [w]) none = .ok ([w], slices) ∧
    getSlices f defaults (.number w) n = .ok ([w], slices) := by
  refine ⟨rfl, ?_, ?_⟩ <;> simp [getSlices, windSpeeds, Diagram.spread, hf, Except.map]

example : getSlices (fun l => .ok (l.map fun w => [w])) [] (.numpyNumber (10 : Rat)) none = .error .typeError := rfl

/-! ### Default wind speeds -/

theorem twenty_spec {l : List K} (hl : l ≠ []) : ∃ r lo hi, twenty l = .ok r ∧ lo ∈ l ∧ hi ∈ l ∧
    (∀ w ∈ l, lo ≤ w ∧ w ≤ hi) ∧ r.length = 20 ∧
    ∀ i : Nat, i < 20 → r[i]? = some (lo + (i : K) * ((hi - lo) / 19)) := by
  obtain ⟨w, l', rfl⟩ := List.exists_cons_of_ne_nil hl
  obtain ⟨h1, h2⟩ := foldl_min_spec l' w
  obtain ⟨h3, h4⟩ := foldl_max_spec l' w
  refine ⟨_, l'.foldl min w, l'.foldl max w, rfl, h1, h3, fun x hx => ⟨h2 x hx, h4 x hx⟩, ?_, ?_⟩
  · simp [linspace]
  · intro i hi
    have : ((20 : Nat) : K) - 1 = 19 := by norm_num
    simp [linspace, hi]
    left; norm_num

/-- **C90.** The default slices of a point cloud are twenty evenly spread wind speeds from the smallest to the greatest
wind speed of the cloud. -/
theorem C90_default_cloud {cloud : List (Interp.Pt K)} (hne : cloud ≠ []) :
    ∃ r lo hi, cloudSlices cloud = .ok r ∧ (∃ p ∈ cloud, p.1.1 = lo) ∧ (∃ p ∈ cloud, p.1.1 = hi) ∧
      (∀ p ∈ cloud, lo ≤ p.1.1 ∧ p.1.1 ≤ hi) ∧ r.length = 20 ∧ r.head? = some lo ∧ r.getLast? = some hi ∧
      ∀ i : Nat, i < 20 → r[i]? = some (lo + (i : K) * ((hi - lo) / 19)) := by
  have hl : (cloud.map fun p => p.1.1) ≠ [] := by simpa using hne
  obtain ⟨r, lo, hi, h1, h2, h3, h4, h5, h6⟩ := twenty_spec hl
  refine ⟨r, lo, hi, h1, by simpa using h2, by simpa using h3, ?_, h5, ?_, ?_, h6⟩
  · intro p hp
    exact h4 _ (List.mem_map.2 ⟨p, hp, rfl⟩)
  · rw [List.head?_eq_getElem?, h6 0 (by norm_num)]; simp
  · rw [List.getLast?_eq_getElem?, h5, h6 19 (by norm_num)]
    simp only [Option.some.injEq, Nat.cast_ofNat]
    field_simp
    ring

/-- **C90.** The default slices of a curve are the sixteen wind speeds 5, 6, …, 20. -/
theorem C90_default_curve : (curveSlices : List K).length = 16 ∧
    ∀ i : Nat, i < 16 → (curveSlices : List K)[i]? = some (5 + (i : K)) := by
  refine ⟨by simp [curveSlices, linspace], ?_⟩
  intro i hi
  have h15 : ((16 : Nat) : K) - 1 = 15 := by norm_num
  simp only [curveSlices, linspace]
  norm_num [hi]

example : (curveSlices : List Rat) = [5, 6, 7, 8, 9, 10, 11, 12, 13, 14, 15, 16, 17, 18, 19, 20] := by decide +kernel

/-- **C90.** The default slices of a diagram with several sails are twenty evenly spread wind speeds from the smallest
to the greatest default slice of the sails. -/
theorem C90_default_sails {defaults : List (List K)} (hne : ∃ d ∈ defaults, d ≠ []) :
    ∃ r lo hi, multiSlices defaults = .ok r ∧ (∃ d ∈ defaults, lo ∈ d) ∧ (∃ d ∈ defaults, hi ∈ d) ∧
      (∀ d ∈ defaults, ∀ w ∈ d, lo ≤ w ∧ w ≤ hi) ∧ r.length = 20 ∧
      ∀ i : Nat, i < 20 → r[i]? = some (lo + (i : K) * ((hi - lo) / 19)) := by
  have hl : defaults.flatten ≠ [] := by
    obtain ⟨d, hd, hne⟩ := hne
    obtain ⟨x, hx⟩ := List.exists_mem_of_ne_nil _ hne
    exact List.ne_nil_of_mem (List.mem_flatten.2 ⟨d, hd, hx⟩)
  obtain ⟨r, lo, hi, h1, h2, h3, h4, h5, h6⟩ := twenty_spec hl
  exact ⟨r, lo, hi, h1, List.mem_flatten.1 h2, List.mem_flatten.1 h3,
    fun d hd w hw => h4 _ (List.mem_flatten.2 ⟨d, hd, hw⟩), h5, h6⟩

example : (∃ d ∈ [[(2 : Rat), 21], [5]], d ≠ []) ∧
    multiSlices [[(2 : Rat), 21], [5]] = .ok [2, 3, 4, 5, 6, 7, 8, 9, 10, 11, 12, 13, 14, 15, 16, 17, 18, 19, 20, 21] :=
  ⟨⟨[5], by simp, by simp⟩, by decide +kernel⟩

/-- Of two neighbouring members of an increasing progression one is close to a given point between its ends. -/
theorem near_member {lo d w : K} {n : Nat} (h0 : lo ≤ w) (h1 : w ≤ lo + (n : K) * d) {r : K} (hr : d ≤ 2 * r)
    (hr0 : 0 ≤ r) : ∃ i : Nat, i ≤ n ∧ |w - (lo + (i : K) * d)| ≤ r := by
  induction n with
  | zero =>
    refine ⟨0, le_refl _, ?_⟩
    have : w - lo = 0 := by simp at h1; linarith
    simpa [this] using hr0
  | succ n ih =>
    by_cases h : w ≤ lo + (n : K) * d
    · obtain ⟨i, hi, hw⟩ := ih h
      exact ⟨i, by omega, hw⟩
    · push Not at h
      push_cast at h1
      by_cases hc : w - (lo + (n : K) * d) ≤ r
      · exact ⟨n, by omega, by rw [abs_le]; constructor <;> linarith⟩
      · push Not at hc
        refine ⟨n + 1, le_refl _, ?_⟩
        push_cast
        rw [abs_le]; constructor <;> linarith

/-- **C90 (part).** If the wind speeds of a point cloud differ by at most 38 times `range_` then every point of the cloud
belongs to a default slice. (Missing: clouds with a wider range of wind speeds, see `C90_cover_false`.) -/
theorem C90_cover_partial [FloorRing K] {cloud : List (Interp.Pt K)} {range : K} (hr : 0 ≤ range)
    (hw : ∀ p ∈ cloud, ∀ q ∈ cloud, p.1.1 - q.1.1 ≤ 38 * range) {r : List K} (h : cloudSlices cloud = .ok r)
    {p : Interp.Pt K} (hp : p ∈ cloud) : ∃ s ∈ Cloud.wsToSlices range cloud r, p ∈ s := by
  obtain ⟨r', lo, hi, h1, ⟨a, ha, rfl⟩, ⟨b, hb, rfl⟩, h4, -, -, -, h8⟩ := C90_default_cloud (List.ne_nil_of_mem hp)
  rw [h] at h1
  cases h1
  have hd : (b.1.1 - a.1.1) / 19 ≤ 2 * range := by
    rw [div_le_iff₀ (by norm_num)]
    have := hw b hb a ha
    linarith
  obtain ⟨i, hi, hi'⟩ := near_member (n := 19) (h4 p hp).1 (d := (b.1.1 - a.1.1) / 19) (by
    have h := (h4 p hp).2
    have e : a.1.1 + ((19 : Nat) : K) * ((b.1.1 - a.1.1) / 19) = b.1.1 := by
      push_cast; field_simp; ring
    rw [e]; exact h) hd hr
  refine ⟨_, List.mem_map.2 ⟨_, List.mem_of_getElem? (h8 i (by omega)), rfl⟩, ?_⟩
  rw [List.mem_filter]
  exact ⟨hp, by simpa using hi'⟩

example : ∀ p ∈ [(((2 : Rat), (0 : Rat)), (1 : Rat)), ((38, 90), 7)],
    ∀ q ∈ [(((2 : Rat), (0 : Rat)), (1 : Rat)), ((38, 90), 7)], p.1.1 - q.1.1 ≤ 38 * 1 := by decide +kernel

/-- **C90 (refuted).** For a cloud with a wider range of wind speeds points may belong to none of the default slices. -/
theorem C90_cover_false : ∃ (cloud : List (Interp.Pt Rat)) (r : List Rat), cloudSlices cloud = .ok r ∧
    ∃ p ∈ cloud, ∀ s ∈ Cloud.wsToSlices 1 cloud r, p ∉ s :=
  ⟨[((1, 30), 1), ((41, 30), 9), ((1 + 20 / 19, 30), 2)],
    (List.range 20).map (fun (i : Nat) => 1 + (i : Rat) * (40 / 19)), by decide +kernel,
    ((1 + 20 / 19, 30), 2), by simp, by decide +kernel⟩

/-! ### Default points -/

theorem tablePoints_eq (ws wa : List K) (bsps : List (List K)) (hrows : bsps.length = wa.length)
    (hcols : ∀ r ∈ bsps, r.length = ws.length) : tablePoints ⟨ws, wa, bsps⟩ = Table.points ⟨ws, wa, bsps⟩ := by
  simp only [tablePoints, Table.points]
  induction wa generalizing bsps with
  | nil => simp
  | cons a wa ih =>
    cases bsps with
    | nil => simp at hrows
    | cons r bsps =>
      have hr : r.length = ws.length := hcols r (by simp)
      simp only [List.flatMap_cons, List.flatten_cons, List.zip_cons_cons]
      rw [List.zip_append (by simp [hr]), ih bsps (by simpa using hrows) fun r hr => hcols r (by simp [hr])]
      congr 1
      apply List.ext_getElem (by simp)
      intro i h1 h2
      simp

/-- **C90.** The default points of a table are exactly its entries, and there are as many of them as cells. -/
theorem C90_table_points [FloorRing K] {t : Table K} (h : Table.WF t) :
    (tablePoints t).length = t.wa.length * t.ws.length ∧
    (∀ p, p ∈ tablePoints t ↔ p.1.1 ∈ t.ws ∧ p.1.2 ∈ t.wa ∧ Table.get t p.1.1 p.1.2 = .ok p.2) := by
  have e : tablePoints t = Table.points t := tablePoints_eq t.ws t.wa t.bsps h.rows h.cols
  constructor
  · have h1 : ∀ wa : List K, (wa.flatMap fun a => t.ws.map fun w => (w, a)).length = wa.length * t.ws.length := by
      intro wa
      induction wa with
      | nil => simp
      | cons a wa ih => simp [ih, Nat.succ_mul, Nat.add_comm]
    have h2 : ∀ b : List (List K), (∀ r ∈ b, r.length = t.ws.length) → b.flatten.length = b.length * t.ws.length := by
      intro b
      induction b with
      | nil => simp
      | cons r b ih =>
        intro hb
        simp only [List.flatten_cons, List.length_append, List.length_cons, Nat.succ_mul]
        rw [ih fun r hr => hb r (by simp [hr]), hb r (by simp)]
        omega
    rw [tablePoints, List.length_zip, h1, h2 _ h.cols, h.rows]
    simp
  · intro p
    have hmod : ∀ a ∈ t.wa, pmod a 360 = a := fun a ha => pmod_of_mem (h.wa_nonneg a ha) (h.wa_lt a ha)
    have hget : ∀ (i j : Nat) (hi : i < t.wa.length) (hj : j < t.ws.length),
        ∃ x, (∃ r, t.bsps[i]? = some r ∧ r[j]? = some x) ∧ Table.get t t.ws[j] t.wa[i] = .ok x := by
      intro i j hi hj
      have hi' : i < t.bsps.length := by rw [h.rows]; exact hi
      have hj' : j < t.bsps[i].length := by rw [h.cols _ (List.getElem_mem _)]; exact hj
      refine ⟨t.bsps[i][j], ⟨_, List.getElem?_eq_getElem hi', List.getElem?_eq_getElem hj'⟩, ?_⟩
      exact Table.get_entry h (List.getElem?_eq_getElem hj)
        (by rw [hmod _ (List.getElem_mem _), List.getElem?_eq_getElem hi])
        (List.getElem?_eq_getElem hi') (List.getElem?_eq_getElem hj')
    rw [e]
    simp only [Table.points, List.mem_flatMap, List.mem_map]
    constructor
    · rintro ⟨q, hq, s, hs, rfl⟩
      obtain ⟨i, hi, rfl⟩ := List.getElem_of_mem hq
      rw [List.getElem_zip] at hs ⊢
      obtain ⟨j, hj, rfl⟩ := List.getElem_of_mem hs
      rw [List.getElem_zip]
      rw [List.length_zip] at hi hj
      obtain ⟨x, ⟨r, hr, hx⟩, hg⟩ := hget i j (by omega) (by omega)
      rw [List.getElem?_eq_getElem (by omega)] at hr
      cases hr
      rw [List.getElem?_eq_getElem (by simp at hj; omega)] at hx
      cases hx
      exact ⟨List.getElem_mem _, List.getElem_mem _, hg⟩
    · rintro ⟨hw, ha, hg⟩
      obtain ⟨j, hj, hj'⟩ := List.getElem_of_mem hw
      obtain ⟨i, hi, hi'⟩ := List.getElem_of_mem ha
      obtain ⟨x, ⟨r, hr, hx⟩, hg'⟩ := hget i j hi hj
      rw [hi', hj', hg] at hg'
      cases hg'
      refine ⟨(p.1.2, r), ?_, (p.1.1, p.2), ?_, rfl⟩
      · apply List.mem_of_getElem? (i := i)
        rw [List.getElem?_zip_eq_some]
        exact ⟨by rw [List.getElem?_eq_getElem hi, hi'], hr⟩
      · apply List.mem_of_getElem? (i := j)
        rw [List.getElem?_zip_eq_some]
        exact ⟨by rw [List.getElem?_eq_getElem hj, hj'], hx⟩

example : tablePoints (⟨[6, 8], [30, 60, 90], [[1, 2], [3, 4], [5, 6]]⟩ : Table Rat) =
    [((6, 30), 1), ((8, 30), 2), ((6, 60), 3), ((8, 60), 4), ((6, 90), 5), ((8, 90), 6)] := by decide +kernel

/-- **C90.** If the curve can be evaluated everywhere then its default points are points of the curve: all combinations
of 128 wind speeds between 5 and 20 and 144 wind angles between 5 and 355. -/
theorem C90_curve_points {call : K → K → Except PyErr K} {f : K → K → K} (h : ∀ w a, call w a = .ok (f w a)) :
    ∃ r, curvePoints call = .ok r ∧ r.length = 144 * 128 ∧ (∀ p ∈ r, p.2 = f p.1.1 p.1.2) ∧
      (∀ p ∈ r, 5 ≤ p.1.1 ∧ p.1.1 ≤ 20 ∧ 5 ≤ p.1.2 ∧ p.1.2 ≤ 355) ∧
      ∀ i j : Nat, i < 128 → j < 144 → ((5 + (i : K) * (15 / 127), 5 + (j : K) * (350 / 143)),
        f (5 + (i : K) * (15 / 127)) (5 + (j : K) * (350 / 143))) ∈ r := by
  obtain ⟨r, hr⟩ := (Diagram.evalWinds_spec call
    ((linspace 5 355 144).flatMap fun a => (linspace 5 20 128).map fun w => (w, a))).2 fun p _ => ⟨_, h _ _⟩
  obtain ⟨h1, h2⟩ := (Diagram.evalWinds_spec call _).1 r hr
  have hval : ∀ p ∈ r, p.2 = f p.1.1 p.1.2 := by
    intro p hp
    have := h2 p hp
    rw [h, Except.ok.injEq] at this
    exact this.symm
  have hmem : ∀ x : K × K, x ∈ r.map Prod.fst ↔ ∃ i j : Nat, i < 128 ∧ j < 144 ∧
      x = (5 + (i : K) * (15 / 127), 5 + (j : K) * (350 / 143)) := by
    intro x
    rw [h1]
    have e1 : ((20 : K) - 5) / ((128 : Nat) - 1) = 15 / 127 := by norm_num
    have e2 : ((355 : K) - 5) / ((144 : Nat) - 1) = 350 / 143 := by norm_num
    simp only [linspace, if_neg (show ¬ (128 = 1) by norm_num), if_neg (show ¬ (144 = 1) by norm_num), e1, e2,
      List.mem_flatMap, List.mem_map, List.mem_range]
    constructor
    · rintro ⟨a, ⟨j, hj, rfl⟩, w, ⟨i, hi, rfl⟩, rfl⟩
      exact ⟨i, j, hi, hj, rfl⟩
    · rintro ⟨i, j, hi, hj, rfl⟩
      exact ⟨_, ⟨j, hj, rfl⟩, _, ⟨i, hi, rfl⟩, rfl⟩
  refine ⟨r, hr, ?_, hval, ?_, ?_⟩
  · have := congrArg List.length h1
    rw [List.length_map] at this
    rw [this, List.length_flatMap]
    simp [linspace, Function.comp_def]
  · intro p hp
    obtain ⟨i, j, hi, hj, hx⟩ := (hmem p.1).1 (List.mem_map.2 ⟨p, hp, rfl⟩)
    have hi' : (i : K) ≤ 127 := by exact_mod_cast Nat.le_of_lt_succ hi
    have hj' : (j : K) ≤ 143 := by exact_mod_cast Nat.le_of_lt_succ hj
    have hi0 : (0 : K) ≤ i := Nat.cast_nonneg _
    have hj0 : (0 : K) ≤ j := Nat.cast_nonneg _
    rw [hx]
    refine ⟨?_, ?_, ?_, ?_⟩ <;> simp only <;> linarith
  · intro i j hi hj
    obtain ⟨p, hp, hx⟩ := List.mem_map.1 ((hmem _).2 ⟨i, j, hi, hj, rfl⟩)
    have := hval p hp
    rw [hx] at this
    obtain ⟨p1, p2⟩ := p
    simp only at hx this
    rw [← hx, ← this] at *
    exact hp

example : ∃ r, curvePoints (fun w a => .ok (w + a : Rat)) = .ok r ∧ ((5, 5), 10) ∈ r := by
  obtain ⟨r, h1, -, -, -, h⟩ := C90_curve_points (K := Rat) (call := fun w a => .ok (w + a)) (f := fun w a => w + a)
    fun _ _ => rfl
  refine ⟨r, h1, ?_⟩
  have := h 0 0 (by norm_num) (by norm_num)
  norm_num at this
  exact this

/-- **C90 (part).** The default points of a diagram with several sails are the default points of the sails. If these lie
on the diagrams of the sails then the boat speed of each default point is at most the value of the diagram there.
(Missing: equality, see `C90_sails_points_false`.) -/
theorem C90_sails_points_partial {ds : List (Diagram.Sail K)} {points : List (List ((K × K) × K))} (hne : points ≠ [])
    (hlen : points.length = ds.length)
    (h : ∀ (i : Nat) (d : Diagram.Sail K) (ps : List ((K × K) × K)), ds[i]? = some d → points[i]? = some ps →
      ∀ p ∈ ps, d.call p.1.1 p.1.2 = .ok p.2) :
    ∃ r, multiPoints points = .ok r ∧ (∀ p, p ∈ r ↔ ∃ ps ∈ points, p ∈ ps) ∧
      ∀ p ∈ r, ∀ x, Diagram.multiCall ds p.1.1 p.1.2 = .ok x → p.2 ≤ x := by
  refine ⟨points.flatten, by simp [multiPoints, hne], fun p => List.mem_flatten, ?_⟩
  intro p hp x hx
  obtain ⟨ps, hps, hp⟩ := List.mem_flatten.1 hp
  obtain ⟨i, hi, rfl⟩ := List.getElem_of_mem hps
  have hi' : i < ds.length := by omega
  obtain ⟨y, hy, hle⟩ := (Diagram.C38_max hx).2 _ (List.getElem_mem hi')
  rw [h i _ _ (List.getElem?_eq_getElem hi') (List.getElem?_eq_getElem hi) p hp] at hy
  cases hy
  exact hle

/-- **C90 (refuted).** Default points of a diagram with several sails need not lie on the diagram: with two sails the
point of the slower sail is returned, too. -/
theorem C90_sails_points_false : ∃ (ds : List (Diagram.Sail Rat)) (points : List (List ((Rat × Rat) × Rat)))
    (r : List ((Rat × Rat) × Rat)), multiPoints points = .ok r ∧
      (∀ (i : Nat) (d : Diagram.Sail Rat) (ps : List ((Rat × Rat) × Rat)), ds[i]? = some d → points[i]? = some ps →
        ∀ p ∈ ps, d.call p.1.1 p.1.2 = .ok p.2) ∧
      ∃ p ∈ r, Diagram.multiCall ds p.1.1 p.1.2 ≠ .ok p.2 := by
  refine ⟨[⟨fun _ _ => .ok 5, fun _ => []⟩, ⟨fun _ _ => .ok 7, fun _ => []⟩], [[((10, 90), 5)], [((10, 90), 7)]],
    [((10, 90), 5), ((10, 90), 7)], rfl, ?_, ((10, 90), 5), by simp, ?_⟩
  · intro i d ps hd hps p hp
    match i with
    | 0 => cases hd; cases hps; cases List.mem_singleton.1 hp; rfl
    | 1 => cases hd; cases hps; cases List.mem_singleton.1 hp; rfl
    | i + 2 => simp at hd
  · norm_num [Diagram.multiCall, Diagram.callAll]

/-! ### Slices of a point cloud with an interpolator -/

/-- **C90 (refuted).** A slice of a point cloud with an interpolator does not have the documented three rows: it has a
row for every wind angle, which contains nothing but the boat speed. -/
theorem C90_interpolator_false {call : K → K → Except PyErr K} {f : K → K → K} (h : ∀ w a, call w a = .ok (f w a))
    (n : Nat) (w : K) : cloudRows call n w = .ok ((linspace 0 360 n).map fun a => [f w a]) ∧
      ∀ rows, cloudRows call n w = .ok rows → rows.length = n ∧ ∀ row ∈ rows, row.length = 1 := by
  have e : cloudRows call n w = .ok ((linspace 0 360 n).map fun a => [f w a]) :=
    mapM_ok_of fun a _ => by simp [h, Except.map]
  refine ⟨e, ?_⟩
  intro rows hr
  rw [e] at hr
  cases hr
  refine ⟨by simpa using (Injector.linspace_evenly (0 : K) 360 n).1, ?_⟩
  intro row hrow
  obtain ⟨a, -, rfl⟩ := List.mem_map.1 hrow
  rfl

example : cloudRows (fun w a => .ok (w + a)) 4 (10 : Rat) = .ok [[10], [130], [250], [370]] := by decide +kernel

end Verif.Slices
