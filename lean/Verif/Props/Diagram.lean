import Mathlib.Data.Rat.Defs
import Mathlib.Algebra.Order.Ring.Rat
import Mathlib.Tactic.FieldSimp
import Mathlib.Tactic.Ring
import Mathlib.Tactic.NormNum
import Verif.Model.Diagram
import Verif.Lemmas.Csv

/-!
# Properties C38, C39, C56, C57: polar diagrams in general, and diagrams of several sails
-/

set_option linter.unusedSectionVars false

namespace Verif.Diagram

open Verif.Injector (linspace)

variable {K : Type} [Field K] [LinearOrder K] [IsStrictOrderedRing K]

/-! ### C39 -/

theorem chunk_spec (a b : K) {n : Nat} (hn : 0 < n) :
    ((linspace a b (n + 2)).dropLast).length = n + 1 ∧
    ∀ j : Nat, j ≤ n → ((linspace a b (n + 2)).dropLast)[j]? = some (a + (j : K) * (b - a) / ((n : K) + 1)) := by
  have h1 : ¬ n + 2 = 1 := by omega
  constructor
  · simp [linspace, h1]
  · intro j hj
    rw [List.getElem?_dropLast, linspace, if_neg h1]
    have h2 : j < n + 2 := by omega
    have hne : (n : K) + 1 ≠ 0 := by positivity
    simp only [List.length_map, List.length_range, show j < n + 2 - 1 by omega, if_true, List.getElem?_map,
      List.getElem?_range h2, Option.map_some, Option.some.injEq]
    push_cast
    rw [show ((n : K) + 2 - 1) = (n : K) + 1 by ring]
    field_simp

/-- The wind speeds as computed by `spread`, one interval after the other. -/
def spreadRec (n : Nat) : List K → List K
  | [] => []
  | [a] => [a]
  | a :: b :: l => (linspace a b (n + 2)).dropLast ++ spreadRec n (b :: l)

theorem spreadRec_eq (n : Nat) : ∀ {l : List K} {last : K}, l.getLast? = some last →
    (l.zip l.tail).flatMap (fun p => (linspace p.1 p.2 (n + 2)).dropLast) ++ [last] = spreadRec n l
  | [], _, h => by simp at h
  | [a], last, h => by simp at h; simp [spreadRec, h]
  | a :: b :: l, last, h => by
    have h' : (b :: l).getLast? = some last := by rw [← h]; simp [List.getLast?_cons_cons]
    have := spreadRec_eq n h'
    simp only [List.tail_cons] at this
    simp only [List.tail_cons, List.zip_cons_cons, List.flatMap_cons, List.append_assoc, spreadRec]
    rw [← this]

theorem spreadRec_spec {n : Nat} (hn : 0 < n) : ∀ {l : List K}, l ≠ [] →
    (spreadRec n l).length = (l.length - 1) * (n + 1) + 1 ∧ (spreadRec n l)[0]? = l[0]? ∧
    ∀ (i j : Nat) (a b : K), l[i]? = some a → l[i + 1]? = some b → j ≤ n + 1 →
      (spreadRec n l)[i * (n + 1) + j]? = some (a + (j : K) * (b - a) / ((n : K) + 1))
  | [], h => absurd rfl h
  | [a], _ => by simp [spreadRec]
  | a :: b :: l, _ => by
    obtain ⟨ih1, ih2, ih3⟩ := spreadRec_spec hn (l := b :: l) (by simp)
    obtain ⟨c1, c2⟩ := chunk_spec a b hn
    refine ⟨?_, ?_, ?_⟩
    · simp only [spreadRec, List.length_append, c1, ih1, List.length_cons, Nat.add_sub_cancel]
      ring
    · rw [spreadRec, List.getElem?_append_left (by omega), c2 0 (by omega)]
      simp
    · intro i j x y hx hy hj
      rw [spreadRec]
      cases i with
      | zero =>
        simp only [List.getElem?_cons_zero, Option.some.injEq, List.getElem?_cons_succ, Nat.zero_add] at hx hy
        subst hx hy
        rw [Nat.zero_mul, Nat.zero_add]
        by_cases hj' : j ≤ n
        · rw [List.getElem?_append_left (by omega), c2 j hj']
        · have : j = n + 1 := by omega
          subst this
          rw [List.getElem?_append_right (by omega), c1, Nat.sub_self, ih2]
          have hne : (n : K) + 1 ≠ 0 := by positivity
          simp only [List.getElem?_cons_zero, Option.some.injEq]
          push_cast
          field_simp
          ring
      | succ i =>
        have := ih3 i j x y (by simpa using hx) (by simpa using hy) hj
        rw [List.getElem?_append_right (by rw [c1, Nat.add_mul]; omega), c1]
        rw [← this]
        congr 1
        rw [Nat.add_mul]
        omega

/-- **C39.** With `n_steps = n > 0` and `k` wind speeds there are `(k - 1) (n + 1) + 1` slices; the number `i (n + 1)`
has the wind speed number `i` and the `n` slices in between are evenly spaced. -/
theorem C39_n_steps (defaults : List K) {l : List K} (hl : l ≠ []) {n : Nat} (hn : 0 < n) :
    ∃ r, windSpeeds defaults (.list l) (some n) = .ok r ∧ windSpeeds l .default (some n) = .ok r ∧
      r.length = (l.length - 1) * (n + 1) + 1 ∧
      (∀ i : Nat, i < l.length → r[i * (n + 1)]? = l[i]?) ∧
      ∀ (i j : Nat) (a b : K), l[i]? = some a → l[i + 1]? = some b → j ≤ n + 1 →
        r[i * (n + 1) + j]? = some (a + (j : K) * (b - a) / ((n : K) + 1)) := by
  obtain ⟨last, hlast⟩ : ∃ x, l.getLast? = some x := ⟨_, List.getLast?_eq_some_getLast hl⟩
  have hn' : ¬ ((n : Int) ≤ 0) := by omega
  have ht : ((n : Int) + 2).toNat = n + 2 := by omega
  have hs : spread l (some (n : Int)) = .ok (spreadRec n l) := by
    simp only [spread, hn', if_false, hlast, ht, spreadRec_eq n hlast]
  obtain ⟨h1, h2, h3⟩ := spreadRec_spec hn hl
  refine ⟨spreadRec n l, hs, hs, h1, ?_, h3⟩
  intro i hi
  cases i with
  | zero => simpa using h2
  | succ i =>
    have := h3 i (n + 1) l[i] l[i + 1] (List.getElem?_eq_getElem (by omega)) (List.getElem?_eq_getElem hi) (le_refl _)
    rw [show (i + 1) * (n + 1) = i * (n + 1) + (n + 1) by ring, this, List.getElem?_eq_getElem hi]
    have hne : (n : K) + 1 ≠ 0 := by positivity
    congr 1
    push_cast
    field_simp
    ring

/-- **C39.** Without `n_steps` the given wind speeds are used; a single number is used as it is. -/
theorem C39_plain (defaults l : List K) (w : K) (n : Option Int) :
    windSpeeds defaults (.list l) none = .ok l ∧ windSpeeds defaults .default none = .ok defaults ∧
    windSpeeds defaults (.number w) n = .ok [w] := ⟨rfl, rfl, rfl⟩

/-- **C39.** A number of steps which is not positive raises `ValueError`, other arguments raise `TypeError`. -/
theorem C39_raises (defaults l : List K) {n : Int} (hn : n ≤ 0) (m : Option Int) :
    windSpeeds defaults (.list l) (some n) = .error .valueError ∧
    windSpeeds defaults .default (some n) = .error .valueError ∧
    windSpeeds defaults .other m = .error .typeError := by
  refine ⟨?_, ?_, rfl⟩ <;> simp [windSpeeds, spread, hn]

example : windSpeeds [] (.list [(10 : Rat), 14, 20]) (some 1) = .ok [10, 12, 14, 17, 20] := by decide +kernel

/-! ### C57 -/

theorem evalWinds_spec (call : K → K → Except PyErr K) (l : List (K × K)) :
    (∀ r, evalWinds call l = .ok r → r.map Prod.fst = l ∧ ∀ p ∈ r, call p.1.1 p.1.2 = .ok p.2) ∧
    ((∀ p ∈ l, ∃ b, call p.1 p.2 = .ok b) → ∃ r, evalWinds call l = .ok r) := by
  induction l with
  | nil => exact ⟨by rintro r ⟨⟩; simp, fun _ => ⟨_, rfl⟩⟩
  | cons p l ih =>
    constructor
    · intro r hr
      simp only [evalWinds] at hr
      split at hr
      · cases hr
      · rename_i b hb
        split at hr
        · cases hr
        · rename_i r' hr'
          cases hr
          obtain ⟨h1, h2⟩ := ih.1 r' hr'
          refine ⟨by simp [h1], ?_⟩
          intro q hq
          rcases List.mem_cons.1 hq with rfl | hq
          · exact hb
          · exact h2 q hq
    · intro h
      obtain ⟨b, hb⟩ := h p (by simp)
      obtain ⟨r, hr⟩ := ih.2 fun q hq => h q (by simp [hq])
      exact ⟨(p, b) :: r, by simp only [evalWinds, hb, hr]⟩

/-- **C57.** For an array with two columns `get_points` returns its rows with the boat speed appended. -/
theorem C57_rows (call : K → K → Except PyErr K) (winds : List (K × K))
    (h : ∀ p ∈ winds, ∃ b, call p.1 p.2 = .ok b) :
    ∃ r, getPoints call (.array 2 (winds.map fun p => [p.1, p.2])) = .ok r ∧ r.map Prod.fst = winds ∧
      ∀ p ∈ r, call p.1.1 p.1.2 = .ok p.2 := by
  obtain ⟨r, hr⟩ := (evalWinds_spec call winds).2 h
  obtain ⟨h1, h2⟩ := (evalWinds_spec call winds).1 r hr
  exact ⟨r, by simpa [getPoints, getWind, Function.comp_def] using hr, h1, h2⟩

/-- **C57.** For an array with two rows and a number of columns other than two the columns are the winds. -/
theorem C57_columns (call : K → K → Except PyErr K) (winds : List (K × K)) (hne : winds.length ≠ 2)
    (h : ∀ p ∈ winds, ∃ b, call p.1 p.2 = .ok b) :
    ∃ r, getPoints call (.array winds.length [winds.map Prod.fst, winds.map Prod.snd]) = .ok r ∧
      r.map Prod.fst = winds ∧ ∀ p ∈ r, call p.1.1 p.1.2 = .ok p.2 := by
  obtain ⟨r, hr⟩ := (evalWinds_spec call winds).2 h
  obtain ⟨h1, h2⟩ := (evalWinds_spec call winds).1 r hr
  refine ⟨r, ?_, h1, h2⟩
  have e : ((List.range winds.length).map fun j => ((winds.map Prod.fst).getD j 0, (winds.map Prod.snd).getD j 0)) =
      winds := by
    apply List.ext_getElem (by simp)
    intro i h1 h2
    simp [List.getD_eq_getElem?_getD, h2]
  simp only [getPoints, getWind, hne, if_false, List.length_cons, List.length_nil, List.getD_cons_zero,
    List.getD_cons_succ, e, hr, if_true]

/-- **C57.** For a tuple of wind speeds and wind angles all combinations are returned, one wind angle after the
other. -/
theorem C57_tuple (call : K → K → Except PyErr K) (ws wa : List K)
    (h : ∀ w ∈ ws, ∀ a ∈ wa, ∃ b, call w a = .ok b) :
    ∃ r, getPoints call (.tuple [ws, wa]) = .ok r ∧ r.length = wa.length * ws.length ∧
      (∀ p ∈ r, call p.1.1 p.1.2 = .ok p.2) ∧
      ∀ (i j : Nat) (w a : K), ws[i]? = some w → wa[j]? = some a →
        (r.map Prod.fst)[j * ws.length + i]? = some (w, a) := by
  set winds := wa.flatMap fun a => ws.map fun w => (w, a) with hw
  obtain ⟨r, hr⟩ := (evalWinds_spec call winds).2 (by
    intro p hp
    obtain ⟨a, ha, hp⟩ := List.mem_flatMap.1 hp
    obtain ⟨w, hw, rfl⟩ := List.mem_map.1 hp
    exact h w hw a ha)
  obtain ⟨h1, h2⟩ := (evalWinds_spec call winds).1 r hr
  refine ⟨r, ?_, ?_, h2, ?_⟩
  · simp [getPoints, getWind, ← hw, hr]
  · have := congrArg List.length h1
    rw [List.length_map] at this
    rw [this, hw, List.length_flatMap]
    simp
  · intro i j w a hi hj
    rw [h1, hw]
    clear h1 h2 hr hw h winds
    have hil := (List.getElem?_eq_some_iff.1 hi).1
    induction wa generalizing j with
    | nil => simp at hj
    | cons b wa ih =>
      rw [List.flatMap_cons]
      cases j with
      | zero =>
        simp only [List.getElem?_cons_zero, Option.some.injEq] at hj
        subst hj
        rw [Nat.zero_mul, Nat.zero_add, List.getElem?_append_left (by simpa using hil)]
        simp [hi]
      | succ j =>
        rw [List.getElem?_append_right (by simp; rw [Nat.add_mul]; omega)]
        rw [← ih j (by simpa using hj)]
        congr 1
        simp
        rw [Nat.add_mul]
        omega

/-- **C57.** If the diagram raises an exception at one of the winds then `get_points` raises; other shapes and types are
rejected. -/
theorem C57_raises (call : K → K → Except PyErr K) (cols : Nat) (rows : List (List K)) (l : List (List K)) :
    (∀ p : K × K, [p.1, p.2] ∈ rows → (∃ e, call p.1 p.2 = .error e) → ∃ e, getPoints call (.array 2 rows) = .error e) ∧
    (cols ≠ 2 → rows.length ≠ 2 → getPoints call (.array cols rows) = .error .valueError) ∧
    (l.length ≠ 2 → getPoints call (.tuple l) = .error .valueError) ∧
    getPoints call .other = .error .typeError := by
  refine ⟨?_, ?_, ?_, rfl⟩
  · rintro p hp ⟨e, he⟩
    cases hg : getPoints call (.array 2 rows) with
    | error e => exact ⟨e, rfl⟩
    | ok r =>
      exfalso
      simp only [getPoints, getWind, if_true] at hg
      obtain ⟨h1, h2⟩ := (evalWinds_spec call _).1 r hg
      have : p ∈ r.map Prod.fst := by
        rw [h1, List.mem_map]
        exact ⟨_, hp, rfl⟩
      obtain ⟨q, hq, rfl⟩ := List.mem_map.1 this
      rw [h2 q hq] at he
      cases he
  · intro h1 h2
    simp [getPoints, getWind, h1, h2]
  · intro h1
    simp [getPoints, getWind, h1]

example : getPoints (fun w a => .ok (w + a)) (.tuple [[(1 : Rat), 2], [10, 20]]) =
    .ok [((1, 10), 11), ((2, 10), 12), ((1, 20), 21), ((2, 20), 22)] := by decide +kernel

/-! ### C38 -/

theorem foldl_max_spec (l : List K) (x : K) : (∀ y ∈ x :: l, y ≤ l.foldl max x) ∧ l.foldl max x ∈ x :: l := by
  induction l generalizing x with
  | nil => simp
  | cons a l ih =>
    obtain ⟨h1, h2⟩ := ih (max x a)
    rw [List.foldl_cons]
    constructor
    · intro y hy
      have h3 := h1 (max x a) (by simp)
      rcases List.mem_cons.1 hy with rfl | hy
      · exact le_trans (le_max_left _ _) h3
      · rcases List.mem_cons.1 hy with rfl | hy
        · exact le_trans (le_max_right _ _) h3
        · exact h1 y (by simp [hy])
    · rcases List.mem_cons.1 h2 with h2 | h2
      · rw [h2]
        rcases max_choice x a with h | h <;> rw [h] <;> simp
      · simp [h2]

theorem callAll_spec (ws wa : K) (ds : List (Sail K)) :
    (∀ l, callAll ws wa ds = .ok l → ds.map (fun d => d.call ws wa) = l.map .ok) ∧
    ∀ e, callAll ws wa ds = .error e → ∃ d ∈ ds, d.call ws wa = .error e := by
  induction ds with
  | nil => exact ⟨by rintro l ⟨⟩; rfl, by rintro e ⟨⟩⟩
  | cons d ds ih =>
    constructor
    · intro l hl
      simp only [callAll] at hl
      split at hl
      · cases hl
      · rename_i x hx
        split at hl
        · cases hl
        · rename_i l' hl'
          cases hl
          simp [hx, ih.1 l' hl']
    · intro e he
      simp only [callAll] at he
      split at he
      · rename_i hx
        cases he
        exact ⟨d, by simp, hx⟩
      · split at he
        · rename_i e' he'
          cases he
          obtain ⟨d', hd', h⟩ := ih.2 _ he'
          exact ⟨d', by simp [hd'], h⟩
        · cases he

/-- **C38.** The value of the diagram is the largest of the values of the sails, and the value of one of them. -/
theorem C38_max {ds : List (Sail K)} {ws wa x : K} (h : multiCall ds ws wa = .ok x) :
    (∃ d ∈ ds, d.call ws wa = .ok x) ∧ ∀ d ∈ ds, ∃ y, d.call ws wa = .ok y ∧ y ≤ x := by
  simp only [multiCall] at h
  split at h
  · cases h
  · cases h
  · rename_i y l hl
    cases h
    have hm := (callAll_spec ws wa ds).1 _ hl
    obtain ⟨h1, h2⟩ := foldl_max_spec l y
    constructor
    · have : Except.ok (l.foldl max y) ∈ ds.map fun d => d.call ws wa := by
        rw [hm]
        exact List.mem_map_of_mem h2
      obtain ⟨d, hd, he⟩ := List.mem_map.1 this
      exact ⟨d, hd, he⟩
    · intro d hd
      have : d.call ws wa ∈ (y :: l).map (Except.ok (ε := PyErr)) := by
        rw [← hm]
        exact List.mem_map_of_mem hd
      obtain ⟨z, hz, he⟩ := List.mem_map.1 this
      exact ⟨z, he.symm, h1 z hz⟩

/-- **C38.** There is a value if there are sails and all of them give a value; otherwise an exception is raised. -/
theorem C38_defined (ds : List (Sail K)) (ws wa : K) :
    (∃ x, multiCall ds ws wa = .ok x) ↔ ds ≠ [] ∧ ∀ d ∈ ds, ∃ y, d.call ws wa = .ok y := by
  constructor
  · rintro ⟨x, hx⟩
    obtain ⟨⟨d, hd, -⟩, h2⟩ := C38_max hx
    exact ⟨List.ne_nil_of_mem hd, fun d hd => let ⟨y, hy, _⟩ := h2 d hd; ⟨y, hy⟩⟩
  · rintro ⟨hne, h⟩
    cases hc : callAll ws wa ds with
    | error e =>
      obtain ⟨d, hd, he⟩ := (callAll_spec ws wa ds).2 e hc
      obtain ⟨y, hy⟩ := h d hd
      rw [hy] at he
      cases he
    | ok l =>
      cases l with
      | nil =>
        have := (callAll_spec ws wa ds).1 _ hc
        simp only [List.map_nil, List.map_eq_nil_iff] at this
        exact absurd this hne
      | cons x l => exact ⟨l.foldl max x, by simp only [multiCall, hc]⟩

/-- **C38.** There are as many names as diagrams; the given names are used as far as possible, the others are
numbered. -/
theorem C38_names {σ : Type} (numbered : Nat → σ) (n : Nat) (sails : Option (List σ)) :
    (sailNames numbered n sails).length = n ∧
    ∀ i : Nat, i < n → (sailNames numbered n sails)[i]? =
      some ((sails.getD [])[i]?.getD (numbered i)) := by
  cases sails with
  | none =>
    refine ⟨by simp [sailNames], fun i hi => ?_⟩
    simp [sailNames, hi]
  | some l =>
    simp only [sailNames]
    split
    · rename_i h
      refine ⟨by simp; omega, fun i hi => ?_⟩
      by_cases hl : i < l.length
      · rw [List.getElem?_append_left hl]
        simp [hl]
      · rw [List.getElem?_append_right (by omega)]
        simp only [List.getElem?_map, Option.getD_some]
        rw [List.getElem?_range' (by omega)]
        simp [show l.length + (i - l.length) = i by omega, show l.length ≤ i by omega]
    · split
      · rename_i h1 h2
        refine ⟨by simp; omega, fun i hi => ?_⟩
        rw [List.getElem?_take, if_pos hi]
        simp [show i < l.length by omega]
      · refine ⟨by omega, fun i hi => ?_⟩
        simp [show i < l.length by omega]

/-- **C38.** `pd[name]` is the first diagram with this name, other names raise `ValueError`. -/
theorem C38_getitem {σ δ : Type} [DecidableEq σ] (sails : List σ) (ds : List δ) (hl : sails.length = ds.length) :
    (∀ (i : Nat) (name : σ) (d : δ), sails[i]? = some name → ds[i]? = some d →
      (∀ j : Nat, j < i → sails[j]? ≠ some name) → getItem sails ds name = .ok d) ∧
    ∀ name, name ∉ sails → getItem sails ds name = .error .valueError := by
  constructor
  · intro i name d hi hd hf
    have hm := List.mem_of_getElem? hi
    have hidx : sails.idxOf name = i := by
      have h1 : sails.idxOf name < sails.length := List.idxOf_lt_length_of_mem hm
      have h2 : sails[sails.idxOf name]? = some name := by
        rw [List.getElem?_eq_getElem h1, List.getElem_idxOf h1]
      rcases Nat.lt_trichotomy (sails.idxOf name) i with h | h | h
      · exact absurd h2 (hf _ h)
      · exact h
      · have := List.not_of_lt_findIdx (p := (· == name)) (xs := sails) (i := i) h
        rw [List.getElem?_eq_some_iff] at hi
        obtain ⟨hi1, hi2⟩ := hi
        simp [hi2] at this
    simp [getItem, hm, hidx, hd]
  · intro name hn
    simp [getItem, hn]

theorem foldl_min_const (m : Nat) : ∀ (l : List Nat), (∀ x ∈ l, x = m) → l.foldl min m = m
  | [], _ => rfl
  | x :: l, h => by
    rw [List.foldl_cons, h x (by simp), Nat.min_self]
    exact foldl_min_const m l fun y hy => h y (by simp [hy])

theorem zipStar_getElem? {α : Type} {m : Nat} {ls : List (List α)} (hne : ls ≠ []) (h : ∀ l ∈ ls, l.length = m) :
    (zipStar ls).length = m ∧
    ∀ i : Nat, i < m → (zipStar ls)[i]? = some (ls.filterMap (·[i]?)) := by
  cases ls with
  | nil => exact absurd rfl hne
  | cons l ls =>
    have e : (ls.map List.length).foldl min l.length = m := by
      rw [h l (by simp)]
      exact foldl_min_const m _ fun x hx => by
        obtain ⟨l', hl', rfl⟩ := List.mem_map.1 hx
        exact h l' (by simp [hl'])
    refine ⟨by simp [zipStar, e], fun i hi => ?_⟩
    simp [zipStar, e, hi]

/-- **C38.** In a slice of the diagram every column is labelled with the name of the sail it stems from: the pairs of
columns and labels are those of the columns of the slice of the first sail with its name, followed by those of the
second sail with its name, and so on. -/
theorem C38_labels {σ : Type} (sails : List σ) (ds : List (Sail K)) (ws : List K) (hne : ds ≠ [])
    (hl : sails.length = ds.length) (hs : ∀ d ∈ ds, (d.slices ws).length = ws.length) :
    (multiSlices ds ws).length = ws.length ∧ (sliceInfo sails ds ws).length = ws.length ∧
    ∀ (s : Nat), s < ws.length → ∃ cols labels, (multiSlices ds ws)[s]? = some cols ∧
      (sliceInfo sails ds ws)[s]? = some labels ∧ cols.length = labels.length ∧
      cols.zip labels = (ds.zip sails).flatMap fun p => ((p.1.slices ws).getD s []).map fun c => (c, p.2) := by
  have hne' : (ds.map fun d => d.slices ws) ≠ [] := by simpa using hne
  have hs' : ∀ l ∈ ds.map fun d => d.slices ws, l.length = ws.length := by
    intro l h
    obtain ⟨d, hd, rfl⟩ := List.mem_map.1 h
    exact hs d hd
  obtain ⟨z1, z2⟩ := zipStar_getElem? hne' hs'
  refine ⟨by simp [multiSlices, z1], by simp [sliceInfo, z1], ?_⟩
  intro s hslt
  refine ⟨_, _, by rw [multiSlices, List.getElem?_map, z2 s hslt, Option.map_some],
    by rw [sliceInfo, List.getElem?_map, z2 s hslt, Option.map_some], ?_⟩
  clear z1 z2 hne hne' hs'
  induction ds generalizing sails with
  | nil => cases sails with
    | nil => simp
    | cons a l => simp at hl
  | cons d ds ih =>
    cases sails with
    | nil => simp at hl
    | cons a sails =>
      have hd : s < (d.slices ws).length := by rw [hs d (by simp)]; exact hslt
      obtain ⟨ih1, ih2⟩ := ih sails (by simpa using hl) (fun d hd => hs d (by simp [hd]))
      have hg : (d.slices ws)[s]? = some (d.slices ws)[s] := List.getElem?_eq_getElem hd
      simp only [List.map_cons, List.filterMap_cons, hg, List.flatten_cons, List.zip_cons_cons, List.flatMap_cons,
        List.length_append, List.length_replicate, ih1, true_and]
      rw [List.zip_append (by simp), ih2]
      congr 1
      simp only [List.getD_eq_getElem?_getD, hg, Option.getD_some]
      apply List.ext_getElem (by simp)
      intro i h1 h2
      simp

example : multiCall [⟨fun w a => .ok (w + a), fun _ => []⟩, ⟨fun w a => .ok (w - a), fun _ => []⟩] (3 : Rat) (-1) = .ok 4 := by
  decide +kernel

example : sliceInfo ["jib", "spinnaker"] [⟨fun _ _ => .ok 1, fun ws => ws.map fun w => [((w, 0), (1 : Rat)), ((w, 90), 1)]⟩,
    ⟨fun _ _ => .ok 1, fun ws => ws.map fun w => [((w, 0), (2 : Rat))]⟩] [10] = [["jib", "jib", "spinnaker"]] := by
  decide +kernel

end Verif.Diagram
