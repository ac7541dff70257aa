import Verif.Lemmas.Fold
import Verif.Model.PlotColors
import Verif.Props.Plot

/-!
# Properties C91 and C92: colours of slices and legends
-/

set_option linter.unusedSectionVars false

namespace Verif.Plot

variable {K : Type} [Field K] [LinearOrder K] [IsStrictOrderedRing K]

/-- The colours given by names. -/
def names (l : List (List Char)) : List (Item K) := l.map Item.name

/-! ### C91: colours of slices -/

/-- **C91.** If `colors` is the name of a colour then all slices are drawn in it. -/
theorem C91_name {isColor : List Char → Bool} {s : List Char} (h : isColor s = true) (labels : List K) :
    sliceColors isColor labels (.text s) = .ok (List.replicate labels.length .whole) := by
  simp [sliceColors, onlyOneColor, h]

/-- **C91 (part).** If `colors` is a tuple of red, green, blue and possibly alpha values, the first of which is an `int`,
then all slices are drawn in this colour. (Missing: values of type `float`, see `C91_rgb_false`.) -/
theorem C91_rgb_partial (isColor : List Char → Bool) {x : K} {l : List (Item K)}
    (h : tupleLike (.int x :: l) = true) (labels : List K) :
    sliceColors isColor labels (.tuple (.int x :: l)) = .ok (List.replicate labels.length .whole) := by
  have h' := h
  simp only [tupleLike, rgbLike, Bool.and_eq_true] at h'
  have hlen : ((Item.int x :: l).filterMap Item.number?).length = (Item.int x :: l).length := by
    have : ∀ l : List (Item K), (l.all fun x => x.number?.isSome) = true →
        (l.filterMap Item.number?).length = l.length := by
      intro l
      induction l with
      | nil => simp
      | cons y l ih =>
        intro hl
        simp only [List.all_cons, Bool.and_eq_true] at hl
        obtain ⟨z, hz⟩ := Option.isSome_iff_exists.1 hl.1
        simp [hz, ih hl.2]
    exact this _ h'.1
  have h3 : (Item.int x :: l).length = 3 ∨ (Item.int x :: l).length = 4 := by
    have := h'.2.1
    rw [hlen] at this
    simpa using this
  simp only [sliceColors, onlyOneColor]
  rw [if_pos h3, h]
  simp

example : tupleLike [Item.int (1 : Rat), .int 0, .float (1 / 2)] = true := by decide +kernel

/-- A number in a tuple: an `int` if the first entry is true, else a `float`. -/
def numberItem (x : Bool × K) : Item K := if x.1 then .int x.2 else .float x.2

/-- **C91 (part).** The same, stated for the values: red, green, blue and possibly alpha values between 0 and 1, of which
the first is an `int` and the others are `int` or `float`. -/
theorem C91_rgb_values_partial (isColor : List Char → Bool) {x : K} {l : List (Bool × K)} (hx : 0 ≤ x ∧ x ≤ 1)
    (hl : l.length = 2 ∨ l.length = 3) (h : ∀ y ∈ l, 0 ≤ y.2 ∧ y.2 ≤ 1) (labels : List K) :
    sliceColors isColor labels (.tuple (.int x :: l.map numberItem)) = .ok (List.replicate labels.length .whole) := by
  apply C91_rgb_partial
  have hn : ∀ y : Bool × K, (numberItem y).number? = some y.2 := by
    rintro ⟨b, y⟩
    cases b <;> rfl
  have e : (Item.int x :: l.map numberItem).filterMap Item.number? = x :: l.map Prod.snd := by
    rw [List.filterMap_cons]
    simp only [Item.number?, List.filterMap_map]
    congr 1
    rw [← List.filterMap_eq_map]
    congr 1
    funext y
    exact hn y
  rw [tupleLike, e, Bool.and_eq_true]
  constructor
  · rw [List.all_cons, Bool.and_eq_true]
    refine ⟨rfl, ?_⟩
    rw [List.all_map, List.all_eq_true]
    intro y _
    simp [hn]
  · simp only [rgbLike, List.length_cons, List.length_map, Bool.and_eq_true, Bool.or_eq_true, decide_eq_true_eq,
      List.all_cons, List.all_map, List.all_eq_true, Function.comp]
    exact ⟨by omega, hx, h⟩

example : sliceColors (fun _ => false) [(10 : Rat), 20] (.tuple [.int 1, .float (1 / 2), .int 0]) =
    .ok [.whole, .whole] :=
  C91_rgb_values_partial (fun _ => false) (x := (1 : Rat)) (l := [(false, 1 / 2), (true, 0)]) (by decide +kernel)
    (by decide) (by decide +kernel) [10, 20]

theorem turnCycle_get (l : List (Item K)) (n i : Nat) (hi : i < n) :
    (turnCycle l (List.replicate n Paint.blue))[i]? = some (((l[i]?).map Paint.item).getD .blue) := by
  induction n generalizing l i with
  | zero => omega
  | succ n ih =>
    cases l with
    | nil =>
      rw [List.replicate_succ, turnCycle, ← List.replicate_succ, List.getElem?_replicate, if_pos hi]
      · simp
      · simp
    | cons x l =>
      rw [List.replicate_succ, turnCycle]
      cases i with
      | zero => simp
      | succ i => simpa using ih l i (by omega)

theorem turnCycle_length (l : List (Item K)) (n : Nat) : (turnCycle l (List.replicate n Paint.blue)).length = n := by
  induction n generalizing l with
  | zero => cases l <;> rfl
  | succ n ih =>
    cases l with
    | nil => simp [List.replicate_succ, turnCycle]
    | cons x l => simp [List.replicate_succ, turnCycle, ih l]

theorem turnCycle_all (isColor : List Char → Bool) (l : List (Item K)) (hl : ∀ x ∈ l, x.colorLike isColor = true)
    (n : Nat) : (turnCycle l (List.replicate n Paint.blue)).all (Paint.valid isColor) = true := by
  rw [List.all_eq_true]
  intro p hp
  obtain ⟨i, hi, rfl⟩ := List.getElem_of_mem hp
  have := turnCycle_get l n i (by rwa [turnCycle_length] at hi)
  rw [List.getElem?_eq_getElem hi, Option.some.injEq] at this
  rw [this]
  cases h : l[i]? with
  | none => rfl
  | some x => exact hl x (List.mem_of_getElem? h)

/-- **C91.** In a list of three or more colours, the first one being a tuple which is not a colour (the number of its values
is not 3 or 4, or a value is not between 0 and 1) raises `ValueError`. -/
theorem C91_no_color (isColor : List Char → Bool) {x : List K} {l : List (Item K)} {labels : List K} (hne : labels ≠ [])
    (hl : 2 ≤ l.length) (h : (x.length ≠ 3 ∧ x.length ≠ 4) ∨ ∃ y ∈ x, y < 0 ∨ 1 < y) :
    sliceColors isColor labels (.list (.rgb x :: l)) = .error .valueError := by
  obtain ⟨w, labels, rfl⟩ := List.exists_cons_of_ne_nil hne
  have h2 : noGradient isColor (.list (.rgb x :: l)) = true := by
    simp only [noGradient, Colors.items, Bool.or_eq_true]
    left
    simp
    omega
  have h3 : rgbLike x = false := by
    rw [Bool.eq_false_iff]
    intro hr
    simp only [rgbLike, Bool.and_eq_true, Bool.or_eq_true, decide_eq_true_eq, List.all_eq_true] at hr
    rcases h with h | ⟨y, hy, h⟩
    · omega
    · have := hr.2 y hy
      rcases h with h | h
      · exact absurd this.1 (not_le.2 h)
      · exact absurd this.2 (not_le.2 h)
  simp only [sliceColors, onlyOneColor, h2, Bool.false_eq_true, if_false, or_true, if_true, colorCycle, Colors.items]
  by_cases hx : x.length = 2
  · simp [hx]
  · simp only [hx, if_false, List.length_cons, List.replicate_succ, turnCycle, List.all_cons, Paint.valid,
      Item.colorLike, h3, Bool.false_and, Bool.false_eq_true]

example : sliceColors (fun _ => true) [(10 : Rat)] (.list [.rgb [255, 0, 0], .name ['r'], .name ['b']]) =
    .error .valueError :=
  C91_no_color _ (by simp) (by simp) (.inr ⟨255, by simp, .inr (by decide +kernel)⟩)

/-- **C91.** A list whose first member is a pair of numbers is no list of colours, and a `ValueError` is raised, even if there
are as many colours as slices; a first member with three numbers between 0 and 1 is the colour of the first slice. -/
theorem C91_two_numbers (labels : List K) (a b : K) (l : List (Item K)) :
    colorCycle labels (.list (.rgb [a, b] :: l)) = .error .valueError ∧
    ∀ (x : List K) (w : K) (rest : List K), x.length ≠ 2 → labels = w :: rest →
      ∃ r, colorCycle labels (.list (.rgb x :: l)) = .ok (.item (.rgb x) :: r) ∧ r.length = rest.length := by
  refine ⟨by simp [colorCycle, Colors.items], ?_⟩
  rintro x w rest hx rfl
  refine ⟨turnCycle l (List.replicate rest.length .blue), ?_, by simp [turnCycle_length]⟩
  simp [colorCycle, Colors.items, hx, List.replicate_succ, turnCycle]

example : colorCycle [(6 : Rat), 8] (.list [.rgb [1, 0, 0], .name "red".toList]) =
    .ok [.item (.rgb [1, 0, 0]), .item (.name "red".toList)] := by decide +kernel

/-- **C91 (refuted).** A colour given by a tuple of values whose first is a `float` raises `ValueError`, although it is
a colour. -/
theorem C91_rgb_false (isColor : List Char → Bool) {x : K} {l : List (Item K)} {labels : List K} (hne : labels ≠ [])
    (hl : l.length = 2 ∨ l.length = 3) :
    sliceColors isColor labels (.tuple (.float x :: l)) = .error .valueError := by
  obtain ⟨w, labels, rfl⟩ := List.exists_cons_of_ne_nil hne
  have h1 : onlyOneColor isColor (.tuple (.float x :: l)) = false := by
    simp only [onlyOneColor]
    split <;> rfl
  have h2 : noGradient isColor (.tuple (.float x :: l)) = true := by
    simp only [noGradient, Colors.items, Bool.or_eq_true]
    left
    simp
    omega
  simp only [sliceColors, h1, h2, Bool.false_eq_true, if_false, or_true, if_true, colorCycle, Colors.items,
    List.length_cons, List.replicate_succ, turnCycle, List.all_cons, Paint.valid, Item.colorLike, Bool.false_and]

example : tupleLike [Item.float (0 : Rat), .float (1 / 2), .float 1] = true ∧
    sliceColors (fun _ => true) [(10 : Rat)] (.tuple [Item.float (0 : Rat), .float (1 / 2), .float 1]) =
      .error .valueError := by decide +kernel

theorem noGradient_of_length (isColor : List Char → Bool) {colors : Colors K} (h : colors.items.length ≠ 2) :
    noGradient isColor colors = true := by
  simp [noGradient, h]

theorem colorCycle_names (labels : List K) {l : List (List Char)} (hne : l ≠ []) :
    colorCycle labels (.list (names l)) = .ok (turnCycle (names l) (List.replicate labels.length .blue)) := by
  obtain ⟨s, l, rfl⟩ := List.exists_cons_of_ne_nil hne
  rfl

theorem names_colorLike {isColor : List Char → Bool} {l : List (List Char)} (hl : ∀ s ∈ l, isColor s = true) :
    ∀ x ∈ (names l : List (Item K)), x.colorLike isColor = true := by
  intro x hx
  obtain ⟨s, hs, rfl⟩ := List.mem_map.1 hx
  exact hl s hs

theorem sliceColors_names {isColor : List Char → Bool} {l : List (List Char)} (hne : l ≠ [])
    (hl : ∀ s ∈ l, isColor s = true) (labels : List K) (h2 : l.length ≠ 2 ∨ labels.length ≤ 2) :
    sliceColors isColor labels (.list (names l)) =
      .ok (turnCycle (names l) (List.replicate labels.length .blue)) := by
  have hc : labels.length ≤ (Colors.list (names l : List (Item K))).items.length ∨
      noGradient isColor (.list (names l : List (Item K))) = true := by
    by_cases h : l.length = 2
    · left
      rcases h2 with h2 | h2
      · exact absurd h h2
      · simpa [Colors.items, names, h] using h2
    · exact Or.inr (noGradient_of_length isColor (by simpa [Colors.items, names] using h))
  simp only [sliceColors, onlyOneColor, Bool.false_eq_true, if_false, if_pos hc, colorCycle_names labels hne,
    turnCycle_all isColor _ (names_colorLike hl), if_true]

/-- **C91.** If `colors` is a list of colours other than two then the slices are drawn in turn in these colours, and in
`"blue"` if there are too few colours; likewise for two colours and at most two slices. -/
theorem C91_turn {isColor : List Char → Bool} {l : List (List Char)} (hne : l ≠ []) (hl : ∀ s ∈ l, isColor s = true)
    (labels : List K) (h2 : l.length ≠ 2 ∨ labels.length ≤ 2) :
    ∃ r, sliceColors isColor labels (.list (names l)) = .ok r ∧ r.length = labels.length ∧
      ∀ i : Nat, i < labels.length → (∀ s, l[i]? = some s → r[i]? = some (.item (.name s))) ∧
        (l.length ≤ i → r[i]? = some .blue) := by
  refine ⟨_, sliceColors_names hne hl labels h2, turnCycle_length _ _, ?_⟩
  intro i hi
  have := turnCycle_get (names l : List (Item K)) labels.length i hi
  constructor
  · intro s hs
    rw [this, names, List.getElem?_map, hs]
    rfl
  · intro h
    rw [this, names, List.getElem?_map, List.getElem?_eq_none h]
    rfl

example : sliceColors (fun _ => true) [(6 : Rat), 8, 10] (.list (names ["red".toList])) =
    .ok [.item (.name "red".toList), .blue, .blue] := by decide +kernel

/-- **C91.** If two colours are given and there are more than two slices, whose wind speeds are not all equal, then a
slice with wind speed `w` is drawn in a mixture of both colours, where the share of the second one is `(w - lo) / (hi -
lo)` for the smallest and greatest wind speeds `lo` and `hi`. -/
theorem C91_gradient {isColor : List Char → Bool} {c d : List Char} (hc : isColor c = true) (hd : isColor d = true)
    {labels : List K} (h2 : 2 < labels.length) {lo hi : K} (hlo : lo ∈ labels) (hhi : hi ∈ labels)
    (hb : ∀ w ∈ labels, lo ≤ w ∧ w ≤ hi) (hne : lo < hi) :
    sliceColors isColor labels (.list (names [c, d])) =
      .ok (labels.map fun w => .mix (some ((w - lo) / (hi - lo)))) := by
  have hg : ¬ (labels.length ≤ (Colors.list (names [c, d] : List (Item K))).items.length ∨
      noGradient isColor (.list (names [c, d] : List (Item K))) = true) := by
    simp only [Colors.items, names, noGradient, List.map_cons, List.map_nil, List.length_cons, List.length_nil,
      List.all_cons, List.all_nil, Item.colorLike, hc, hd]
    simp
    omega
  have hmin : labels.min? = some lo := by
    rw [List.min?_eq_some_iff]
    exact ⟨hlo, fun w hw => (hb w hw).1⟩
  have hmax : labels.max? = some hi := by
    rw [List.max?_eq_some_iff]
    exact ⟨hhi, fun w hw => (hb w hw).2⟩
  have hcoef : coefficients labels = labels.map fun w => some ((w - lo) / (hi - lo)) := by
    simp only [coefficients, hmin, hmax, if_neg (ne_of_gt (sub_pos.2 hne))]
  have hall : (labels.map fun w => Paint.mix (some ((w - lo) / (hi - lo)))).all (Paint.valid isColor) = true := by
    simp [Paint.valid]
  simp only [sliceColors, onlyOneColor, Bool.false_eq_true, if_false, if_neg hg, hcoef, List.map_map,
    Function.comp_def, if_pos hall]

example : sliceColors (fun _ => true) [(6 : Rat), 10, 8] (.list (names ["green".toList, "red".toList])) =
    .ok [.mix (some 0), .mix (some 1), .mix (some (1 / 2))] := by decide +kernel

/-- **C91 (refuted).** The order of the colours is not determined by the wind speeds: of two slices given in decreasing
order that with the greater wind speed is drawn in the first colour, although a third slice reverses this. -/
theorem C91_order_false {isColor : List Char → Bool} {c d : List Char} (hc : isColor c = true) (hd : isColor d = true) :
    sliceColors isColor [(20 : Rat), 10] (.list (names [c, d])) = .ok [.item (.name c), .item (.name d)] ∧
    sliceColors isColor [(20 : Rat), 10, 15] (.list (names [c, d])) =
      .ok [.mix (some 1), .mix (some 0), .mix (some (1 / 2))] := by
  constructor
  · exact sliceColors_names (l := [c, d]) (by simp) (by simp [hc, hd]) [(20 : Rat), 10] (Or.inr (by simp))
  · rw [C91_gradient hc hd (lo := 10) (hi := 20) (by simp) (by simp) (by simp) (by
      intro w hw
      simp only [List.mem_cons, List.not_mem_nil, or_false] at hw
      rcases hw with rfl | rfl | rfl <;> decide +kernel) (by decide +kernel)]
    have h : ([(20 : Rat), 10, 15].map fun w => Paint.mix (some ((w - 10) / (20 - 10)))) =
      [.mix (some 1), .mix (some 0), .mix (some (1 / 2))] := by decide +kernel
    rw [h]

/-- The colours given by pairs of a wind speed and a colour. -/
def pairs (l : List (K × List Char)) : List (Item K) := l.map fun p => .pair p.1 p.2

theorem pairCycle_spec {labels : List K} (hn : labels.Nodup) (l : List (K × List Char)) (cycle : List (Paint K))
    (hlen : cycle.length = labels.length) (hl : ∀ p ∈ l, p.1 ∈ labels) :
    ∃ r, pairCycle labels (pairs l) cycle = .ok r ∧ r.length = labels.length ∧
      ∀ (i : Nat) (w : K), labels[i]? = some w →
        ((∀ p ∈ l, p.1 ≠ w) → r[i]? = cycle[i]?) ∧
        ∀ l₁ c l₂, l = l₁ ++ (w, c) :: l₂ → (∀ p ∈ l₂, p.1 ≠ w) → r[i]? = some (.named c) := by
  induction l generalizing cycle with
  | nil => exact ⟨cycle, rfl, hlen, fun i w _ => ⟨fun _ => rfl, fun l₁ c l₂ h => by simp at h⟩⟩
  | cons p l ih =>
    obtain ⟨v, c⟩ := p
    have hv : v ∈ labels := hl (v, c) (by simp)
    obtain ⟨r, h1, h2, h3⟩ := ih (cycle.set (labels.idxOf v) (.named c)) (by simpa using hlen)
      fun p hp => hl p (by simp [hp])
    refine ⟨r, ?_, h2, ?_⟩
    · simp only [pairs, List.map_cons, pairCycle, if_pos hv]
      exact h1
    · intro i w hw
      have hidx : labels.idxOf v = i ↔ v = w := by
        have hi : i < labels.length := (List.getElem?_eq_some_iff.1 hw).1
        have hwi : labels[i] = w := (List.getElem?_eq_some_iff.1 hw).2
        constructor
        · intro h
          have hlt : labels.idxOf v < labels.length := List.idxOf_lt_length_of_mem hv
          have := List.getElem_idxOf hlt
          rw [← this, ← hwi]
          simp only [h]
        · rintro rfl
          have := hn.idxOf_getElem i hi
          rwa [hwi] at this
      obtain ⟨h4, h5⟩ := h3 i w hw
      constructor
      · intro hne
        rw [h4 fun p hp => hne p (by simp [hp]), List.getElem?_set_ne]
        intro h
        exact hne (v, c) (by simp) (hidx.1 h)
      · intro l₁ c' l₂ hl' hne
        cases l₁ with
        | nil =>
          simp only [List.nil_append, List.cons.injEq, Prod.mk.injEq] at hl'
          obtain ⟨⟨rfl, rfl⟩, rfl⟩ := hl'
          rw [h4 hne, hidx.2 rfl]
          have hi : i < labels.length := (List.getElem?_eq_some_iff.1 hw).1
          rw [List.getElem?_set_self (by omega)]
        | cons q l₁ =>
          simp only [List.cons_append, List.cons.injEq] at hl'
          exact h5 l₁ c' l₂ hl'.2 hne

theorem pairCycle_missing {labels : List K} (l : List (K × List Char)) (cycle : List (Paint K))
    {p : K × List Char} (hp : p ∈ l) (hm : p.1 ∉ labels) :
    pairCycle labels (pairs l) cycle = .error .valueError := by
  induction l generalizing cycle with
  | nil => simp at hp
  | cons q l ih =>
    simp only [pairs, List.map_cons, pairCycle]
    split_ifs with h
    · rcases List.mem_cons.1 hp with rfl | hp
      · exact absurd h hm
      · exact ih _ hp
    · rfl

theorem noGradient_pairs (isColor : List Char → Bool) {l : List (K × List Char)} (hne : l ≠ []) :
    noGradient isColor (.list (pairs l)) = true := by
  obtain ⟨p, l, rfl⟩ := List.exists_cons_of_ne_nil hne
  simp [noGradient, Colors.items, pairs, Item.colorLike]

theorem sliceColors_pairs {isColor : List Char → Bool} {l : List (K × List Char)} (hne : l ≠ []) (labels : List K) :
    sliceColors isColor labels (.list (pairs l)) =
      match pairCycle labels (pairs l) (List.replicate labels.length .blue) with
      | .error e => .error e
      | .ok cycle => if cycle.all (Paint.valid isColor) then .ok cycle else .error .valueError := by
  have hg := noGradient_pairs isColor hne
  obtain ⟨p, l, rfl⟩ := List.exists_cons_of_ne_nil hne
  simp only [sliceColors, onlyOneColor, Bool.false_eq_true, if_false, hg, or_true, if_true]
  rfl

theorem last_pair (l : List (K × List Char)) (w : K) (h : ¬ ∀ p ∈ l, p.1 ≠ w) :
    ∃ l₁ q l₂, l = l₁ ++ q :: l₂ ∧ q.1 = w ∧ ∀ p ∈ l₂, p.1 ≠ w := by
  induction l with
  | nil => exact absurd (by simp) h
  | cons q l ih =>
    by_cases hr : ∀ p ∈ l, p.1 ≠ w
    · refine ⟨[], q, l, rfl, ?_, hr⟩
      by_contra hq
      exact h (by
        intro p hp
        rcases List.mem_cons.1 hp with rfl | hp
        · exact hq
        · exact hr p hp)
    · obtain ⟨l₁, q', l₂, rfl, h1, h2⟩ := ih hr
      exact ⟨q :: l₁, q', l₂, rfl, h1, h2⟩

/-- **C91.** If `colors` is a list of pairs of the wind speed of a slice and a colour then a slice is drawn in the colour
given last for its wind speed, and in `"blue"` if there is none. -/
theorem C91_pairs {isColor : List Char → Bool} {l : List (K × List Char)} (hne : l ≠ [])
    (hl : ∀ p ∈ l, isColor p.2 = true) {labels : List K} (hn : labels.Nodup) (hm : ∀ p ∈ l, p.1 ∈ labels) :
    ∃ r, sliceColors isColor labels (.list (pairs l)) = .ok r ∧ r.length = labels.length ∧
      ∀ (i : Nat) (w : K), labels[i]? = some w →
        ((∀ p ∈ l, p.1 ≠ w) → r[i]? = some .blue) ∧
        ∀ l₁ c l₂, l = l₁ ++ (w, c) :: l₂ → (∀ p ∈ l₂, p.1 ≠ w) → r[i]? = some (.named c) := by
  obtain ⟨r, h1, h2, h3⟩ := pairCycle_spec hn l (List.replicate labels.length .blue) (by simp) hm
  have hb : ∀ (i : Nat) (w : K), labels[i]? = some w →
        ((∀ p ∈ l, p.1 ≠ w) → r[i]? = some .blue) ∧
        ∀ l₁ c l₂, l = l₁ ++ (w, c) :: l₂ → (∀ p ∈ l₂, p.1 ≠ w) → r[i]? = some (.named c) := by
    intro i w hw
    obtain ⟨h4, h5⟩ := h3 i w hw
    refine ⟨fun h => ?_, h5⟩
    rw [h4 h, List.getElem?_replicate, if_pos (List.getElem?_eq_some_iff.1 hw).1]
  have hall : r.all (Paint.valid isColor) = true := by
    rw [List.all_eq_true]
    intro p hp
    obtain ⟨i, hi, rfl⟩ := List.getElem_of_mem hp
    have hi' : i < labels.length := by omega
    obtain ⟨h4, h5⟩ := hb i _ (List.getElem?_eq_getElem hi')
    by_cases h : ∀ p ∈ l, p.1 ≠ labels[i]
    · have := h4 h
      rw [List.getElem?_eq_getElem hi, Option.some.injEq] at this
      rw [this]; rfl
    · obtain ⟨l₁, q, l₂, hq, hqw, hrest⟩ : ∃ l₁ q l₂, l = l₁ ++ q :: l₂ ∧ q.1 = labels[i] ∧
          ∀ p ∈ l₂, p.1 ≠ labels[i] := by
        exact last_pair l _ h
      obtain ⟨v, c⟩ := q
      simp only at hqw
      subst hqw
      have := h5 l₁ c l₂ hq hrest
      rw [List.getElem?_eq_getElem hi, Option.some.injEq] at this
      rw [this]
      exact hl (labels[i], c) (by rw [hq]; simp)
  refine ⟨r, ?_, h2, hb⟩
  rw [sliceColors_pairs hne, h1]
  simp only [hall, if_true]

example : sliceColors (fun _ => true) [(6 : Rat), 8, 10] (.list (pairs [(8, "red".toList), (6, "green".toList)])) =
    .ok [.named "green".toList, .named "red".toList, .blue] := by decide +kernel

/-- **C91.** A pair whose wind speed is not that of a slice raises `ValueError`. -/
theorem C91_pairs_missing (isColor : List Char → Bool) {l : List (K × List Char)} {labels : List K}
    {p : K × List Char} (hp : p ∈ l) (hm : p.1 ∉ labels) :
    sliceColors isColor labels (.list (pairs l)) = .error .valueError := by
  rw [sliceColors_pairs (List.ne_nil_of_mem hp), pairCycle_missing l _ hp hm]

example : ((7 : Rat), "red".toList) ∈ [((7 : Rat), "red".toList)] ∧ (7 : Rat) ∉ [(6 : Rat), 8] := by decide +kernel

/-! ### C92: legends -/

/-- **C92.** For two colours and more than two slices the legend is a colour bar from the smallest to the greatest wind
speed. -/
theorem C92_bar {isColor : List Char → Bool} {c d : List Char} (hc : isColor c = true) (hd : isColor d = true)
    {labels : List K} (h2 : 2 < labels.length) {lo hi : K} (hlo : lo ∈ labels) (hhi : hi ∈ labels)
    (hb : ∀ w ∈ labels, lo ≤ w ∧ w ≤ hi) :
    legend isColor labels (.list (names [c, d])) = .ok (.bar lo hi) := by
  have hg : noGradient isColor (.list (names [c, d] : List (Item K))) = false := by
    simp [noGradient, Colors.items, names, Item.colorLike, hc, hd]
  cases labels with
  | nil => simp at h2
  | cons w l =>
    have hcond : noGradient isColor (.list (names [c, d] : List (Item K))) = false ∧
        (Colors.list (names [c, d] : List (Item K))).items.length < (w :: l).length ∧
        (Colors.list (names [c, d] : List (Item K))).items.length = 2 := by
      refine ⟨hg, ?_, rfl⟩
      simpa [Colors.items, names] using h2
    simp only [legend, if_pos hcond, foldl_min_eq hlo fun y hy => (hb y hy).1, foldl_max_eq hhi fun y hy => (hb y hy).2]

theorem legend_names {isColor : List Char → Bool} {l : List (List Char)} (hne : l ≠ [])
    (hl : ∀ s ∈ l, isColor s = true) (labels : List K) (h2 : l.length ≠ 2 ∨ labels.length ≤ 2) :
    legend isColor labels (.list (names l)) = .ok (.entries (labels.zip ((names l).map Paint.item))) := by
  have hcond : ¬ (noGradient isColor (.list (names l : List (Item K))) = false ∧
      (Colors.list (names l : List (Item K))).items.length < labels.length ∧
      (Colors.list (names l : List (Item K))).items.length = 2) := by
    rintro ⟨-, h, h'⟩
    simp only [Colors.items, names, List.length_map] at h h'
    omega
  have hall : ((labels.zip ((names l : List (Item K)).map Paint.item)).all fun p => p.2.valid isColor) = true := by
    rw [List.all_eq_true]
    intro p hp
    obtain ⟨x, hx, hx'⟩ := List.mem_map.1 (List.of_mem_zip hp).2
    rw [← hx']
    exact names_colorLike hl x hx
  obtain ⟨s, l, rfl⟩ := List.exists_cons_of_ne_nil hne
  simp only [legend, if_neg hcond]
  have e : (Colors.list (names (s :: l) : List (Item K))).items = .name s :: names l := rfl
  rw [e]
  simp only
  have e' : (Item.name s :: names l : List (Item K)) = names (s :: l) := rfl
  rw [e', if_pos hall]

/-- **C92 (part).** If there is a colour for every slice then the legend shows the wind speed of every slice with the
colour in which the slice is drawn. (Missing: too few colours, pairs and a single colour, see below.) -/
theorem C92_entries_partial {isColor : List Char → Bool} {l : List (List Char)} (hne : l ≠ [])
    (hl : ∀ s ∈ l, isColor s = true) (labels : List K) (hlen : labels.length ≤ l.length) :
    ∃ r, sliceColors isColor labels (.list (names l)) = .ok r ∧
      legend isColor labels (.list (names l)) = .ok (.entries (labels.zip r)) ∧ (labels.zip r).length = labels.length := by
  have h2 : l.length ≠ 2 ∨ labels.length ≤ 2 := by omega
  refine ⟨_, sliceColors_names hne hl labels h2, ?_, by simp [turnCycle_length]⟩
  rw [legend_names hne hl labels h2]
  congr 2
  apply List.ext_getElem
  · simp [turnCycle_length, names, hlen]
  · intro i h3 h4
    have hi : i < labels.length := by
      rw [List.length_zip] at h4; omega
    have hi' : i < l.length := by omega
    have := turnCycle_get (names l : List (Item K)) labels.length i hi
    rw [List.getElem?_eq_getElem (by rw [turnCycle_length]; exact hi), Option.some.injEq, names, List.getElem?_map,
      List.getElem?_eq_getElem hi'] at this
    simp only [List.getElem_zip, names, this]
    simp

example : legend (fun _ => true) [(6 : Rat), 8] (.list (names ["red".toList, "green".toList])) =
    .ok (.entries [(6, .item (.name "red".toList)), (8, .item (.name "green".toList))]) := by decide +kernel

/-- **C92 (refuted).** If there are fewer colours than slices (and not two of them) then the legend contains only as many
entries as colours, although the other slices are drawn, too. -/
theorem C92_few_false {isColor : List Char → Bool} {l : List (List Char)} (hne : l ≠ [])
    (hl : ∀ s ∈ l, isColor s = true) {labels : List K} (hlen : l.length < labels.length) (h2 : l.length ≠ 2) :
    ∃ r entries, sliceColors isColor labels (.list (names l)) = .ok r ∧ r.length = labels.length ∧
      legend isColor labels (.list (names l)) = .ok (.entries entries) ∧ entries.length = l.length ∧
      entries.length < r.length ∧ (labels.zip r)[l.length]? = some (labels[l.length], .blue) := by
  refine ⟨_, _, sliceColors_names hne hl labels (Or.inl h2), turnCycle_length _ _, legend_names hne hl labels (Or.inl h2),
    ?_, ?_, ?_⟩
  · simp [names]; omega
  · simp [names, turnCycle_length]; omega
  · rw [List.getElem?_zip_eq_some]
    refine ⟨List.getElem?_eq_getElem hlen, ?_⟩
    rw [turnCycle_get _ _ _ hlen, List.getElem?_eq_none (by simp [names])]
    rfl

example : legend (fun _ => true) [(6 : Rat), 8, 10] (.list (names ["red".toList])) =
    .ok (.entries [(6, .item (.name "red".toList))]) := by decide +kernel

theorem pairEntries_pairs (l : List (K × List Char)) :
    pairEntries (pairs l) = .ok (l.map fun p => (p.1, .named p.2)) := by
  induction l with
  | nil => rfl
  | cons p l ih =>
    have ih' : pairEntries (l.map fun p => Item.pair p.1 p.2) = .ok (l.map fun p => (p.1, Paint.named p.2)) := ih
    simp only [pairs, List.map_cons, pairEntries, ih', Except.map]

theorem legend_pairs {isColor : List Char → Bool} {l : List (K × List Char)} (hne : l ≠ [])
    (hl : ∀ p ∈ l, isColor p.2 = true) (labels : List K) :
    legend isColor labels (.list (pairs l)) = .ok (.entries (l.map fun p => (p.1, .named p.2))) := by
  have hg := noGradient_pairs isColor hne
  have hall : ((l.map fun p => (p.1, (Paint.named p.2 : Paint K))).all fun p => p.2.valid isColor) = true := by
    simp only [List.all_map, List.all_eq_true, Function.comp_def, Paint.valid]
    exact hl
  have he := pairEntries_pairs l
  obtain ⟨p, l, rfl⟩ := List.exists_cons_of_ne_nil hne
  simp only [legend, hg, Bool.true_eq_false, false_and, if_false]
  have e : (Colors.list (pairs (p :: l))).items = .pair p.1 p.2 :: pairs l := rfl
  rw [e]
  simp only
  have e' : (Item.pair p.1 p.2 :: pairs l) = pairs (p :: l) := rfl
  rw [e', he]
  simp only [hall, if_true]

/-- **C92 (refuted).** For pairs of wind speeds and colours the legend shows these pairs only: slices drawn in `"blue"`
have no entry. -/
theorem C92_pairs_false {isColor : List Char → Bool} {l : List (K × List Char)} (hne : l ≠ [])
    (hl : ∀ p ∈ l, isColor p.2 = true) {labels : List K} (hn : labels.Nodup) (hm : ∀ p ∈ l, p.1 ∈ labels) :
    legend isColor labels (.list (pairs l)) = .ok (.entries (l.map fun p => (p.1, .named p.2))) ∧
    ∀ w ∈ labels, (∀ p ∈ l, p.1 ≠ w) →
      (∃ r, sliceColors isColor labels (.list (pairs l)) = .ok r ∧ (w, Paint.blue) ∈ labels.zip r) ∧
      ∀ x, (w, x) ∉ l.map fun p => (p.1, (Paint.named p.2 : Paint K)) := by
  refine ⟨legend_pairs hne hl labels, ?_⟩
  intro w hw hne'
  obtain ⟨r, h1, h2, h3⟩ := C91_pairs hne hl hn hm
  refine ⟨⟨r, h1, ?_⟩, ?_⟩
  · obtain ⟨i, hi, rfl⟩ := List.getElem_of_mem hw
    apply List.mem_of_getElem? (i := i)
    rw [List.getElem?_zip_eq_some]
    exact ⟨List.getElem?_eq_getElem hi, (h3 i _ (List.getElem?_eq_getElem hi)).1 hne'⟩
  · intro x hx
    obtain ⟨p, hp, hp'⟩ := List.mem_map.1 hx
    exact hne' p hp (congrArg Prod.fst hp')

example : legend (fun _ => true) [(6 : Rat), 8, 10] (.list (pairs [(8, "red".toList)])) =
    .ok (.entries [(8, .named "red".toList)]) := by decide +kernel

/-- **C92 (refuted).** If `colors` is the name of a colour then all slices are drawn in this colour, but the legend takes
the characters of the name for colours: `"red"` raises `ValueError` if there are at least two slices (since `"e"` is not
a colour), and for `"r"` only the first slice has an entry. -/
theorem C92_name_false {isColor : List Char → Bool} (h1 : isColor ['r', 'e', 'd'] = true) (h2 : isColor ['r'] = true)
    (h3 : isColor ['e'] = false) (v w : K) (labels : List K) :
    sliceColors isColor (v :: w :: labels) (.text ['r', 'e', 'd']) =
      .ok (List.replicate (labels.length + 2) .whole) ∧
    legend isColor (v :: w :: labels) (.text ['r', 'e', 'd']) = .error .valueError ∧
    legend isColor (v :: w :: labels) (.text ['r']) = .ok (.entries [(v, .item (.name ['r']))]) := by
  refine ⟨C91_name h1 _, ?_, ?_⟩
  · cases labels <;>
      simp [legend, noGradient, Colors.items, Paint.valid, Item.colorLike, h2, h3]
  · simp [legend, noGradient, Colors.items, Paint.valid, Item.colorLike, h2]

/-- **C92 (refuted).** A colour given by its red, green and blue values raises `ValueError` if a legend is shown. -/
theorem C92_rgb_false (isColor : List Char → Bool) {x : K} {l : List (Item K)} (hl : l.length = 2 ∨ l.length = 3)
    {labels : List K} (hne : labels ≠ []) :
    legend isColor labels (.tuple (.int x :: l)) = .error .valueError := by
  obtain ⟨w, labels, rfl⟩ := List.exists_cons_of_ne_nil hne
  have hg : noGradient isColor (.tuple (.int x :: l)) = true :=
    noGradient_of_length isColor (by simp [Colors.items]; omega)
  simp [legend, hg, Colors.items, Paint.valid, Item.colorLike]

example : tupleLike [Item.int (1 : Rat), .int 0, .int 0] = true ∧
    sliceColors (fun _ => true) [(10 : Rat)] (.tuple [.int 1, .int 0, .int 0]) = .ok [.whole] := by decide +kernel

end Verif.Plot
