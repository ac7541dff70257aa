import Mathlib.Data.Rat.Defs
import Mathlib.Algebra.Order.Ring.Rat
import Mathlib.Data.Rat.Floor
import Verif.Lemmas.Mod
import Verif.Lemmas.Csv
import Verif.Model.Pointcloud

/-!
# Properties C37, C53, C54, C55: point clouds
-/

set_option linter.unusedSectionVars false

namespace Verif.Cloud

open Verif.Interp Verif.Table

variable {K : Type} [Field K] [LinearOrder K] [IsStrictOrderedRing K] [FloorRing K]

/-- The points a cloud consists of: non-negative wind speeds and wind angles in [0, 360). -/
def Normal (cloud : List (Pt K)) : Prop := ∀ p ∈ cloud, 0 ≤ p.1.1 ∧ 0 ≤ p.1.2 ∧ p.1.2 < 360

/-- The point with the wind from the other side. -/
def mirror (p : Pt K) : Pt K := ((p.1.1, if p.1.2 = 0 then 0 else 360 - p.1.2), p.2)

theorem init_normal (points : List (Pt K)) : Normal (init points) := by
  intro p hp
  simp only [init, List.mem_map, List.mem_filter, decide_eq_true_eq] at hp
  obtain ⟨q, ⟨-, hq⟩, rfl⟩ := hp
  exact ⟨hq, pmod_nonneg _ (by norm_num), pmod_lt _ (by norm_num)⟩

theorem init_of_normal {cloud : List (Pt K)} (h : Normal cloud) : init cloud = cloud := by
  have h1 : (cloud.filter fun p => decide (p.1.1 ≥ 0)) = cloud := by
    rw [List.filter_eq_self]
    intro p hp
    simpa using (h p hp).1
  rw [init, h1]
  conv_rhs => rw [← List.map_id cloud]
  apply List.map_congr_left
  intro p hp
  rw [pmod_of_mem (h p hp).2.1 (h p hp).2.2]
  rfl

/-! ### C37 -/

/-- **C37.** Construction: the points with non-negative wind speed are kept in order, with wind angles reduced modulo
360. -/
theorem C37_init (points : List (Pt K)) : Normal (init points) ∧
    ∀ q, q ∈ init points ↔ ∃ p ∈ points, 0 ≤ p.1.1 ∧ q.1.1 = p.1.1 ∧ q.2 = p.2 ∧ 0 ≤ q.1.2 ∧ q.1.2 < 360 ∧
      ∃ k : Int, p.1.2 = q.1.2 + 360 * k := by
  refine ⟨init_normal points, fun q => ?_⟩
  simp only [init, List.mem_map, List.mem_filter, decide_eq_true_eq]
  constructor
  · rintro ⟨p, ⟨hp, h0⟩, rfl⟩
    exact ⟨p, hp, h0, rfl, rfl, pmod_nonneg _ (by norm_num), pmod_lt _ (by norm_num), ⌊p.1.2 / 360⌋,
      by simp only [pmod]; ring⟩
  · rintro ⟨p, hp, h0, h1, h2, h3, h4, k, h5⟩
    refine ⟨p, ⟨hp, h0⟩, ?_⟩
    rw [h5, pmod_add_mul _ (by norm_num), pmod_of_mem h3 h4, ← h1, ← h2]

/-- **C37.** At stored winds with positive wind speed the speed of the first point with this wind is returned, for every
representation of the wind angle. -/
theorem C37_lookup (interpolate : List (Pt K) → List K → K × K → Except PyErr K)
    (nbh : List (K × K) → Except PyErr (List Bool)) {cloud : List (Pt K)} (h : Normal cloud) {i : Nat} {ws wa bsp : K}
    (hws : 0 < ws) (hi : cloud[i]? = some ((ws, wa), bsp))
    (hfirst : ∀ (j : Nat) (q : Pt K), j < i → cloud[j]? = some q → q.1 ≠ (ws, wa)) (k : Int) :
    call interpolate nbh cloud ws (wa + 360 * k) = .ok bsp := by
  have hm := h _ (List.mem_of_getElem? hi)
  have hwa : pmod (wa + 360 * k) 360 = wa := by
    rw [pmod_add_mul _ (by norm_num), pmod_of_mem hm.2.1 hm.2.2]
  have hf : (cloud.filter fun p => decide (p.1.1 = ws) && decide (p.1.2 = wa)) ≠ [] ∧
      (cloud.filter fun p => decide (p.1.1 = ws) && decide (p.1.2 = wa)).head? = some ((ws, wa), bsp) := by
    clear h hm
    induction cloud generalizing i with
    | nil => simp at hi
    | cons p cloud ih =>
      by_cases hp : p.1 = (ws, wa)
      · cases i with
        | zero =>
          simp only [List.getElem?_cons_zero, Option.some.injEq] at hi
          subst hi
          simp
        | succ i => exact absurd hp (hfirst 0 p (by omega) rfl)
      · have hp' : (decide (p.1.1 = ws) && decide (p.1.2 = wa)) = false := by
          rw [Bool.and_eq_false_iff, decide_eq_false_iff_not, decide_eq_false_iff_not, ← not_and_or]
          intro he
          exact hp (Prod.ext he.1 he.2)
        rw [List.filter_cons_of_neg (by simp [hp'])]
        cases i with
        | zero =>
          simp only [List.getElem?_cons_zero, Option.some.injEq] at hi
          subst hi
          exact absurd rfl hp
        | succ i =>
          exact ih (i := i) (by simpa using hi) fun j q hj hq => hfirst (j + 1) q (by omega) (by simpa using hq)
  simp only [call, not_le.2 hws, if_false, hwa]
  obtain ⟨h1, h2⟩ := hf
  split
  · rename_i p l he
    rw [he] at h2
    simp only [List.head?_cons, Option.some.injEq] at h2
    rw [h2]
  · contradiction

/-- **C37.** In particular, if all points have different winds then every point with positive wind speed is found. -/
theorem C37_lookup_distinct (interpolate : List (Pt K) → List K → K × K → Except PyErr K)
    (nbh : List (K × K) → Except PyErr (List Bool)) {cloud : List (Pt K)} (h : Normal cloud)
    (hd : (cloud.map Prod.fst).Nodup) {ws wa bsp : K} (hws : 0 < ws) (hp : ((ws, wa), bsp) ∈ cloud) (k : Int) :
    call interpolate nbh cloud ws (wa + 360 * k) = .ok bsp := by
  obtain ⟨i, hi⟩ := List.getElem?_of_mem hp
  refine C37_lookup interpolate nbh h hws hi ?_ k
  intro j q hj hq he
  have h1 : (cloud.map Prod.fst)[j]? = (cloud.map Prod.fst)[i]? := by
    rw [List.getElem?_map, List.getElem?_map, hq, hi]
    simp [he]
  have hi' : i < (cloud.map Prod.fst).length := by
    simpa using (List.getElem?_eq_some_iff.1 hi).1
  exact absurd ((List.getElem?_inj (by omega) hd).1 h1) (by omega)

/-- **C37.** Evaluation is periodic in the wind angle. -/
theorem C37_periodic (interpolate : List (Pt K) → List K → K × K → Except PyErr K)
    (nbh : List (K × K) → Except PyErr (List Bool)) (cloud : List (Pt K)) (ws wa : K) (k : Int) :
    call interpolate nbh cloud ws (wa + 360 * k) = call interpolate nbh cloud ws wa := by
  simp only [call, pmod_add_mul wa (show (0 : K) < 360 by norm_num) k]

/-- **C37** is false for stored points with wind speed 0: they are accepted but evaluating there raises. -/
theorem C37_calm_false (interpolate : List (Pt K) → List K → K × K → Except PyErr K)
    (nbh : List (K × K) → Except PyErr (List Bool)) {points : List (Pt K)} {wa bsp : K}
    (hp : ((0, wa), bsp) ∈ points) :
    ((0, pmod wa 360), bsp) ∈ init points ∧ call interpolate nbh (init points) 0 wa = .error .valueError := by
  refine ⟨?_, by simp [call]⟩
  simp only [init, List.mem_map, List.mem_filter, decide_eq_true_eq]
  exact ⟨_, ⟨hp, le_refl _⟩, rfl⟩

example : ((0, pmod 90 360), 1) ∈ init [(((0 : Rat), (90 : Rat)), (1 : Rat))] := by decide +kernel

theorem symmetrize_eq {cloud : List (Pt K)} (h : Normal cloud) : symmetrize cloud = cloud ++ cloud.map mirror := by
  by_cases he : cloud = []
  · simp [he, symmetrize]
  have he' : cloud.isEmpty = false := by simpa using he
  have h2 : init (cloud.map fun p => ((p.1.1, 360 - p.1.2), p.2)) = cloud.map mirror := by
    simp only [init]
    rw [List.filter_eq_self.2, List.map_map]
    · apply List.map_congr_left
      intro p hp
      obtain ⟨-, h1, h2⟩ := h p hp
      simp only [Function.comp_apply, mirror]
      split
      · rename_i h0
        rw [h0, sub_zero, pmod_self (by norm_num)]
      · rename_i h0
        have : 0 < p.1.2 := lt_of_le_of_ne h1 (Ne.symm h0)
        rw [pmod_of_mem (by linarith) (by linarith)]
    · intro p hp
      obtain ⟨q, hq, rfl⟩ := List.mem_map.1 hp
      simpa using (h q hq).1
  have h3 : ∀ a b : List (Pt K), init (a ++ b) = init a ++ init b := by intro a b; simp [init]
  simp only [symmetrize, he', Bool.false_eq_true, if_false, h3, h2, init_of_normal h]

theorem mirror_mirror {p : Pt K} (h2 : p.1.2 < 360) : mirror (mirror p) = p := by
  unfold mirror
  by_cases h : p.1.2 = 0
  · simp only [h, if_true]
    exact Prod.ext (Prod.ext rfl h.symm) rfl
  · have : (360 : K) - p.1.2 ≠ 0 := by intro he; linarith
    simp only [h, if_false, this, sub_sub_cancel]

/-- **C37.** The symmetrised cloud consists of the old points, followed by the mirrored points; it is a proper cloud and
contains with each point the mirrored point. -/
theorem C37_symmetrize {cloud : List (Pt K)} (h : Normal cloud) :
    Normal (symmetrize cloud) ∧
    (∀ q, q ∈ symmetrize cloud ↔ q ∈ cloud ∨ ∃ p ∈ cloud, q.1.1 = p.1.1 ∧ q.2 = p.2 ∧
      (p.1.2 = 0 ∧ q.1.2 = 0 ∨ p.1.2 ≠ 0 ∧ q.1.2 = 360 - p.1.2)) ∧
    (∀ p ∈ symmetrize cloud, ((p.1.1, pmod (360 - p.1.2) 360), p.2) ∈ symmetrize cloud) ∧
    ∀ (i : Nat) (p : Pt K), cloud[i]? = some p → (symmetrize cloud)[i]? = some p := by
  have hn : Normal (symmetrize cloud) := by
    unfold symmetrize
    split
    · exact h
    · exact init_normal _
  refine ⟨hn, fun q => ?_, fun p hp => ?_, fun i p hi => ?_⟩
  · rw [symmetrize_eq h, List.mem_append]
    apply or_congr_right
    rw [List.mem_map]
    apply exists_congr
    intro p
    apply and_congr_right
    intro _
    constructor
    · rintro rfl
      refine ⟨rfl, rfl, ?_⟩
      by_cases h0 : p.1.2 = 0
      · exact Or.inl ⟨h0, by simp [mirror, h0]⟩
      · exact Or.inr ⟨h0, by simp [mirror, h0]⟩
    · rintro ⟨h1, h2, h3⟩
      refine Prod.ext (Prod.ext h1.symm ?_) h2.symm
      rcases h3 with ⟨h3, h4⟩ | ⟨h3, h4⟩
      · simp [mirror, h3, h4]
      · simp [mirror, h3, h4]
  · have e : ((p.1.1, pmod (360 - p.1.2) 360), p.2) = mirror p := by
      obtain ⟨-, h1, h2⟩ := hn p hp
      unfold mirror
      by_cases h0 : p.1.2 = 0
      · simp [h0, pmod_self (show (0 : K) < 360 by norm_num)]
      · have : 0 < p.1.2 := lt_of_le_of_ne h1 (Ne.symm h0)
        rw [pmod_of_mem (by linarith) (by linarith)]
        simp [h0]
    rw [e]
    rw [symmetrize_eq h] at hp ⊢
    rcases List.mem_append.1 hp with hp | hp
    · exact List.mem_append.2 (Or.inr (List.mem_map_of_mem hp))
    · obtain ⟨q, hq, rfl⟩ := List.mem_map.1 hp
      rw [mirror_mirror (h q hq).2.2]
      exact List.mem_append.2 (Or.inl hq)
  · rw [symmetrize_eq h, List.getElem?_append_left (List.getElem?_eq_some_iff.1 hi).1]
    exact hi

example : symmetrize [(((10 : Rat), (90 : Rat)), (5 : Rat)), ((10, 0), 1)] =
    [((10, 90), 5), ((10, 0), 1), ((10, 270), 5), ((10, 0), 1)] := by decide +kernel

example : Normal [(((10 : Rat), (90 : Rat)), (5 : Rat)), ((10, 0), 1)] := by
  intro p hp
  simp at hp
  rcases hp with rfl | rfl <;> norm_num

/-! ### C53 -/

theorem toPoints_map (cloud : List (Pt K)) : toPoints (cloud.map fun p => [p.1.1, p.1.2, p.2]) = .ok cloud := by
  induction cloud with
  | nil => rfl
  | cons p cloud ih => simp [toPoints, ih]

/-- Writing a non-empty cloud with numbers that can be written and read, and reading the file, gives the cloud. -/
theorem round_trip_on {P : K → Prop} {print : K → Text} {parse : Text → Except PyErr K}
    (h : Verif.Table.RoundTripOn P print parse) {cloud : List (Pt K)} (hne : cloud ≠ []) (hn : Normal cloud)
    (hP : ∀ p ∈ cloud, P p.1.1 ∧ P p.1.2 ∧ P p.2) : fromCsv parse (toCsv print cloud) = .ok cloud := by
  have hpr : ∀ x, P x → print x ≠ [] ∧ ',' ∉ print x ∧ '\n' ∉ print x := by
    intro x hx
    have hc := h.clean x hx
    refine ⟨h.ne x hx, ?_, ?_⟩ <;> intro hm <;> have := hc _ hm <;> simp at this
  have hg : ∀ r ∈ ["TWS".toList, "TWA".toList, "BSP".toList] ::
      cloud.map (fun p => [print p.1.1, print p.1.2, print p.2]), r ≠ [] ∧ ∀ f ∈ r, f ≠ [] ∧ ',' ∉ f ∧ '\n' ∉ f := by
    intro r hr
    rcases List.mem_cons.1 hr with rfl | hr
    · decide
    · obtain ⟨p, hp, rfl⟩ := List.mem_map.1 hr
      obtain ⟨hp1, hp2, hp3⟩ := hP p hp
      refine ⟨by simp, fun f hf => ?_⟩
      simp only [List.mem_cons, List.not_mem_nil, or_false] at hf
      rcases hf with rfl | rfl | rfl <;> exact hpr _ (by assumption)
  simp only [fromCsv, toCsv]
  rw [lines_writeRows (by decide) (by
    intro r hr
    rcases List.mem_cons.1 hr with rfl | hr
    · decide
    · exact fun f hf => ((hg r hr).2 f hf).2.2)]
  rw [List.map_cons]
  have hfirst : [','].intercalate ["PolarDiagramPointcloud".toList] = "PolarDiagramPointcloud".toList := by decide
  simp only [hfirst, ne_eq, not_true_eq_false, if_false]
  rw [readRows_map (fun r hr => ⟨(hg r hr).1, fun f hf => ⟨((hg r hr).2 f hf).1, ((hg r hr).2 f hf).2.1⟩⟩)]
  have e : (cloud.map fun p => [print p.1.1, print p.1.2, print p.2]) =
      (cloud.map fun p => [p.1.1, p.1.2, p.2]).map (·.map print) := by simp
  have hrows : ∀ r ∈ cloud.map (fun p => [p.1.1, p.1.2, p.2]), ∀ x ∈ r, P x := by
    intro r hr x hx
    obtain ⟨p, hp, rfl⟩ := List.mem_map.1 hr
    obtain ⟨hp1, hp2, hp3⟩ := hP p hp
    simp only [List.mem_cons, List.not_mem_nil, or_false] at hx
    rcases hx with rfl | rfl | rfl <;> assumption
  have he : (cloud.map fun p => [p.1.1, p.1.2, p.2]).isEmpty = false := by simpa using hne
  simp only [e, Verif.Table.parseRows_on h.parse_print hrows, he, Bool.false_eq_true, if_false, toPoints_map, init_of_normal hn]

/-- **C53.** Writing a non-empty cloud to a csv file and reading the file gives the cloud. -/
theorem C53_round_trip {print : K → Text} {parse : Text → Except PyErr K} (h : RoundTrip print parse)
    {cloud : List (Pt K)} (hne : cloud ≠ []) (hn : Normal cloud) : fromCsv parse (toCsv print cloud) = .ok cloud :=
  round_trip_on h.on hne hn fun _ _ => ⟨trivial, trivial, trivial⟩

/-- Numbers written in unary notation. -/
example (print : ℚ → Text) (hp : print = fun x => '0' :: List.replicate (Encodable.encode x) '1') (parse : Text → Except PyErr ℚ)
    (hq : parse = fun l => match Encodable.decode (α := ℚ) (l.length - 1) with
      | some x => .ok x
      | none => .error .valueError) :
    fromCsv parse (toCsv print [((6, 90), 4), ((8, 45), 5)]) = .ok [((6, 90), 4), ((8, 45), 5)] := by
  subst hp hq
  refine C53_round_trip ⟨fun x => ?_, fun x => by simp, fun x c hc => ?_⟩ (by simp) (by unfold Normal; decide +kernel)
  · simp
  · rcases List.mem_cons.1 hc with rfl | hc
    · decide
    · rw [List.eq_of_mem_replicate hc]; decide

/-- **C53.** The file of an empty cloud cannot be read. -/
theorem C53_empty_false (print : K → Text) (parse : Text → Except PyErr K) :
    fromCsv parse (toCsv print ([] : List (Pt K))) = .error .indexError := by
  have : lines (toCsv print ([] : List (Pt K))) = ["PolarDiagramPointcloud".toList, "TWS,TWA,BSP".toList] := by
    simp only [toCsv, List.map_nil]
    rw [lines_writeRows (by decide) (by decide)]
    decide
  simp [fromCsv, this, readRows, parseRows]

/-! ### C54 -/

/-- **C54.** If all new points have a positive wind speed then the cloud consists of the old points followed by the new
points with reduced wind angles; otherwise `ValueError` is raised and the cloud is unchanged. -/
theorem C54_add_points {cloud : List (Pt K)} (h : Normal cloud) (new : List (Pt K)) :
    ((∀ p ∈ new, 0 < p.1.1) →
      addPoints cloud new = (cloud ++ init new, none) ∧ Normal (addPoints cloud new).1) ∧
    ((∃ p ∈ new, p.1.1 ≤ 0) → addPoints cloud new = (cloud, some .valueError)) := by
  constructor
  · intro hp
    have ha : (new.any fun p => decide (p.1.1 ≤ 0)) = false := by
      rw [List.any_eq_false]
      intro p hm
      simpa using hp p hm
    have hi : init new = new.map fun p => ((p.1.1, pmod p.1.2 360), p.2) := by
      rw [init, List.filter_eq_self.2]
      intro p hm
      simpa using (hp p hm).le
    have : addPoints cloud new = (cloud ++ init new, none) := by simp [addPoints, ha, hi]
    refine ⟨this, ?_⟩
    rw [this]
    intro p hm
    rcases List.mem_append.1 hm with hm | hm
    · exact h p hm
    · exact init_normal new p hm
  · rintro ⟨p, hm, hp⟩
    have ha : (new.any fun p => decide (p.1.1 ≤ 0)) = true := by
      rw [List.any_eq_true]
      exact ⟨p, hm, by simpa using hp⟩
    simp [addPoints, ha]

/-- **C54.** Adding points does not change the value at winds which were already stored, and the new points can be
looked up, if their winds are new and different. -/
theorem C54_lookup (interpolate : List (Pt K) → List K → K × K → Except PyErr K)
    (nbh : List (K × K) → Except PyErr (List Bool)) {cloud : List (Pt K)} (h : Normal cloud) {new : List (Pt K)}
    (hpos : ∀ p ∈ new, 0 < p.1.1) :
    (∀ ws wa, (∃ p ∈ cloud, p.1 = (ws, pmod wa 360)) →
      call interpolate nbh (addPoints cloud new).1 ws wa = call interpolate nbh cloud ws wa) ∧
    (((cloud ++ init new).map Prod.fst).Nodup → ∀ p ∈ new,
      call interpolate nbh (addPoints cloud new).1 p.1.1 p.1.2 = .ok p.2) := by
  obtain ⟨h1, h2⟩ := (C54_add_points h new).1 hpos
  rw [h1] at h2 ⊢
  constructor
  · rintro ws wa ⟨p, hp, hpw⟩
    by_cases hws : ws ≤ 0
    · simp [call, hws]
    · simp only [call, hws, if_false, List.filter_append]
      have : p ∈ cloud.filter fun p => decide (p.1.1 = ws) && decide (p.1.2 = pmod wa 360) := by
        rw [List.mem_filter]
        exact ⟨hp, by simp [hpw]⟩
      obtain ⟨q, l, hl⟩ : ∃ q l, (cloud.filter fun p => decide (p.1.1 = ws) && decide (p.1.2 = pmod wa 360)) = q :: l :=
        List.exists_cons_of_ne_nil (List.ne_nil_of_mem this)
      simp only [hl, List.cons_append]
  · intro hd p hp
    have hm : ((p.1.1, pmod p.1.2 360), p.2) ∈ cloud ++ init new := by
      refine List.mem_append.2 (Or.inr ?_)
      simp only [init, List.mem_map, List.mem_filter, decide_eq_true_eq]
      exact ⟨p, ⟨hp, (hpos p hp).le⟩, rfl⟩
    have := C37_lookup_distinct interpolate nbh h2 hd (hpos p hp) hm ⌊p.1.2 / 360⌋
    rwa [show pmod p.1.2 360 + 360 * (⌊p.1.2 / 360⌋ : K) = p.1.2 by simp only [pmod]; ring] at this

example : addPoints [(((10 : Rat), (90 : Rat)), (5 : Rat))] [((8, 450), 4)] = ([((10, 90), 5), ((8, 90), 4)], none) := by
  decide +kernel

/-! ### C55 -/

/-- **C55.** There is one slice for each given wind speed; it consists of exactly the points whose wind speed differs by
at most `range_`, in the order and multiplicity of the cloud. -/
theorem C55_slices (range : K) (cloud : List (Pt K)) (ws : List K) :
    (wsToSlices range cloud ws).length = ws.length ∧
    ∀ (i : Nat) (w : K) (s : List (Pt K)), ws[i]? = some w → (wsToSlices range cloud ws)[i]? = some s →
      s.Sublist cloud ∧ (∀ p, p ∈ s ↔ p ∈ cloud ∧ w - range ≤ p.1.1 ∧ p.1.1 ≤ w + range) ∧
      ∀ p, w - range ≤ p.1.1 → p.1.1 ≤ w + range → s.count p = cloud.count p := by
  refine ⟨by simp [wsToSlices], ?_⟩
  intro i w s hw hs
  simp only [wsToSlices, List.getElem?_map, hw, Option.map_some, Option.some.injEq] at hs
  subst hs
  have key : ∀ p : Pt K, |p.1.1 - w| ≤ range ↔ w - range ≤ p.1.1 ∧ p.1.1 ≤ w + range := by
    intro p
    rw [abs_le]
    constructor
    · rintro ⟨h1, h2⟩; exact ⟨by linarith, by linarith⟩
    · rintro ⟨h1, h2⟩; exact ⟨by linarith, by linarith⟩
  refine ⟨List.filter_sublist, fun p => ?_, fun p h1 h2 => ?_⟩
  · rw [List.mem_filter, decide_eq_true_iff, key]
  · rw [List.count_filter]
    rw [decide_eq_true_iff, key]
    exact ⟨h1, h2⟩

/-- **C55.** `wind_speeds` and `wind_angles` are the strictly increasing lists of the stored wind speeds and angles. -/
theorem C55_winds (cloud : List (Pt K)) :
    (windSpeeds cloud).Pairwise (· < ·) ∧ (∀ w, w ∈ windSpeeds cloud ↔ ∃ p ∈ cloud, p.1.1 = w) ∧
    (windAngles cloud).Pairwise (· < ·) ∧ (∀ a, a ∈ windAngles cloud ↔ ∃ p ∈ cloud, p.1.2 = a) := by
  have key : ∀ l : List K, (l.dedup.insertionSort (· ≤ ·)).Pairwise (· < ·) ∧
      ∀ w, w ∈ l.dedup.insertionSort (· ≤ ·) ↔ w ∈ l := by
    intro l
    have hs := List.pairwise_insertionSort (· ≤ ·) l.dedup
    have hp := List.perm_insertionSort (· ≤ ·) l.dedup
    have hd : (l.dedup.insertionSort (· ≤ ·)).Nodup := hp.nodup_iff.2 (List.nodup_dedup l)
    refine ⟨?_, fun w => by rw [hp.mem_iff, List.mem_dedup]⟩
    exact List.Pairwise.imp₂ (fun a b h1 h2 => lt_of_le_of_ne h1 h2) hs hd
  refine ⟨(key _).1, fun w => ?_, (key _).1, fun a => ?_⟩
  · rw [windSpeeds, (key _).2, List.mem_map]
  · rw [windAngles, (key _).2, List.mem_map]

example : wsToSlices 1 [(((10 : Rat), (90 : Rat)), (5 : Rat)), ((12, 90), 6), ((9, 50), 3)] [10, 12] =
    [[((10, 90), 5), ((9, 50), 3)], [((12, 90), 6)]] := by decide +kernel

end Verif.Cloud
