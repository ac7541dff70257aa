import Verif.Lemmas.Weigher
import Verif.Props.Data

/-!
# Properties C13–C15: weighers
-/

set_option linter.unusedSectionVars false

namespace Verif.Weigher

/-! ## C13 -/

section

variable {K : Type} [Field K] [LinearOrder K] [IsStrictOrderedRing K] {P : Type} [Sub P]

theorem countInCylinder_pos {norm : P → K} {radius length : K} {points : List (P × K)} {p : P × K}
    (hp : p ∈ points) (hn : norm (p.1 - p.1) ≤ radius) (hl : 0 ≤ length) :
    1 ≤ countInCylinder norm radius length points p := by
  refine List.length_pos_of_mem (a := p) ?_
  simp [hp, hn, hl]

/-- **C13.** `CylindricMemberWeigher`: there is one weight per point, all weights lie in `[0, 1]`, some weight is `1`
unless all of them are `0`, and a point whose cylinder contains at least as many points has at least the
weight. The norm only has to satisfy `norm(0) <= radius`. -/
theorem C13_member {norm : P → K} {radius length : K} {points : List (P × K)} (hne : points ≠ [])
    (hn : ∀ p ∈ points, norm (p.1 - p.1) ≤ radius) (hl : 0 ≤ length) :
    (memberWeigh norm radius length points).length = points.length ∧
    (∀ w ∈ memberWeigh norm radius length points, 0 ≤ w ∧ w ≤ 1) ∧
    (1 ∈ memberWeigh norm radius length points ∨ ∀ w ∈ memberWeigh norm radius length points, w = 0) ∧
    ∀ (i j : Nat) (p q : P × K) (v w : K), points[i]? = some p → points[j]? = some q →
      (memberWeigh norm radius length points)[i]? = some v →
      (memberWeigh norm radius length points)[j]? = some w →
      countInCylinder norm radius length points p ≤ countInCylinder norm radius length points q → v ≤ w := by
  have h0 : ∀ x ∈ points.map fun p => (countInCylinder norm radius length points p : K) - 1, 0 ≤ x := by
    intro x hx
    simp only [List.mem_map] at hx
    obtain ⟨p, hp, rfl⟩ := hx
    have := countInCylinder_pos (length := length) hp (hn p hp) hl
    have : (1 : K) ≤ (countInCylinder norm radius length points p : K) := by exact_mod_cast this
    linarith
  obtain ⟨h1, h2, h3, h4⟩ := normalize_spec (by simpa using hne) h0
  refine ⟨by simpa [memberWeigh] using h1, h2, h3, ?_⟩
  intro i j p q v w hp hq hv hw hpq
  refine h4 i j _ _ v w (by simp [hp]; rfl) (by simp [hq]; rfl) hv hw ?_
  have : (countInCylinder norm radius length points p : K) ≤ countInCylinder norm radius length points q := by
    exact_mod_cast hpq
  linarith

end

example : memberWeigh (K := Rat) (P := Rat) (fun x => |x|) 1 1 [(0, 0), (1, 1), (2, 0), (9, 9)] =
    [1/2, 1, 1/2, 0] := by decide +kernel

section

variable {P : Type} [Sub P]

/-- **C13.** `CylindricMeanWeigher`: there is one weight per point (no `nan`), all weights lie in `[0, 1]`, and some
weight is `0` unless all of them are `1`; a point with a smaller relative deviation from the mean of its cylinder
has at least the weight. -/
theorem C13_mean {norm : P → ℝ} {radius : ℝ} {points : List (P × ℝ)} (hne : points ≠ [])
    (hn : ∀ p ∈ points, norm (p.1 - p.1) ≤ radius) :
    ∃ ws, meanWeigh norm radius points = some ws ∧ ws.length = points.length ∧ (∀ w ∈ ws, 0 ≤ w ∧ w ≤ 1) ∧
      (0 ∈ ws ∨ ∀ w ∈ ws, w = 1) ∧
      ∀ (i j : Nat) (p q : P × ℝ) (x y v w : ℝ), points[i]? = some p → points[j]? = some q →
        meanRaw norm radius points p = some x → meanRaw norm radius points q = some y → x ≤ y →
        ws[i]? = some v → ws[j]? = some w → w ≤ v := by
  obtain ⟨raw, h1, h2, h3, h4⟩ := mapM_some (f := meanRaw norm radius points) (Q := fun x => 0 ≤ x)
    (fun p hp => meanRaw_some hp (hn p hp))
  have hr : raw ≠ [] := by
    rintro rfl
    simp at h2
    exact hne (List.length_eq_zero_iff.1 h2.symm)
  obtain ⟨g1, g2, g3, g4⟩ := normalize_spec hr h3
  refine ⟨(normalize raw).map (1 - ·), by simp [meanWeigh, h1], by simp [g1, h2], ?_, ?_, ?_⟩
  · intro w hw
    simp only [List.mem_map] at hw
    obtain ⟨x, hx, rfl⟩ := hw
    have := g2 x hx
    constructor <;> linarith
  · rcases g3 with g3 | g3
    · left; exact List.mem_map.2 ⟨1, g3, by norm_num⟩
    · right
      intro w hw
      simp only [List.mem_map] at hw
      obtain ⟨x, hx, rfl⟩ := hw
      rw [g3 x hx]; norm_num
  · intro i j p q x y v w hp hq hx hy hxy hv hw
    simp only [List.getElem?_map, Option.map_eq_some_iff] at hv hw
    obtain ⟨a, ha, rfl⟩ := hv
    obtain ⟨b, hb, rfl⟩ := hw
    have := g4 i j x y a b (by rw [h4 i p hp, hx]) (by rw [h4 j q hq, hy]) ha hb hxy
    linarith

end

example : ∀ p ∈ [((0 : ℝ), (1 : ℝ)), (0.01, 2), (5, 3)], |p.1 - p.1| ≤ (0.05 : ℝ) := by
  intro p _; simp; norm_num

/-! ## C14 -/

section

variable {P : Type}

/-- **C14 is false.** A weigher derived from another one by arithmetic with a number raises `ValueError` for every
set of points that does not consist of exactly two points. -/
theorem C14_unary_false {w : W P} {f : Rat → Rat} {pts : List P} {ws : List Rat}
    (h : w pts = .ok (.vec ws)) (hn : ws.length ≠ 2) : unaryWeigh w f pts = .error .valueError := by
  match ws, hn with
  | [], _ => simp [unaryWeigh, h, unpack]
  | [a], _ => simp [unaryWeigh, h, unpack]
  | a :: b :: c :: l, _ => simp [unaryWeigh, h, unpack]

/-- **C14 is false.** A combination of two weighers raises `ValueError` for every set of points that does not
consist of exactly two points. -/
theorem C14_binary_false {v w : W P} {f : Rat → Rat → Rat} {pts : List P} {vs : List Rat}
    (h : v pts = .ok (.vec vs)) (hn : vs.length ≠ 2) : binaryWeigh v w f pts = .error .valueError := by
  match vs, hn with
  | [], _ => simp [binaryWeigh, h, unpack]
  | [a], _ => simp [binaryWeigh, h, unpack]
  | a :: b :: c :: l, _ => simp [binaryWeigh, h, unpack]

/-- **C14 is false.** Arithmetic can never be nested: a combination whose first operand is itself a combination never
gives weights. -/
theorem C14_nested_false {w : W P} {f g : Rat → Rat} {pts : List P} (o : Out) :
    unaryWeigh (unaryWeigh w f) g pts ≠ .ok o := by
  intro h
  unfold unaryWeigh at h
  split at h
  · simp at h
  · rename_i a ha
    split at ha
    · simp [unpack] at ha
    · simp [unpack] at ha

/-- **C14 is false.** The nested combinations raise a `TypeError` also where the inner one gives a number. -/
theorem C14_nested_error_false {v w : W P} {f g : Rat → Rat} {f' : Rat → Rat → Rat} {pts : List P} {a b : Rat}
    (h : v pts = .ok (.vec [a, b])) : unaryWeigh (unaryWeigh v f) g pts = .error .typeError ∧
    binaryWeigh (unaryWeigh v f) w f' pts = .error .typeError ∧
    binaryWeigh v (unaryWeigh v f) f' pts = .error .typeError := by
  simp [unaryWeigh, binaryWeigh, h, unpack]

/-- **C14** (partial: what remains of the property). For exactly two points a combination returns the combination
of the weights of the *first* point (as a single number). -/
theorem C14_two_points_partial {v w : W P} {f : Rat → Rat → Rat} {g : Rat → Rat} {pts : List P} {a b c d : Rat}
    (hv : v pts = .ok (.vec [a, b])) (hw : w pts = .ok (.vec [c, d])) :
    binaryWeigh v w f pts = .ok (.scalar (f a c)) ∧ unaryWeigh v g pts = .ok (.scalar (g a)) := by
  simp [binaryWeigh, unaryWeigh, hv, hw, unpack]

/-- The weights computed by the result of an operator. -/
def weightsOf (r : Except PyErr (W P)) (pts : List P) : Except PyErr Out :=
  match r with
  | .error e => .error e
  | .ok w => w pts

/-- **C14** (partial: exactly two points, and only the weight of the first one is returned). Every operator computes
the documented combination. -/
theorem C14_operators_partial {v w : W P} {pts : List P} {a b c d q : Rat} (k : Nat)
    (_ : q ≠ 0) (_ : a ≠ 0) (_ : c ≠ 0) (hv : v pts = .ok (.vec [a, b])) (hw : w pts = .ok (.vec [c, d])) :
    weightsOf (add v (.weigher w)) pts = .ok (.scalar (a + c)) ∧
    weightsOf (add v (.number q)) pts = .ok (.scalar (a + q)) ∧
    weightsOf (sub v (.weigher w)) pts = .ok (.scalar (a - c)) ∧
    weightsOf (mul v (.weigher w)) pts = .ok (.scalar (a * c)) ∧
    weightsOf (mul v (.number q)) pts = .ok (.scalar (a * q)) ∧
    weightsOf (truediv v (.weigher w)) pts = .ok (.scalar (a / c)) ∧
    weightsOf (truediv v (.number q)) pts = .ok (.scalar (a / q)) ∧
    weightsOf (rtruediv v (.weigher w)) pts = .ok (.scalar (c / a)) ∧
    neg v pts = .ok (.scalar (-a)) ∧ pow v k pts = .ok (.scalar (a ^ k)) := by
  simp [weightsOf, add, sub, mul, truediv, rtruediv, neg, pow, binaryWeigh, unaryWeigh, hv, hw, unpack]

example : weightsOf (sub (fun _ => .ok (.vec [5, 6])) (.weigher (allOne : W Nat))) [1, 2] = .ok (.scalar 4) := by
  decide +kernel

/-- **C14 is false** for the documented operations `weigher - a` and `a / weigher` with a number `a`: `TypeError`. -/
theorem C14_number_false (w : W P) (a : Rat) :
    (sub w (.number a)).toOption.isNone ∧ (rtruediv w (.number a)).toOption.isNone := ⟨rfl, rfl⟩

end

/-- **C13.** `AllOneWeigher`: there is one weight per point, and it is 1. -/
theorem C13_all_one {P : Type} (pts : List P) : (allOne : W P) pts = .ok (.vec (pts.map fun _ => 1)) := by
  simp [allOne, List.map_const']

example : (allOne : W Nat) [1, 2, 3] = .ok (.vec [1, 1, 1]) ∧ [(1 : Rat), 1, 1].length ≠ 2 ∧
    unaryWeigh (allOne : W Nat) (· + 1) [1, 2, 3] = .error .valueError := by
  refine ⟨by decide +kernel, by decide, by decide +kernel⟩

/-! ## C15 -/

/-- **C15 is false.** A mean weigher whose dimensions name the boat speed once and not the speed over ground works for
the first call, and every later call raises `ValueError`: the first call removes the boat speed from the
configuration. -/
theorem C15_second_call_false {s : MeanState} {ds : List String} {D E : Data String Val Ty}
    (hs : s.dims = some ds) (hb : ds.count "BSP" = 1) (hsog : "SOG" ∉ ds) (hD : D.nRows ≠ 0)
    (hcol : "BSP" ∈ D.keys) (hE : E.nRows ≠ 0) :
    (∃ job, (meanWeighData s D).2 = .ok (some job)) ∧
    (meanWeighData (meanWeighData s D).1 E).2 = .error .valueError := by
  have hmem : "BSP" ∈ ds := List.count_pos_iff.1 (by omega)
  obtain ⟨c, hc⟩ := (Dict.mem_keys_iff _ _).1 hcol
  have h1 : "BSP" ∉ ds.erase "BSP" := by
    rw [← List.count_eq_zero, List.count_erase_self]; omega
  have h2 : "SOG" ∉ ds.erase "BSP" := fun h => hsog (List.mem_of_mem_erase h)
  simp [meanWeighData, hs, hD, hE, chooseSpeed, hmem, hc, h1, h2]

/-- **C15 is false** also without dimensions: the norm is chosen at the first call, so the weights of a second
set of points depend on the columns of the first one. -/
theorem C15_norm_false : ∃ D E : Data String Val Ty, Data.Reachable D ∧ Data.Reachable E ∧
    (meanWeighData (meanWeighData ⟨none, none⟩ D).1 E).2.toOption ≠ (meanWeighData ⟨none, none⟩ E).2.toOption := by
  refine ⟨(Data.fromDict [("TWS", .list [some (.float 1)]), ("BSP", .list [some (.float 1)])]).1,
    (Data.fromDict [("TWA", .list [some (.float 1)]), ("BSP", .list [some (.float 1)])]).1, ?_, ?_, ?_⟩
  · exact Data.Reachable.update (D := Data.empty) .empty (Prod.ext rfl (by decide +kernel))
  · exact Data.Reachable.update (D := Data.empty) .empty (Prod.ext rfl (by decide +kernel))
  · decide +kernel

/-- The state after a history of calls. -/
def afterCalls (s : MeanState) (h : List (Data String Val Ty)) : MeanState :=
  h.foldl (fun s D => (meanWeighData s D).1) s

/-- **C15** (partial: no dimensions and a norm given by the user). The result of a call does not depend on the
calls before. -/
theorem C15_history_partial (n : NormId) (h : List (Data String Val Ty)) (D : Data String Val Ty) :
    meanWeighData (afterCalls ⟨some n, none⟩ h) D = meanWeighData ⟨some n, none⟩ D := by
  have key : ∀ E, (meanWeighData ⟨some n, none⟩ E).1 = ⟨some n, none⟩ := by
    intro E
    unfold meanWeighData
    split
    · rfl
    · split
      · rfl
      · split <;> rfl
  have : afterCalls ⟨some n, none⟩ h = ⟨some n, none⟩ := by
    induction h with
    | nil => rfl
    | cons E h ih =>
      simp only [afterCalls, List.foldl_cons, key] at ih ⊢
      exact ih
  rw [this]

/-- **C15** (partial: no dimensions). Weighing the same data twice in a row gives the same result. -/
theorem C15_twice_partial (n : Option NormId) (D : Data String Val Ty) :
    (meanWeighData (meanWeighData ⟨n, none⟩ D).1 D).2 = (meanWeighData ⟨n, none⟩ D).2 := by
  unfold meanWeighData
  by_cases h0 : D.nRows = 0
  · simp [h0]
  · simp only [h0, if_false, Option.getD_none]
    cases hc : chooseSpeed D.keys with
    | error e => simp [hc]
    | ok p =>
      obtain ⟨sp, rest⟩ := p
      cases hg : D.cols.get? sp with
      | none => simp [hc, hg]
      | some c => simp [hc, hg]

example : ["TWS", "BSP"].count "BSP" = 1 ∧ "SOG" ∉ ["TWS", "BSP"] ∧ Data.exData.nRows ≠ 0 ∧
    "BSP" ∈ Data.exData.keys := by decide

end Verif.Weigher
