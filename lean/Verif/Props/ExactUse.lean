import Verif.Props.Detours
import Verif.Props.Extension
import Verif.Props.Influence
import Verif.Props.Nmea
import Verif.Props.Quality
import Verif.Props.WeigherData
import Mathlib.Analysis.SpecialFunctions.Trigonometric.Angle

/-!
# Exact conditions for properties C68, C70, C71, C79, C82 and C83
-/

set_option linter.unusedSectionVars false

namespace Verif.Influence

/-- **C68**, exactly: the distance used by the code is the distance on the circle if and only if it is at most 180. -/
theorem C68_gap_exactly (a b : ℝ) : gap a b = circleGap a b ↔ gap a b ≤ 180 := by
  unfold gap circleGap
  have hp : (0 : ℝ) < 360 := by norm_num
  have h0 := pmod_nonneg (a - b) hp
  have h1 := pmod_lt (a - b) hp
  have key : pmod |a - b| 360 = pmod (a - b) 360 ∨
      (pmod (a - b) 360 ≠ 0 ∧ pmod |a - b| 360 = 360 - pmod (a - b) 360) := by
    rcases le_or_gt 0 (a - b) with h | h
    · left; rw [abs_of_nonneg h]
    · by_cases hz : pmod (a - b) 360 = 0
      · left
        rw [hz, abs_of_neg h]
        have h2 := pmod_neg_pmod (a - b) hp
        rw [hz, sub_zero, pmod_self hp] at h2
        rw [h2, pmod_eq_iff _ _ hp]
        exact ⟨-1, by push_cast; ring⟩
      · right
        refine ⟨hz, ?_⟩
        have h2 := pmod_neg_pmod (a - b) hp
        have hpos : 0 < pmod (a - b) 360 := lt_of_le_of_ne h0 (Ne.symm hz)
        rw [pmod_of_mem (by linarith) (by linarith)] at h2
        rw [h2, abs_of_neg h, pmod_eq_iff _ _ hp]
        exact ⟨-1, by push_cast; ring⟩
  rcases key with e | ⟨-, e⟩
  · rw [e, eq_comm, min_eq_left_iff]
    constructor <;> intro h <;> linarith
  · rw [e, eq_comm, min_eq_right_iff]
    constructor <;> intro h <;> linarith

/-- **C68**, where it holds: if all measurements are at most 180 from all sampled angles, the density is that of the circle. -/
theorem C68_density_partial {interval : ℝ} (_ : interval ≠ 0) {data : List (ℝ × ℝ)} {wa : ℝ} (h : ∀ d ∈ data, gap wa d.1 ≤ 180) :
    density interval data wa = circleDensity interval data wa := by
  unfold density circleDensity
  congr 1
  apply List.map_congr_left
  intro d hd
  rw [(C68_gap_exactly wa d.1).2 (h d hd)]

example : ¬ gap 0 359 ≤ 180 := by
  have : gap 0 359 = 359 := by
    unfold gap
    rw [abs_of_neg (by norm_num), pmod_of_mem (by norm_num) (by norm_num)]
    norm_num
  rw [this]; norm_num

end Verif.Influence

namespace Verif.Nmea

variable {V : Type}

/-- **C70**, exactly: apparent wind speed without an entry for apparent wind before is stored as such if and only if the wind
angle is read as well. -/
theorem C70_speed_exactly {isR isT : V → Bool} {conv stamp : V → Except PyErr V} {d d' : Dict Key V}
    (hd : (Dict.keys d).Nodup) {ref ws : V} (h2 : d.get? "Reference".toList = some ref)
    (h3 : d.get? "Wind speed".toList = some ws) (hr : isR ref = true) (h0 : d.get? "AWS".toList = none)
    (h : postprocess isR isT conv stamp d = .ok d') :
    d'.get? "AWS".toList = some ws ↔ d.get? "Wind angle".toList ≠ none := by
  cases h1 : d.get? "Wind angle".toList with
  | some wa =>
    have := (C70_reference_partial hd h1 h2 h3 h).1 hr
    exact ⟨fun _ => by simp, fun _ => this.2.1⟩
  | none =>
    have hw : windPart isR isT d = d := by rw [windPart, h1]
    have hn : (Dict.keys (windPart isR isT d)).Nodup := by rw [hw]; exact hd
    rw [postprocess_get hn h (by decide), hw, h0]
    simp

/-- **C70**, exactly: apparent wind angles without an entry for apparent wind before are stored as such if and only if the wind
speed is read as well. -/
theorem C70_angle_exactly {isR isT : V → Bool} {conv stamp : V → Except PyErr V} {d d' : Dict Key V}
    (hd : (Dict.keys d).Nodup) {ref wa : V} (h2 : d.get? "Reference".toList = some ref)
    (h1 : d.get? "Wind angle".toList = some wa) (hr : isR ref = true) (h0 : d.get? "AWA".toList = none)
    (h : postprocess isR isT conv stamp d = .ok d') :
    d'.get? "AWA".toList = some wa ↔ d.get? "Wind speed".toList ≠ none := by
  cases h3 : d.get? "Wind speed".toList with
  | some ws =>
    have := (C70_reference_partial hd h1 h2 h3 h).1 hr
    exact ⟨fun _ => by simp, fun _ => this.1⟩
  | none =>
    have hw : windPart isR isT d = d := by rw [windPart, h1, h2, h3]
    have hn : (Dict.keys (windPart isR isT d)).Nodup := by rw [hw]; exact hd
    rw [postprocess_get hn h (by decide), hw, h0]
    simp

example : ∃ d', postprocess (· = "R") (· = "T") .ok .ok [("Reference".toList, "R"), ("Wind speed".toList, "12")] = .ok d' ∧
    d'.get? "AWS".toList ≠ some "12" := by
  refine ⟨[("Reference".toList, "R"), ("Wind speed".toList, "12")], ?_, ?_⟩ <;> decide +kernel

end Verif.Nmea

namespace Verif.Convex

/-- Different angles from 0 to 360 have different headings. -/
theorem heading_inj {x y : ℝ} (hx : 0 ≤ x ∧ x < 360) (hy : 0 ≤ y ∧ y < 360) (h : heading x = heading y) : x = y := by
  unfold heading at h
  obtain ⟨h1, h2⟩ := Prod.mk.inj h
  have h3 := Real.Angle.cos_sin_inj h1 h2
  rw [Real.Angle.angle_eq_iff_two_pi_dvd_sub] at h3
  obtain ⟨k, hk⟩ := h3
  have hp := Real.pi_pos
  have h4 : x - y = 360 * k := by
    have : Real.pi * (x - y) = Real.pi * (360 * k) := by linarith
    exact mul_left_cancel₀ hp.ne' this
  have h5 : (k : ℝ) < 1 := by nlinarith [hx.2, hy.1]
  have h6 : (-1 : ℝ) < k := by nlinarith [hx.1, hy.2]
  have h7 : k < 1 := by exact_mod_cast h5
  have h8 : -1 < k := by exact_mod_cast h6
  have : k = 0 := by omega
  rw [this] at h4
  norm_num at h4
  linarith

/-- **C71**, exactly, for a single direction: sailing it moves the boat in the requested direction if and only if it is the
requested direction. -/
theorem C71_single_exactly {n : Nat} {σ : Type} [DecidableEq σ] {vertices : List (Fin n)} {wa bsp : Fin n → ℝ}
    {info : Option (Fin n → σ)} {direction : ℝ} (hull : IsHull (velocity wa bsp) vertices) (hwa : StrictMono wa)
    (hrange : ∀ i, 0 ≤ wa i ∧ wa i < 360) (hb : ∀ i, 0 < bsp i)
    (h0 : (0 : ℝ × ℝ) ∈ convexHull ℝ (Set.range (velocity wa bsp))) (hd : 0 ≤ direction ∧ direction < 360)
    {d1 : Direction σ} (h : convexDirection vertices wa bsp info direction = .ok [d1]) :
    (∃ (i : Fin n) (x : ℝ), d1.angle = wa i ∧ 0 ≤ x ∧ velocity wa bsp i = x • heading direction) ↔
      d1.angle = direction := by
  obtain ⟨i1, e1, -, -, -⟩ := C71_single_partial hull hwa hrange (fun v _ => hb v) h0 hd h
  constructor
  · rintro ⟨i, x, e, hx, hv⟩
    rw [e]
    have hbi := hb i
    unfold velocity heading at hv
    have h1 := congrArg Prod.fst hv
    have h2 := congrArg Prod.snd hv
    simp only [Prod.smul_fst, Prod.smul_snd, smul_eq_mul] at h1 h2
    have hsq : bsp i ^ 2 = x ^ 2 := by
      have c1 := Real.sin_sq_add_cos_sq (wa i * Real.pi / 180)
      have c2 := Real.sin_sq_add_cos_sq (direction * Real.pi / 180)
      calc bsp i ^ 2 = (bsp i * Real.cos (wa i * Real.pi / 180)) ^ 2 + (bsp i * Real.sin (wa i * Real.pi / 180)) ^ 2 := by
            linear_combination (-(bsp i) ^ 2) * c1
        _ = x ^ 2 := by
            rw [h1, h2]
            linear_combination x ^ 2 * c2
    have hxb : x = bsp i := by
      rw [sq_eq_sq₀ hbi.le hx] at hsq
      exact hsq.symm
    apply heading_inj (hrange i) hd
    rw [hxb] at h1 h2
    unfold heading
    rw [mul_left_cancel₀ hbi.ne' h1, mul_left_cancel₀ hbi.ne' h2]
  · intro hdir
    refine ⟨i1, bsp i1, e1, (hb i1).le, ?_⟩
    rw [← hdir, e1]
    rfl

example : heading 0 ≠ heading 270 := fun h => absurd (heading_inj (x := 0) (y := 270) (by norm_num) (by norm_num) h) (by norm_num)

end Verif.Convex

namespace Verif.Weigher

variable {K : Type} [Field K] [LinearOrder K] [IsStrictOrderedRing K]

attribute [local instance] listSub

theorem broadcastMul_two (s t : K) {row : List K} (h : row.length = 1 ∨ row.length = 2) :
    ∃ r, broadcastMul [s, t] row = .ok r := by
  match row, h with
  | [x], _ => exact ⟨_, by simp [broadcastMul]; rfl⟩
  | [x, y], _ => exact ⟨_, by simp [broadcastMul]; rfl⟩
  | [], h => simp at h
  | _ :: _ :: _ :: _, h => simp at h

/-- **C79**, exactly, for the default norm and no dimensions: weights are returned if and only if the data has no, two or three
columns of type float. -/
theorem C79_columns_exactly (euclid : List K → K) (radius length : K) {D : FloatData K} (hrows : D.nRows ≠ 0) :
    (∃ ws, (memberWeighData euclid radius length (.init none none) D).2 = .ok ws) ↔
      D.cols.length = 0 ∨ D.cols.length = 2 ∨ D.cols.length = 3 := by
  constructor
  · rintro ⟨ws, h⟩
    by_contra hc
    rw [C79_columns_false euclid radius length hrows (by omega)] at h
    cases h
  · intro h
    unfold memberWeighData
    rw [if_neg hrows]
    simp only [MemberState.init, selectColumns]
    rcases Nat.eq_zero_or_pos D.cols.length with h0 | h0
    · have : pointRows D = [] := by rw [pointRows, List.length_eq_zero_iff.1 h0]
      rw [this]
      exact ⟨_, rfl⟩
    · have hc : D.cols ≠ [] := by intro e; rw [e] at h0; simp at h0
      rw [pointRows_eq hc]
      rw [mapM_all_ok (g := fun p => countInCylinder (fun row => match broadcastMul [normScale "TWS", normScale "TWA"] row with
          | .ok r => euclid r
          | .error _ => 0) radius length (((List.range D.nRows).map (rowOf D)).map fun r => (r.dropLast, lastOf r))
            (p.dropLast, lastOf p))]
      · exact ⟨_, rfl⟩
      · intro p hp
        refine countMembers_ok (g := fun row => match broadcastMul [normScale "TWS", normScale "TWA"] row with
          | .ok r => euclid r
          | .error _ => 0) fun q hq => ?_
        obtain ⟨i, -, rfl⟩ := List.mem_map.1 hp
        obtain ⟨j, -, rfl⟩ := List.mem_map.1 hq
        have hl : (List.zipWith (fun x1 x2 : K => x1 - x2) (rowOf D j).dropLast (rowOf D i).dropLast).length = 1 ∨
            (List.zipWith (fun x1 x2 : K => x1 - x2) (rowOf D j).dropLast (rowOf D i).dropLast).length = 2 := by
          simp [rowOf]
          omega
        obtain ⟨r, hr⟩ := broadcastMul_two (normScale "TWS") (normScale "TWA") hl
        simp only [standardNorm, Option.getD_none, List.map_cons, List.map_nil, applyNorm, hr]

example (euclid : List ℚ → ℚ) : ∃ ws, (memberWeighData euclid 1 1 (.init none none)
    ⟨2, [("TWS", [10, 11]), ("TWA", [90, 95]), ("BSP", [5, 6])]⟩).2 = .ok ws :=
  (C79_columns_exactly euclid 1 1 (show (2 : Nat) ≠ 0 by decide)).2 (.inr (.inr rfl))

end Verif.Weigher

namespace Verif.Ext

open Verif.Interp

variable {K : Type} [Field K] [LinearOrder K] [IsStrictOrderedRing K] [FloorRing K]

/-- **C82**, exactly: fitting a curve in radians leaves the data as it was if and only if all its angles are zero. -/
theorem C82_radians_exactly {P : Type} (fit : List (Pt K) → P) {rad : K} (hrad : rad ≠ 1) (points : List (Pt K)) :
    (curveProcess fit rad true points).2 = points ↔ ∀ p ∈ points, p.1.2 = 0 := by
  constructor
  · intro h p hp
    by_contra hne
    exact (C82_radians_false fit rad hrad ⟨p, hp, hne⟩).1 h
  · intro h
    simp only [curveProcess, if_true]
    conv_rhs => rw [← List.map_id points]
    apply List.map_congr_left
    intro p hp
    have := h p hp
    rw [this, mul_zero]
    exact Prod.ext (Prod.ext rfl this.symm) rfl

example : (curveProcess id (1 / 57 : ℚ) true [((6, 0), 5)]).2 = [((6, 0), 5)] :=
  (C82_radians_exactly id (by norm_num) _).2 (by simp)

end Verif.Ext

namespace Verif.Quality

open Verif.Interp

variable {K : Type} [Field K] [LinearOrder K] [IsStrictOrderedRing K] [FloorRing K]

theorem sum_le_card {α : Type} {f : α → K} {M : K} : ∀ {l : List α}, (∀ a ∈ l, f a ≤ M) → (l.map f).sum ≤ l.length * M ∧
    ((l.map f).sum = l.length * M ↔ ∀ a ∈ l, f a = M)
  | [], _ => by simp
  | a :: l, h => by
    obtain ⟨h1, h2⟩ := sum_le_card (f := f) (M := M) (l := l) fun b hb => h b (by simp [hb])
    have ha := h a (by simp)
    simp only [List.map_cons, List.sum_cons, List.length_cons, Nat.cast_add, Nat.cast_one]
    refine ⟨by linarith, ?_⟩
    constructor
    · intro e b hb
      have e1 : f a = M := by linarith
      have e2 : (l.map f).sum = l.length * M := by linarith
      rcases List.mem_cons.1 hb with rfl | hb
      · exact e1
      · exact h2.1 e2 b hb
    · intro e
      rw [e a (by simp), h2.2 fun b hb => e b (by simp [hb])]
      ring

/-- **C83**, exactly: the reported local difference is the largest one if and only if it is the same at all rounded winds of
the test data. -/
theorem C83_local_exactly {pd : K → K → Except PyErr K} {test : List (Pt K)} {c : Comforming K}
    (h : ∀ p ∈ test, 0 ≤ p.2) (hne : test ≠ []) (hc : comformingCheck pd test = .ok c) {M : K}
    (hM : ∀ k x, (∃ p ∈ test, rounded p = k) → IsSpread test k x → x ≤ M) :
    c.averageLocalTestDataDifference = .num M ↔ ∀ p ∈ test, IsSpread test (rounded p) M := by
  obtain ⟨winds, spread, -, h2, -, h4, h5, -⟩ := C83_covering_partial h hc
  have hwne : winds ≠ [] := by
    obtain ⟨p, hp⟩ := List.exists_mem_of_ne_nil _ hne
    exact List.ne_nil_of_mem ((h2 (rounded p)).2 ⟨p, hp, rfl⟩)
  have hpos : (0 : K) < winds.length := by
    have := List.length_pos_iff.2 hwne
    exact_mod_cast this
  have hle : ∀ k ∈ winds, spread k ≤ M := fun k hk => hM k _ ((h2 k).1 hk) (h4 k hk)
  have key := (sum_le_card hle).2
  rw [h5 hne]
  have e : ((Stat.num ((winds.map spread).sum / (winds.length : K)) : Stat K) = .num M) ↔
      (winds.map spread).sum = winds.length * M := by
    rw [Stat.num.injEq, div_eq_iff hpos.ne', mul_comm]
  rw [e, key]
  constructor
  · intro hall p hp
    have hk := (h2 (rounded p)).2 ⟨p, hp, rfl⟩
    rw [← hall _ hk]
    exact h4 _ hk
  · intro hall k hk
    obtain ⟨p, hp, rfl⟩ := (h2 k).1 hk
    have a := h4 _ hk
    have b := hall p hp
    obtain ⟨⟨p1, hp1, q1, hq1, e1, e2, e3⟩, a2⟩ := a
    obtain ⟨⟨p2, hp2, q2, hq2, f1, f2, f3⟩, b2⟩ := b
    apply le_antisymm
    · rw [← e3]; exact b2 _ hp1 _ hq1 e1 e2
    · rw [← f3]; exact a2 _ hp2 _ hq2 f1 f2

/-- Two winds with one test case each: the local differences are zero. -/
example : ∃ c : Comforming ℚ, comformingCheck (fun _ _ => .ok 0) [((6, 90), 1), ((8, 90), 2)] = .ok c ∧
    c.averageLocalTestDataDifference = .num 0 := by
  refine ⟨_, rfl, ?_⟩
  decide +kernel

end Verif.Quality
