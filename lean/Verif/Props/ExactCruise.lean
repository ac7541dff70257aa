import Verif.Props.WeatherMulti
import Verif.Props.Convex
import Verif.Props.Course
import Verif.Props.WeigherStats
import Verif.Props.Extension
import Verif.Props.InPlace

/-!
# Exact conditions for properties of weather, courses, statistics and resolutions: C64, C72, C73, C76, C78, C81, C84, C85
-/

set_option linter.unusedSectionVars false

namespace Verif.Weather

variable {κ V P : Type} [DecidableEq κ]

/-- **C64**, exactly: without `exception_sensitive` there is an answer if and only if all exceptions raised by submodels are
`ValueError`, `TypeError` or `KeyError`. -/
theorem C64_exactly (p : P) (models : List (P → Except PyErr (Dict κ V))) :
    (∃ d, multiWeather false models p = .ok d) ↔
      ∀ m ∈ models, ∀ e, m p = .error e → e = .valueError ∨ e = .typeError ∨ e = .keyError := by
  refine ⟨?_, fun h => (C64_ignore_partial h).1⟩
  have key : ∀ (ms : List (P → Except PyErr (Dict κ V))) (d : Dict κ V), (∃ d', multiLoop false p ms d = .ok d') →
      ∀ m ∈ ms, ∀ e, m p = .error e → e = .valueError ∨ e = .typeError ∨ e = .keyError := by
    intro ms
    induction ms with
    | nil => intro d _ m hm; simp at hm
    | cons m ms ih =>
      rintro d ⟨d', h⟩ m' hm' e he
      cases hm : m p with
      | ok w =>
        simp only [multiLoop, hm] at h
        rcases List.mem_cons.1 hm' with rfl | hm'
        · rw [hm] at he; cases he
        · exact ih _ ⟨d', h⟩ m' hm' e he
      | error e' =>
        simp only [multiLoop, hm, Bool.false_eq_true, if_false] at h
        split at h
        · rename_i hc
          rcases List.mem_cons.1 hm' with rfl | hm'
          · rw [hm] at he
            cases he
            cases e <;> simp_all [caught]
          · exact ih _ ⟨d', h⟩ m' hm' e he
        · cases h
  exact key models []

example : (∃ d, multiWeather false [fun _ : ℕ => .error .keyError, fun _ => .ok [("TWS", (5 : ℕ))]] 3 = .ok d) ∧
    ¬ ∃ d, multiWeather (κ := String) (V := ℕ) false [fun _ : ℕ => .error .zeroDivisionError] 3 = .ok d := by
  rw [C64_exactly, C64_exactly]
  refine ⟨fun m hm e he => ?_, fun h => ?_⟩
  · rcases List.mem_cons.mp hm with rfl | hm
    · cases he
      exact .inr (.inr rfl)
    · rw [List.mem_singleton.mp hm] at he
      cases he
  · have := h _ (List.mem_singleton.mpr rfl) _ rfl
    simp at this

end Verif.Weather

namespace Verif.Convex

variable {n : Nat} {wa bsp : Fin n → ℝ} {σ : Type}

/-- **C72**, exactly: with two recommended courses the boat reaches the destination if and only if one of them is not sailed. -/
theorem C72_exactly (hwa : Function.Injective wa) (hrange : ∀ i, 0 ≤ wa i ∧ wa i < 360) {i1 i2 : Fin n}
    {d1 d2 : Direction σ} {l dist : ℝ} (hne : i1 ≠ i2)
    (h1 : d1.angle = wa i1) (h2 : d2.angle = wa i2) (p1 : d1.proportion = some l) (p2 : d2.proportion = some (1 - l))
    (hl : 0 ≤ l ∧ l ≤ 1) (hb1 : 0 < bsp i1) (hb2 : 0 < bsp i2) (hdist : 0 < dist) :
    ∃ t1 t2 : ℝ, cruiseTimes wa bsp dist [d1, d2] = .ok [(wa i1, some t1), (wa i2, some t2)] ∧
      (lengthSq (t1 • velocity wa bsp i1 + t2 • velocity wa bsp i2) = dist ^ 2 ↔ l = 0 ∨ l = 1) := by
  obtain ⟨t1, t2, ht, h10, h20, hsum, hprop⟩ := C72_length_partial hwa h1 h2 p1 p2 hl hb1 hb2 hdist.le
  refine ⟨t1, t2, ht, ?_⟩
  have unit : ∀ (a t : ℝ), lengthSq (t • heading a) = t ^ 2 := by
    intro a t
    simp only [lengthSq, heading, Prod.smul_mk, smul_eq_mul]
    have := Real.cos_sq_add_sin_sq (a * Real.pi / 180)
    linear_combination t ^ 2 * this
  constructor
  · intro h
    by_contra hcon
    push Not at hcon
    obtain ⟨t1', t2', ht', hlt⟩ := C72_short_false hwa hrange hne h1 h2 p1 p2
      ⟨lt_of_le_of_ne hl.1 (Ne.symm hcon.1), lt_of_le_of_ne hl.2 hcon.2⟩ hb1 hb2 hdist
    rw [ht] at ht'
    have e := Except.ok.inj ht'
    simp only [List.cons.injEq, Prod.mk.injEq, Option.some.injEq, true_and, and_true] at e
    rw [← e.1, ← e.2] at hlt
    exact hlt.ne h
  · rintro (rfl | rfl)
    · have e1 : t1 = 0 := by linarith
      rw [e1, zero_mul, zero_add] at hsum
      rw [e1, zero_smul, zero_add, velocity, smul_smul, unit, hsum]
    · have e2 : t2 = 0 := by linarith
      rw [e2, zero_mul, add_zero] at hsum
      rw [e2, zero_smul, add_zero, velocity, smul_smul, unit, hsum]

/-- Half of the way at 0°, half of it at 90° is not the distance 10. -/
example : ∃ t1 t2 : ℝ, cruiseTimes (σ := Unit) ![0, 90] ![5, 4] 10 [⟨0, some (1 / 2), none⟩, ⟨90, some (1 - 1 / 2), none⟩] =
      .ok [(0, some t1), (90, some t2)] ∧
    (lengthSq (t1 • velocity ![0, 90] ![5, 4] 0 + t2 • velocity ![0, 90] ![5, 4] 1) = 10 ^ 2 ↔ (1 / 2 : ℝ) = 0 ∨ (1 / 2 : ℝ) = 1) :=
  C72_exactly (wa := ![0, 90]) (bsp := ![5, 4]) (i1 := 0) (i2 := 1) (d1 := ⟨0, some (1 / 2), none⟩) (d2 := ⟨90, some (1 - 1 / 2), none⟩)
    (by intro i j h; fin_cases i <;> fin_cases j <;> simp_all) (by intro i; fin_cases i <;> norm_num) (by decide) rfl rfl rfl rfl
    (by norm_num) (by norm_num) (by norm_num) (by norm_num)

end Verif.Convex

namespace Verif.Course

/-- **C73**, exactly: the direction calculated from components is from 0 to 360 if and only if the second component is not
negative, and it is measured from north if and only if both components agree. -/
theorem C73_exactly (u v : ℝ) : ∃ ws ndir, windRelativeToNorth (.uvGrd u v) = .ok (ws, ndir) ∧
    (0 ≤ ndir ∧ ndir < 360 ↔ 0 ≤ v) ∧
    (ws * Real.cos (ndir * Real.pi / 180) = v ∧ ws * Real.sin (ndir * Real.pi / 180) = u ↔ u = v) := by
  obtain ⟨ws, ndir, h, h0, h1, h2, h3, h4⟩ := C73_components_partial u v
  refine ⟨ws, ndir, h, ?_, ?_⟩
  · have e := (Prod.mk.inj (Except.ok.inj h)).2
    constructor
    · rintro ⟨ha, -⟩
      rw [← h4]
      refine mul_nonneg h0 (Real.sin_nonneg_of_nonneg_of_le_pi (by positivity) ?_)
      rw [div_le_iff₀ (by norm_num)]
      nlinarith [Real.pi_pos]
    · intro hv
      refine ⟨?_, by linarith⟩
      rw [← e]
      exact mul_nonneg (by positivity) (Complex.arg_nonneg_iff.2 hv)
  · rw [h3, h4]
    exact ⟨fun h => h.1, fun h => ⟨h, h.symm⟩⟩

example : ∃ ws ndir, windRelativeToNorth (.uvGrd 3 3) = .ok (ws, ndir) ∧ (0 ≤ ndir ∧ ndir < 360) ∧
    ws * Real.cos (ndir * Real.pi / 180) = 3 ∧ ws * Real.sin (ndir * Real.pi / 180) = 3 := by
  obtain ⟨ws, ndir, h, h1, h2⟩ := C73_exactly 3 3
  exact ⟨ws, ndir, h, h1.mpr (by norm_num), h2.mpr rfl⟩

example : ∃ ws ndir, windRelativeToNorth (.uvGrd 3 (-4)) = .ok (ws, ndir) ∧ ¬ (0 ≤ ndir ∧ ndir < 360) ∧
    ¬ (ws * Real.cos (ndir * Real.pi / 180) = -4 ∧ ws * Real.sin (ndir * Real.pi / 180) = 3) := by
  obtain ⟨ws, ndir, h, h1, h2⟩ := C73_exactly 3 (-4)
  exact ⟨ws, ndir, h, fun h' => absurd (h1.mp h') (by norm_num), fun h' => absurd (h2.mp h') (by norm_num)⟩

/-- **C76**, exactly: there are positions on the way if and only if the projections of start and end differ. -/
theorem C76_exactly (start stop : ℝ × ℝ) (s : ℝ) : (∃ p, position start stop s = some p) ↔
    start.1 ≠ stop.1 ∨ Real.tan (Real.pi * start.2 / 180) ≠ Real.tan (Real.pi * stop.2 / 180) := by
  have h0 : totalS start stop = 0 ↔ start.1 = stop.1 ∧ Real.tan (Real.pi * start.2 / 180) = Real.tan (Real.pi * stop.2 / 180) := by
    unfold totalS
    rw [Real.sqrt_eq_zero (by positivity)]
    simp only [Cruising.mercator]
    constructor
    · intro h
      have e1 := sq_nonneg (69 * (stop.1 - (start.1 + stop.1) / 2) - 69 * (start.1 - (start.1 + stop.1) / 2))
      have e2 := sq_nonneg (69 * Real.arsinh (Real.tan (Real.pi * stop.2 / 180)) - 69 * Real.arsinh (Real.tan (Real.pi * start.2 / 180)))
      constructor
      · have := pow_eq_zero_iff (two_ne_zero) |>.1 (le_antisymm (by linarith) e1)
        linarith
      · have := pow_eq_zero_iff (two_ne_zero) |>.1 (le_antisymm (by linarith) e2)
        apply Real.arsinh_injective
        linarith
    · rintro ⟨e1, e2⟩
      rw [e1, e2]
      ring
  unfold position
  by_cases h : totalS start stop = 0
  · simp only [h, if_true]
    obtain ⟨e1, e2⟩ := h0.1 h
    simp [e1, e2]
  · simp only [h, if_false]
    refine ⟨fun _ => ?_, fun _ => ⟨_, rfl⟩⟩
    by_contra hcon
    push Not at hcon
    exact h (h0.2 hcon)

example : (∃ p, position (50, 3) (51, 3) 20 = some p) ∧ ¬ ∃ p, position (50, 3) (50, 3) 20 = some p :=
  ⟨(C76_exactly _ _ _).mpr (.inl (by norm_num)), fun h => by simpa using (C76_exactly _ _ _).mp h⟩

end Verif.Course

namespace Verif.Weigher

variable {K : Type} [Field K] [LinearOrder K] [IsStrictOrderedRing K] [FloorRing K]

/-- Counting the intervals that hold a number. -/
theorem intervals (b : Nat → K) (hb : ∀ i, b i ≤ b (i + 1)) (w : K) (n : Nat) :
    ((List.range n).map fun i => if w ≤ b (i + 1) ∧ b i ≤ w then 1 else 0).sum + (if b n ≤ w then 1 else 0) =
      (if b 0 ≤ w then 1 else 0) + ((List.range n).map fun i => if w = b (i + 1) then 1 else 0).sum := by
  induction n with
  | zero => simp
  | succ n ih =>
    rw [List.range_succ, List.map_append, List.map_append, List.sum_append, List.sum_append]
    simp only [List.map_cons, List.map_nil, List.sum_cons, List.sum_nil, add_zero]
    have step : (if w ≤ b (n + 1) ∧ b n ≤ w then 1 else 0) + (if b (n + 1) ≤ w then 1 else 0) =
        (if b n ≤ w then 1 else 0) + (if w = b (n + 1) then 1 else 0) := by
      rcases lt_trichotomy w (b (n + 1)) with h | h | h
      · simp [h.le, h.not_ge, h.ne]
      · have := hb n
        rw [h]
        simp [this]
      · have h1 : b n ≤ w := (hb n).trans h.le
        simp [h.not_ge, h.le, h.ne', h1]
    omega

/-- The number of weights on the borders between the tenths. -/
def borderCount (weights : List K) (mn mx : K) : Nat :=
  ((List.range 9).map fun i : Nat => (weights.filter fun w => decide (w = mn + (mx - mn) * ((i : K) + 1) / 10)).length).sum

/-- **C78**, exactly: up to rounding, the percentages add up to 100 plus the percentage of the weights on the borders between two
tenths. -/
theorem C78_sum_partial {weights : List K} {mn mx : K} {qs : List K} (hmn : (weightStats weights).minimal = some mn)
    (hmx : (weightStats weights).maximal = some mx) (hq : (weightStats weights).quantiles = some qs) :
    |qs.sum - (100 + 100 * (borderCount weights mn mx : K) / (weights.length : K))| ≤ 1 / 20 := by
  cases weights with
  | nil => cases hmn
  | cons w ws =>
    cases hmn
    cases hmx
    cases hq
    set l := w :: ws with hl
    set mn := ws.foldl min w with hmn
    set mx := ws.foldl max w with hmx
    have hpos : (0 : K) < (l.length : K) := by
      have : 0 < l.length := by simp [hl]
      exact_mod_cast this
    have hrange : ∀ v ∈ l, mn ≤ v ∧ v ≤ mx := fun v hv => ⟨(foldl_min_spec w ws).2 v hv, (foldl_max_spec w ws).2 v hv⟩
    set b : Nat → K := fun i => mn + (mx - mn) * (i : K) / 10 with hbdef
    have hmm : mn ≤ mx := (hrange w (by simp [hl])).1.trans (hrange w (by simp [hl])).2
    have hb : ∀ i, b i ≤ b (i + 1) := by
      intro i
      simp only [b]
      have : (mx - mn) * (i : K) ≤ (mx - mn) * ((i + 1 : ℕ) : K) :=
        mul_le_mul_of_nonneg_left (by push_cast; linarith) (by linarith)
      linarith [div_le_div_of_nonneg_right this (show (0 : K) ≤ 10 by norm_num)]
    have hbs : ∀ i : Nat, b (i + 1) = mn + (mx - mn) * ((i : K) + 1) / 10 := by
      intro i
      simp only [b]
      push_cast
      rfl
    set p : Nat → K → Bool := fun i w => decide (w ≤ mn + (mx - mn) * ((i : K) + 1) / 10) &&
      decide (mn + (mx - mn) * (i : K) / 10 ≤ w) with hp
    have hcount : ((List.range 10).map fun i => (l.filter (p i)).length).sum = l.length + borderCount l mn mx := by
      have key : ∀ l' : List K, (∀ v ∈ l', mn ≤ v ∧ v ≤ mx) →
          ((List.range 10).map fun i => (l'.filter (p i)).length).sum = l'.length + borderCount l' mn mx := by
        intro l'
        induction l' with
        | nil => intro _; simp [borderCount]
        | cons v l' ih =>
          intro hv
          have h1 := ih (fun x hx => hv x (by simp [hx]))
          have e1 : ((List.range 10).map fun i => ((v :: l').filter (p i)).length).sum =
              ((List.range 10).map fun i => (l'.filter (p i)).length).sum +
                ((List.range 10).map fun i => if v ≤ b (i + 1) ∧ b i ≤ v then 1 else 0).sum := by
            rw [← List.sum_map_add]
            congr 1
            apply List.map_congr_left
            intro i _
            rw [hbs]
            by_cases hc : v ≤ mn + (mx - mn) * ((i : K) + 1) / 10 ∧ b i ≤ v
            · rw [List.filter_cons_of_pos (by simp only [hp, Bool.and_eq_true, decide_eq_true_eq]; exact hc), if_pos hc]
              simp
            · rw [List.filter_cons_of_neg (by simp only [hp, Bool.and_eq_true, decide_eq_true_eq]; exact hc), if_neg hc]
              simp
          have e2 : borderCount (v :: l') mn mx = borderCount l' mn mx +
              ((List.range 9).map fun i => if v = b (i + 1) then 1 else 0).sum := by
            unfold borderCount
            rw [← List.sum_map_add]
            congr 1
            apply List.map_congr_left
            intro i _
            rw [hbs]
            by_cases hc : v = mn + (mx - mn) * ((i : K) + 1) / 10
            · rw [List.filter_cons_of_pos (by simpa using hc), if_pos hc]
              simp
            · rw [List.filter_cons_of_neg (by simpa using hc), if_neg hc]
              simp
          have h2 := intervals b hb v 10
          rw [List.range_succ (n := 9), List.map_append, List.map_append, List.sum_append, List.sum_append] at h2
          have e0 : (if b 0 ≤ v then 1 else 0) = 1 := if_pos (by simpa [b] using (hv v (by simp)).1)
          have e3 : (if b 10 ≤ v then 1 else 0) = (if v = b (9 + 1) then 1 else 0) := by
            have e10 : b 10 = mx := by
              simp only [b]
              push_cast
              field_simp
              ring
            have : b 10 ≤ v ↔ v = b (9 + 1) := by
              rw [show b (9 + 1) = b 10 from rfl, e10]
              exact ⟨fun h => le_antisymm (hv v (by simp)).2 h, fun h => h.ge⟩
            simp only [this]
          have e4 : ((List.range 10).map fun i => if v ≤ b (i + 1) ∧ b i ≤ v then 1 else 0).sum =
              1 + ((List.range 9).map fun i => if v = b (i + 1) then 1 else 0).sum := by
            rw [List.range_succ (n := 9), List.map_append, List.sum_append]
            simp only [List.map_cons, List.map_nil, List.sum_cons, List.sum_nil, add_zero] at h2 ⊢
            omega
          rw [e1, h1, e2, e4, List.length_cons]
          omega
      exact key l hrange
    have hstep : ∀ i, |quantile l mn (mx - mn) i - 100 * ((l.filter (p i)).length : K) / (l.length : K)| ≤ 1 / 200 := fun i =>
      (round2_spec (100 * ((l.filter (p i)).length : K) / (l.length : K))).1
    have hc' : ((((List.range 10).map fun i => (l.filter (p i)).length).sum : ℕ) : K) = (l.length : K) + (borderCount l mn mx : K) := by
      rw [hcount]
      push_cast
      rfl
    simp only [List.range_succ, List.range_zero, List.nil_append, List.cons_append, List.map_cons, List.map_nil,
      List.sum_cons, List.sum_nil, Nat.cast_add, add_zero] at hc' ⊢
    have hsum : 100 + 100 * (borderCount l mn mx : K) / (l.length : K) =
        100 * ((l.filter (p 0)).length : K) / (l.length : K) + (100 * ((l.filter (p 1)).length : K) / (l.length : K)
        + (100 * ((l.filter (p 2)).length : K) / (l.length : K) + (100 * ((l.filter (p 3)).length : K) / (l.length : K)
        + (100 * ((l.filter (p 4)).length : K) / (l.length : K) + (100 * ((l.filter (p 5)).length : K) / (l.length : K)
        + (100 * ((l.filter (p 6)).length : K) / (l.length : K) + (100 * ((l.filter (p 7)).length : K) / (l.length : K)
        + (100 * ((l.filter (p 8)).length : K) / (l.length : K) + 100 * ((l.filter (p 9)).length : K) / (l.length : K))))))))) := by
      simp only [← add_div]
      rw [eq_div_iff hpos.ne', add_mul, div_mul_cancel₀ _ hpos.ne']
      linarith
    rw [hsum]
    have s0 := abs_le.1 (hstep 0)
    have s1 := abs_le.1 (hstep 1)
    have s2 := abs_le.1 (hstep 2)
    have s3 := abs_le.1 (hstep 3)
    have s4 := abs_le.1 (hstep 4)
    have s5 := abs_le.1 (hstep 5)
    have s6 := abs_le.1 (hstep 6)
    have s7 := abs_le.1 (hstep 7)
    have s8 := abs_le.1 (hstep 8)
    have s9 := abs_le.1 (hstep 9)
    rw [abs_le]
    constructor <;> linarith [s0.1, s0.2, s1.1, s1.2, s2.1, s2.2, s3.1, s3.2, s4.1, s4.2, s5.1, s5.2, s6.1, s6.2, s7.1, s7.2, s8.1, s8.2, s9.1, s9.2]

/-- **C78**, exactly: for less than 1000 weights the percentages add up to 100, up to rounding, if and only if no weight is on a
border between two tenths. -/
theorem C78_exactly {weights : List K} {mn mx : K} {qs : List K} (hmn : (weightStats weights).minimal = some mn)
    (hmx : (weightStats weights).maximal = some mx) (hq : (weightStats weights).quantiles = some qs)
    (hlen : weights.length < 1000) :
    |qs.sum - 100| ≤ 1 / 20 ↔ ∀ w ∈ weights, ∀ i : Nat, 1 ≤ i → i ≤ 9 → w ≠ mn + (mx - mn) * (i : K) / 10 := by
  have hs := C78_sum_partial hmn hmx hq
  have hpos : (0 : K) < (weights.length : K) := by
    cases weights with
    | nil => cases hmn
    | cons w ws =>
      have : 0 < (w :: ws).length := by simp
      exact_mod_cast this
  have hz : borderCount weights mn mx = 0 ↔ ∀ w ∈ weights, ∀ i : Nat, 1 ≤ i → i ≤ 9 → w ≠ mn + (mx - mn) * (i : K) / 10 := by
    unfold borderCount
    rw [List.sum_eq_zero_iff]
    constructor
    · intro h w hw i h1 h9 he
      have := h _ (List.mem_map.2 ⟨i - 1, by simp; omega, rfl⟩)
      rw [List.length_eq_zero_iff, List.filter_eq_nil_iff] at this
      apply this w hw
      rw [decide_eq_true_eq, he, Nat.cast_sub h1]
      simp
    · intro h x hx
      obtain ⟨i, hi, rfl⟩ := List.mem_map.1 hx
      rw [List.length_eq_zero_iff, List.filter_eq_nil_iff]
      intro w hw
      have hi' : i < 9 := List.mem_range.1 hi
      have := h w hw (i + 1) (by omega) (by omega)
      push_cast at this
      simpa using this
  rw [← hz]
  constructor
  · intro h
    by_contra hcon
    have h1 : (1 : K) ≤ (borderCount weights mn mx : K) := by
      have : 1 ≤ borderCount weights mn mx := by omega
      exact_mod_cast this
    have hl : (weights.length : K) < 1000 := by exact_mod_cast hlen
    have h2 : 1 / 10 < 100 * (borderCount weights mn mx : K) / (weights.length : K) := by
      rw [lt_div_iff₀ hpos]
      linarith
    have h3 := (abs_le.1 hs).1
    have h4 := (abs_le.1 h).2
    linarith
  · intro h
    rw [h] at hs
    simpa using hs

example : (weightStats ([0, 1 / 3, 1] : List ℚ)).minimal = some 0 ∧ (weightStats ([0, 1 / 3, 1] : List ℚ)).maximal = some 1 ∧
    ((weightStats ([0, 1 / 3, 1] : List ℚ)).quantiles.map List.sum) = some (9999 / 100) := by decide +kernel

end Verif.Weigher

namespace Verif.Ext

open Verif.Interp

variable {K : Type} [Field K] [LinearOrder K] [IsStrictOrderedRing K] [FloorRing K]

/-- **C81**, exactly: the rounded maximum is part of the resolution "min_max" if and only if it differs from the rounded minimum by
an even number. -/
theorem C81_exactly {points : List (Pt K)} {lo hi : K} (hlo : lo ∈ points.map fun p => p.1.1)
    (hlo' : ∀ p ∈ points, lo ≤ p.1.1) (hhi : hi ∈ points.map fun p => p.1.1) (hhi' : ∀ p ∈ points, p.1.1 ≤ hi) :
    ∃ ws wa, minMaxResolution points = .ok (ws, wa) ∧ pyRound lo ∈ ws ∧ (pyRound hi ∈ ws ↔ 2 ∣ pyRound hi - pyRound lo) := by
  obtain ⟨ws, wa, h, -, -, hmem, -⟩ := C81_min_max hlo hlo' hhi hhi'
  have hle : pyRound lo ≤ pyRound hi := by
    obtain ⟨p, hp, rfl⟩ := List.mem_map.1 hlo
    exact pyRound_mono (hhi' p hp)
  refine ⟨ws, wa, h, (hmem _).2 ⟨le_rfl, hle, by simp⟩, fun hc => ((hmem _).1 hc).2.2, fun hd => (hmem _).2 ⟨hle, le_rfl, hd⟩⟩

example : (∃ ws wa, minMaxResolution [((5, 30), 3), ((9, 60), (4 : ℚ))] = .ok (ws, wa) ∧ pyRound (5 : ℚ) ∈ ws ∧
      (pyRound (9 : ℚ) ∈ ws ↔ 2 ∣ pyRound (9 : ℚ) - pyRound (5 : ℚ))) ∧
    2 ∣ pyRound (9 : ℚ) - pyRound (5 : ℚ) ∧ ¬ 2 ∣ pyRound (8 : ℚ) - pyRound (5 : ℚ) :=
  ⟨C81_exactly (by simp) (by norm_num) (by simp) (by norm_num), by decide +kernel, by decide +kernel⟩

end Verif.Ext

namespace Verif

open Verif.Interp

variable {K : Type} [Field K] [LinearOrder K] [IsStrictOrderedRing K] [FloorRing K]

/-- **C84**, exactly: an array of wind angles is unchanged if and only if all angles are from 0 to 360 (without 360). -/
theorem C84_exactly (t : Table K) {ws : List K} (hws : ws ≠ []) (h0 : ∀ w ∈ ws, 0 ≤ w) (waArray : List K)
    (bsps : List (List K)) :
    ((Table.initArray ws waArray bsps).2 = waArray ↔ ∀ a ∈ waArray, 0 ≤ a ∧ a < 360) ∧
    ((Table.waIndicesArray t waArray).2 = waArray ↔ ∀ a ∈ waArray, 0 ≤ a ∧ a < 360) := by
  have key : ¬ (∀ a ∈ waArray, 0 ≤ a ∧ a < 360) → ∃ a ∈ waArray, a < 0 ∨ 360 ≤ a := by
    intro h
    push Not at h
    obtain ⟨a, ha, h⟩ := h
    refine ⟨a, ha, ?_⟩
    by_cases hn : a < 0
    · exact .inl hn
    · exact .inr (h (not_lt.1 hn))
  constructor
  · refine ⟨fun he => ?_, fun h => (C84_table_partial t ws bsps h).1⟩
    by_contra hcon
    exact (C84_table_false t hws h0 bsps (key hcon)).1 he
  · refine ⟨fun he => ?_, fun h => (C84_table_partial t ws bsps h).2⟩
    by_contra hcon
    exact (C84_table_false t hws h0 bsps (key hcon)).2 he

example : ([10] : List ℚ) ≠ [] ∧ ∀ w ∈ ([10] : List ℚ), 0 ≤ w := by decide +kernel

/-- **C85**, exactly: a step size gives a table with wind speeds (wind angles) if and only if it is positive and less than 40
(360). -/
theorem C85_exactly (x : K) :
    ((∃ ws, Table.buildWs (.step x) = .ok ws ∧ ws ≠ []) ↔ 0 < x ∧ x < 40) ∧
    ((∃ wa, Table.buildWa (.step x) = .ok wa ∧ wa ≠ []) ↔ 0 < x ∧ x < 360) := by
  have hmin : ∀ (k : Nat) {M : K}, 0 < x → 1 ≤ k → (k : K) * x < M → x < M := by
    intro k M hx hk h
    have : (1 : K) ≤ (k : K) := by exact_mod_cast hk
    nlinarith
  constructor
  · constructor
    · rintro ⟨ws, h, hne⟩
      by_cases hx : 0 < x
      · refine ⟨hx, ?_⟩
        by_cases h40 : x ≤ 40
        · obtain ⟨ws', h', -, hmem⟩ := (C85_step hx).1 h40
          rw [h] at h'
          obtain rfl := Except.ok.inj h'
          obtain ⟨w, hw⟩ := List.exists_mem_of_ne_nil _ hne
          obtain ⟨k, hk, rfl, hlt⟩ := (hmem w).1 hw
          exact hmin k hx hk hlt
        · rw [C85_invalid.1 (.inr (not_le.1 h40))] at h
          cases h
      · rw [C85_invalid.1 (.inl (not_lt.1 hx))] at h
        cases h
    · rintro ⟨hx, h40⟩
      obtain ⟨ws, h, -, hmem⟩ := (C85_step hx).1 h40.le
      exact ⟨ws, h, List.ne_nil_of_mem ((hmem x).2 ⟨1, le_rfl, by simp, h40⟩)⟩
  · constructor
    · rintro ⟨ws, h, hne⟩
      by_cases hx : 0 < x
      · refine ⟨hx, ?_⟩
        by_cases h40 : x ≤ 360
        · obtain ⟨ws', h', -, hmem⟩ := (C85_step hx).2 h40
          rw [h] at h'
          obtain rfl := Except.ok.inj h'
          obtain ⟨w, hw⟩ := List.exists_mem_of_ne_nil _ hne
          obtain ⟨k, hk, rfl, hlt⟩ := (hmem w).1 hw
          exact hmin k hx hk hlt
        · rw [C85_invalid.2 (.inr (not_le.1 h40))] at h
          cases h
      · rw [C85_invalid.2 (.inl (not_lt.1 hx))] at h
        cases h
    · rintro ⟨hx, h40⟩
      obtain ⟨ws, h, -, hmem⟩ := (C85_step hx).2 h40.le
      exact ⟨ws, h, List.ne_nil_of_mem ((hmem x).2 ⟨1, le_rfl, by simp, h40⟩)⟩

example : (∃ ws, Table.buildWs (.step (39 : ℚ)) = .ok ws ∧ ws ≠ []) ∧ ¬ (∃ ws, Table.buildWs (.step (40 : ℚ)) = .ok ws ∧ ws ≠ []) ∧
    ∃ wa, Table.buildWa (.step (40 : ℚ)) = .ok wa ∧ wa ≠ [] :=
  ⟨(C85_exactly _).1.mpr (by norm_num), fun h => absurd ((C85_exactly _).1.mp h).2 (by norm_num), (C85_exactly _).2.mpr (by norm_num)⟩

end Verif
