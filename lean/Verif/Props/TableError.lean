import Verif.Props.TableCall
import Verif.Props.Consistency

/-!
# Property C143: reading a table between its entries
-/

set_option linter.unusedSectionVars false

namespace Verif.Table

open Verif.Interp

section General

variable {K : Type} [Field K] [LinearOrder K] [IsStrictOrderedRing K] [FloorRing K]

/-- All values returned by the interpolator lie between bounds of the values given to it. -/
def BetweenPts (interpolate : List ((K × K) × K) → K × K → Except PyErr K) : Prop :=
  ∀ l g x, l ≠ [] → interpolate l g = .ok x → ∀ lo hi, (∀ p ∈ l, lo ≤ p.2 ∧ p.2 ≤ hi) → lo ≤ x ∧ x ≤ hi

/-- The entries of the table are those of the function `f` up to errors of at most `δ`. -/
def Tabulates (f : K × K → K) (δ : K) (t : Table K) : Prop := ∀ p ∈ t.points, |p.2 - f p.1| ≤ δ

theorem mem_points {t : Table K} {i j : Nat} {w a x : K} {r : List K} (hw : t.ws[j]? = some w) (ha : t.wa[i]? = some a)
    (hr : t.bsps[i]? = some r) (hx : r[j]? = some x) : ((w, a), x) ∈ t.points := by
  refine List.mem_flatMap.2 ⟨(a, r), List.mem_of_getElem? (i := i) ?_, List.mem_map.2 ⟨(w, x),
    List.mem_of_getElem? (i := j) ?_, rfl⟩⟩
  · simp [List.getElem?_zip_eq_some, ha, hr]
  · simp [List.getElem?_zip_eq_some, hw, hx]

/-- **C143.** The speed read at a wind of the table has at most the error of the entries. -/
theorem C143_entries (interpolate : List ((K × K) × K) → K × K → Except PyErr K) (nbh : K × K → Bool) {t : Table K}
    (h : WF t) {f : K × K → K} {δ : K} (ht : Tabulates f δ t) {w a : K} (hw : w ∈ t.ws) (ha : a ∈ t.wa) :
    ∃ x, call interpolate nbh t w a = .ok x ∧ |x - f (w, a)| ≤ δ := by
  obtain ⟨j, hj, hw⟩ := List.getElem_of_mem hw
  obtain ⟨i, hi, ha⟩ := List.getElem_of_mem ha
  have hr : i < t.bsps.length := by rw [h.rows]; exact hi
  have hx : j < t.bsps[i].length := by rw [h.cols _ (List.getElem_mem _)]; exact hj
  have hw' : t.ws[j]? = some w := by rw [List.getElem?_eq_getElem hj, hw]
  have ha' : t.wa[i]? = some a := by rw [List.getElem?_eq_getElem hi, ha]
  refine ⟨t.bsps[i][j], ?_, ht _ (mem_points hw' ha' (List.getElem?_eq_getElem hr) (List.getElem?_eq_getElem hx))⟩
  have := C52_on_grid interpolate nbh h hw' ha' (List.getElem?_eq_getElem hr) (List.getElem?_eq_getElem hx) 0
  simpa using this

/-- **C143.** The speed read at any other wind has at most the error of the entries plus the variation of the true speed
over the entries in the neighbourhood. -/
theorem C143_between_partial {interpolate : List ((K × K) × K) → K × K → Except PyErr K} (hi : BetweenPts interpolate)
    {nbh : K × K → Bool} {t : Table K} {f : K × K → K} {δ ω : K} (ht : Tabulates f δ t) {w a : K}
    (hg : w ∉ t.ws ∨ pmod a 360 ∉ t.wa) (hne : ∃ p ∈ t.points, nbh (p.1 - (w, a)) = true)
    (hω : ∀ p ∈ t.points, nbh (p.1 - (w, a)) = true → |f p.1 - f (w, a)| ≤ ω) {x : K}
    (hx : call interpolate nbh t w a = .ok x) : |x - f (w, a)| ≤ ω + δ := by
  obtain ⟨pts, hpts, hcall⟩ := C52_off_grid interpolate nbh t hg
  rw [hcall] at hx
  obtain ⟨p, hp, hpn⟩ := hne
  have := hi pts _ x (List.ne_nil_of_mem ((hpts p).2 ⟨hp, hpn⟩)) hx (f (w, a) - (ω + δ)) (f (w, a) + (ω + δ))
    fun q hq => by
      obtain ⟨h1, h2⟩ := (hpts q).1 hq
      have e1 := abs_le.1 (ht q h1)
      have e2 := abs_le.1 (hω q h1 h2)
      exact ⟨by linarith [e1.1, e2.1], by linarith [e1.2, e2.2]⟩
  exact abs_le.2 ⟨by linarith [this.1], by linarith [this.2]⟩

/-- **C143.** So with a `Ball` of radius `r` around the wind, and true speeds changing by at most `L` per unit of distance,
the error is at most `L r` plus the error of the entries: to read the true speeds from a fine table the radius of the
neighbourhood must be chosen small. -/
theorem C143_ball_partial {interpolate : List ((K × K) × K) → K × K → Except PyErr K} (hi : BetweenPts interpolate)
    {norm : K × K → K} {t : Table K} {f : K × K → K} {L δ r : K} (hL : 0 ≤ L) (hf : Ext.Lip norm L f)
    (ht : Tabulates f δ t) {w a : K} (hg : w ∉ t.ws ∨ pmod a 360 ∉ t.wa)
    (hne : ∃ p ∈ t.points, norm (p.1 - (w, a)) ≤ r) {x : K}
    (hx : call interpolate (fun p => decide (norm p ≤ r)) t w a = .ok x) : |x - f (w, a)| ≤ L * r + δ :=
  C143_between_partial hi ht hg (by simpa using hne)
    (fun _ _ hp => (hf _ _).trans (mul_le_mul_of_nonneg_left (by simpa using hp) hL)) hx

/-- **C143.** The arithmetic mean interpolator (with factor 1 and positive weights) always succeeds and its values are
between those of the entries. -/
theorem C143_mean {norm : K × K → K} (hn : IsDist norm) {distr : K → K → K} (hd : ∀ d w, 0 < distr d w) :
    BetweenPts (fun l g => arith norm 1 distr l (List.replicate l.length 1) g) ∧
      ∀ l g, l ≠ [] → ∃ x, arith norm 1 distr l (List.replicate l.length 1) g = .ok x := by
  have key : ∀ (l : List (Pt K)) g, l ≠ [] → ∃ x, arith norm 1 distr l (List.replicate l.length 1) g = .ok x ∧
      InRange l x := by
    intro l g hl
    rcases Ext.stored_or_not l g with ⟨v, hv⟩ | h
    · exact ⟨v, C21_exact hn 1 distr _ hv, fun lo hi hb => hb _ (Ext.FirstStored.mem hv)⟩
    · exact C21_in_range hn hd hl (by simp) h
  refine ⟨fun l g x hl hx lo hi hb => ?_, fun l g hl => (key l g hl).imp fun x hx => hx.1⟩
  obtain ⟨y, hy, hr⟩ := key l g hl
  simp only at hx
  rw [hx, Except.ok.injEq] at hy
  subst hy
  exact hr lo hi hb

end General

/-! ### The default neighbourhood does not depend on the table -/

/-- The table with the wind speeds `0, 1/n, 2/n, …, m` (where the boat goes as fast as the wind) and the given wind
angles. -/
noncomputable def linearTable (n m : Nat) (wa : List ℝ) : Table ℝ :=
  let ws := (List.range (m * n + 1)).map fun i : Nat => (i : ℝ) / n
  ⟨ws, wa, wa.map fun _ => ws⟩

theorem tabulates_linearTable (n m : Nat) (wa : List ℝ) : Tabulates (fun p => p.1) 0 (linearTable n m wa) := by
  intro p hp
  obtain ⟨q, hq, hp⟩ := List.mem_flatMap.1 hp
  obtain ⟨s, hs, rfl⟩ := List.mem_map.1 hp
  have h1 : q.2 = (linearTable n m wa).ws := by
    have := (List.of_mem_zip hq).2
    simp only [linearTable, List.mem_map] at this
    obtain ⟨_, _, h⟩ := this
    rw [← h]
    rfl
  rw [h1, List.zip_eq_zipWith, List.zipWith_self, List.mem_map] at hs
  obtain ⟨y, _, rfl⟩ := hs
  simp

theorem lip_fst : Ext.Lip scaledEuclidean 40 (fun p : ℝ × ℝ => p.1) := by
  intro u g
  have h : |(u - g).1 / 40| ≤ scaledEuclidean (u - g) := by
    unfold scaledEuclidean
    apply Real.abs_le_sqrt
    have := sq_nonneg (1 / 360 * (u - g).2)
    nlinarith
  rw [abs_div, abs_of_pos (by norm_num : (0 : ℝ) < 40), div_le_iff₀ (by norm_num)] at h
  have : u.1 - g.1 = (u - g).1 := rfl
  simp only [this]
  linarith

theorem points_linearTable (n m : Nat) (wa : List ℝ) : (linearTable n m wa).points =
    wa.flatMap fun a => (List.range (m * n + 1)).map fun i : Nat => (((i : ℝ) / n, a), (i : ℝ) / n) := by
  simp only [points, linearTable]
  rw [List.zip_map_right, List.zip_eq_zipWith, List.zipWith_self, List.map_map, List.flatMap_map]
  congr 1
  funext a
  simp only [Function.comp, Prod.map, id]
  rw [List.zip_eq_zipWith, List.zipWith_self, List.map_map, List.map_map]
  rfl

/-- The points within one knot of the calm are outweighed. -/
theorem pair_weight {y z x b : ℝ} (hz : z = y + 1) (hy : 0 ≤ y) (hx0 : 0 ≤ x) :
    1 / 4 * gauss 50 (scaledEuclidean (y - x, b)) 1 ≤ gauss 50 (scaledEuclidean (z - x, b)) 1 := by
  have htri : scaledEuclidean (z - x, b) ≤ scaledEuclidean (y - x, b) + 1 / 40 := by
    unfold scaledEuclidean
    set u := 1 / 40 * (y - x) with hu
    set v := 1 / 360 * b with hv
    have e : 1 / 40 * (z - x) = u + 1 / 40 := by rw [hu, hz]; ring
    simp only [e]
    rw [Real.sqrt_le_left (by positivity)]
    have h1 : u ≤ Real.sqrt (u ^ 2 + v ^ 2) := Real.le_sqrt_of_sq_le (by nlinarith [sq_nonneg v])
    have h2 := Real.sq_sqrt (show 0 ≤ u ^ 2 + v ^ 2 by positivity)
    nlinarith
  have h4 : (1 / 4 : ℝ) ≤ Real.exp (-(5 / 4)) := by
    rw [Real.exp_neg, one_div]
    apply inv_anti₀ (Real.exp_pos _)
    have h5 : Real.exp (1 / 8) ≤ 8 / 7 := by
      have := Real.add_one_le_exp (-(1 / 8) : ℝ)
      have hp := Real.exp_pos (1 / 8 : ℝ)
      rw [Real.exp_neg, show (-(1 / 8) + 1 : ℝ) = 7 / 8 by norm_num, le_inv_comm₀ (by norm_num) hp] at this
      linarith
    have : Real.exp (5 / 4) = Real.exp (1 / 8) ^ 10 := by rw [← Real.exp_nat_mul]; norm_num
    rw [this]
    exact (pow_le_pow_left₀ (Real.exp_pos _).le h5 10).trans (by norm_num)
  unfold gauss
  calc 1 / 4 * Real.exp (-50 * 1 * scaledEuclidean (y - x, b))
      ≤ Real.exp (-(5 / 4)) * Real.exp (-50 * 1 * scaledEuclidean (y - x, b)) :=
        mul_le_mul_of_nonneg_right h4 (Real.exp_pos _).le
    _ = Real.exp (-(5 / 4) + -50 * 1 * scaledEuclidean (y - x, b)) := by rw [Real.exp_add]
    _ ≤ _ := Real.exp_le_exp.2 (by linarith)

/-- The weighted deviations from a fifth of a knot in one row of the table. -/
theorem row_weight {n m : Nat} (hn : 0 < n) (hm : 2 ≤ m) {x b : ℝ} (hx0 : 0 ≤ x) (hx1 : x ≤ 1) (hb : |b| ≤ 180) :
    0 ≤ (((List.range (m * n + 1)).filter fun i : Nat => defaultNbh ((i : ℝ) / n - x, b)).map fun i : Nat =>
      gauss 50 (scaledEuclidean ((i : ℝ) / n - x, b)) 1 * ((i : ℝ) / n - 1 / 5)).sum := by
  have hn' : (0 : ℝ) < n := by exact_mod_cast hn
  set F : Nat → ℝ := fun i => gauss 50 (scaledEuclidean ((i : ℝ) / n - x, b)) 1 * ((i : ℝ) / n - 1 / 5) with hF
  set G : Nat → ℝ := fun i => if defaultNbh ((i : ℝ) / n - x, b) = true then F i else 0 with hG
  have hsum : ∀ l : List Nat, ((l.filter fun i : Nat => defaultNbh ((i : ℝ) / n - x, b)).map F).sum = (l.map G).sum := by
    intro l
    induction l with
    | nil => rfl
    | cons i l ih =>
      rw [List.filter_cons]
      by_cases h : defaultNbh ((i : ℝ) / n - x, b) = true
      · rw [if_pos h, List.map_cons, List.sum_cons, ih, List.map_cons, List.sum_cons]
        simp only [hG, if_pos h]
      · rw [if_neg h, ih, List.map_cons, List.sum_cons]
        simp only [hG, if_neg h, zero_add]
  rw [hsum]
  have hin : ∀ i : Nat, i < 2 * n → defaultNbh ((i : ℝ) / n - x, b) = true := by
    intro i hi
    have h1 : (i : ℝ) / n ≤ 2 := by
      rw [div_le_iff₀ hn']
      exact_mod_cast hi.le
    have h0 : 0 ≤ (i : ℝ) / n := by positivity
    rw [defaultNbh, decide_eq_true_iff]
    unfold scaledEuclidean
    rw [Real.sqrt_le_left zero_le_one]
    have h2 := abs_le.1 hb
    nlinarith
  have hbig : ∀ i : Nat, n ≤ i → 0 ≤ G i := by
    intro i hi
    simp only [hG]
    split
    · have : 1 ≤ (i : ℝ) / n := by
        rw [le_div_iff₀ hn', one_mul]
        exact_mod_cast hi
      exact mul_nonneg (Real.exp_pos _).le (by linarith)
    · exact le_refl _
  have hpair : ∀ i : Nat, i < n → 0 ≤ G i + G (n + i) := by
    intro i hi
    simp only [hG, if_pos (hin i (by omega)), if_pos (hin (n + i) (by omega)), hF]
    have h0 : 0 ≤ (i : ℝ) / n := by positivity
    have e : ((n + i : Nat) : ℝ) / n = (i : ℝ) / n + 1 := by
      push_cast
      field_simp
      ring
    rw [e]
    have h := pair_weight (b := b) (x := x) (y := (i : ℝ) / n) rfl h0 hx0
    have hp : 0 < gauss 50 (scaledEuclidean ((i : ℝ) / n - x, b)) 1 := Real.exp_pos _
    have hp' : 0 < gauss 50 (scaledEuclidean ((i : ℝ) / n + 1 - x, b)) 1 := Real.exp_pos _
    nlinarith [mul_nonneg hp.le h0, mul_nonneg hp'.le h0]
  have hle : 2 * n ≤ m * n + 1 := by nlinarith
  obtain ⟨k, hk⟩ := Nat.exists_eq_add_of_le hle
  have hr : ((List.range (m * n + 1)).map G).sum = ∑ i ∈ Finset.range (m * n + 1), G i := by
    generalize m * n + 1 = k
    induction k with
    | zero => rfl
    | succ k ih => rw [List.range_succ, List.map_append, List.sum_append, ih, Finset.sum_range_succ]; simp
  rw [hr, hk, Finset.sum_range_add, two_mul, Finset.sum_range_add, ← Finset.sum_add_distrib]
  refine add_nonneg (Finset.sum_nonneg fun i hi => hpair i (Finset.mem_range.1 hi)) (Finset.sum_nonneg fun i _ => hbig _ ?_)
  omega

/-- **C143** is false with the default neighbourhood, however fine the table is: for a boat going as fast as the wind and a
table of its exact speeds at the wind speeds `0, 1/n, 2/n, …, m` (where `m ≥ 2`) and any wind angles, at most 180°, the speed
read at the wind speed `1/(2n)` is more than a fifth of a knot, while the boat goes at `1/(2n)` knots. -/
theorem C143_default_false {n m : Nat} (hn : 0 < n) (hm : 2 ≤ m) {wa : List ℝ} (hne : wa ≠ [])
    (hwa : ∀ a ∈ wa, 0 ≤ a ∧ a ≤ 180) {a : ℝ} (ha : a ∈ wa) :
    Tabulates (fun p => p.1) 0 (linearTable n m wa) ∧
    ∃ x, call defaultInterpolate defaultNbh (linearTable n m wa) (1 / (2 * n)) a = .ok x ∧ 1 / 5 ≤ x := by
  refine ⟨tabulates_linearTable n m wa, ?_⟩
  have hn' : (0 : ℝ) < n := by exact_mod_cast hn
  have hn1 : (1 : ℝ) ≤ n := by exact_mod_cast hn
  set x0 : ℝ := 1 / (2 * n) with hx0
  have hx0' : 0 ≤ x0 := by positivity
  have hx1 : x0 ≤ 1 := by
    rw [hx0, div_le_one (by positivity)]
    linarith
  have hoff : x0 ∉ (linearTable n m wa).ws := by
    intro h
    simp only [linearTable, List.mem_map] at h
    obtain ⟨i, -, h⟩ := h
    rw [hx0] at h
    field_simp at h
    have : (2 * i : ℕ) = 1 := by exact_mod_cast (by push_cast; linarith : ((2 * i : ℕ) : ℝ) = (1 : ℕ))
    omega
  have hcall : call defaultInterpolate defaultNbh (linearTable n m wa) x0 a =
      defaultInterpolate ((linearTable n m wa).points.filter fun p => defaultNbh (p.1.1 - x0, p.1.2 - a)) (x0, a) := by
    simp only [call, get_missing (Or.inl hoff)]
  set pts := (linearTable n m wa).points.filter fun p => defaultNbh (p.1.1 - x0, p.1.2 - a) with hpts
  have hmem : ((0, a), 0) ∈ pts := by
    refine List.mem_filter.2 ⟨?_, ?_⟩
    · rw [points_linearTable]
      exact List.mem_flatMap.2 ⟨a, ha, List.mem_map.2 ⟨0, by simp, by simp⟩⟩
    · rw [defaultNbh, decide_eq_true_iff]
      unfold scaledEuclidean
      rw [Real.sqrt_le_left zero_le_one]
      simp only
      nlinarith
  have hns : NotStored pts (x0, a) := by
    intro q hq he
    have := (mem_points_fst (List.mem_filter.1 hq).1).1
    rw [he] at this
    exact hoff this
  obtain ⟨v, h1, -, h3⟩ := C21_scaled_mean isDist_scaledEuclidean (C21_gauss_positive 50)
    (List.ne_nil_of_mem hmem) (weights := List.replicate pts.length 1) (by simp) hns
  refine ⟨v, ?_, ?_⟩
  · rw [hcall, defaultInterpolate, h1 1, one_mul]
  · have hz : ∀ (F : (ℝ × ℝ) × ℝ → ℝ → ℝ) (l : List ((ℝ × ℝ) × ℝ)),
        List.zipWith F l (List.replicate l.length 1) = l.map fun q => F q 1 := by
      intro F l
      induction l with
      | nil => rfl
      | cons q l ih => simp [List.replicate_succ, ih]
    rw [hz, hz] at h3
    have hpos : 0 < (pts.map fun q => gauss 50 (scaledEuclidean (q.1 - (x0, a))) 1).sum := by
      refine List.sum_pos _ (fun y hy => ?_) (by simpa using List.ne_nil_of_mem hmem)
      obtain ⟨q, -, rfl⟩ := List.mem_map.1 hy
      exact Real.exp_pos _
    have hdev : 0 ≤ (pts.map fun q => gauss 50 (scaledEuclidean (q.1 - (x0, a))) 1 * (q.2 - 1 / 5)).sum := by
      rw [hpts, points_linearTable]
      have hsub : ∀ l : List ℝ, (∀ b ∈ l, 0 ≤ b ∧ b ≤ 180) →
          0 ≤ ((((l.flatMap fun a => (List.range (m * n + 1)).map fun i : Nat => (((i : ℝ) / n, a), (i : ℝ) / n)).filter
            fun p => defaultNbh (p.1.1 - x0, p.1.2 - a))).map
              fun q => gauss 50 (scaledEuclidean (q.1 - (x0, a))) 1 * (q.2 - 1 / 5)).sum := by
        intro l
        induction l with
        | nil => intro _; simp
        | cons b l ih =>
          intro hl
          rw [List.flatMap_cons, List.filter_append, List.map_append, List.sum_append]
          refine add_nonneg ?_ (ih fun c hc => hl c (List.mem_cons_of_mem _ hc))
          rw [List.filter_map, List.map_map]
          have hb := hl b List.mem_cons_self
          have ha' := hwa a ha
          exact row_weight (b := b - a) hn hm hx0' hx1 (abs_le.2 ⟨by linarith, by linarith⟩)
      exact hsub wa hwa
    have hsplit : ∀ l : List ((ℝ × ℝ) × ℝ),
        (l.map fun q => gauss 50 (scaledEuclidean (q.1 - (x0, a))) 1 * (q.2 - 1 / 5)).sum =
        (l.map fun q => gauss 50 (scaledEuclidean (q.1 - (x0, a))) 1 * q.2).sum -
          1 / 5 * (l.map fun q => gauss 50 (scaledEuclidean (q.1 - (x0, a))) 1).sum := by
      intro l
      induction l with
      | nil => simp
      | cons q l ih => simp only [List.map_cons, List.sum_cons, ih]; ring
    rw [hsplit, ← h3] at hdev
    by_contra hv
    push Not at hv
    nlinarith

/-- **C143.** In particular the errors do not go to zero as the tables get finer, although the tables are exact and the boat
speed changes by at most 40 per unit of distance (one knot per knot). -/
theorem C143_limit_false {m : Nat} (hm : 2 ≤ m) {wa : List ℝ} (hne : wa ≠ []) (hwa : ∀ a ∈ wa, 0 ≤ a ∧ a ≤ 180) {a : ℝ}
    (ha : a ∈ wa) : Ext.Lip scaledEuclidean 40 (fun p : ℝ × ℝ => p.1) ∧ ∀ n ≥ 10,
    Tabulates (fun p => p.1) 0 (linearTable n m wa) ∧
    ∃ x, call defaultInterpolate defaultNbh (linearTable n m wa) (1 / (2 * n)) a = .ok x ∧
      3 / 20 ≤ |x - 1 / (2 * n)| := by
  refine ⟨lip_fst, fun n hn => ?_⟩
  obtain ⟨h1, x, h2, h3⟩ := C143_default_false (n := n) (by omega) hm hne hwa ha
  refine ⟨h1, x, h2, ?_⟩
  have hn' : (10 : ℝ) ≤ n := by exact_mod_cast hn
  have : (1 : ℝ) / (2 * n) ≤ 1 / 20 := one_div_le_one_div_of_le (by norm_num) (by linarith)
  refine le_trans ?_ (le_abs_self _)
  linarith

open Classical in
/-- **C143.** With the default interpolator and a ball of radius `r` containing an entry, a speed is read, and its error is at
most `L r` plus the error of the entries. -/
theorem C143_radius_partial {t : Table ℝ} (h : WF t) {f : ℝ × ℝ → ℝ} {L δ r : ℝ} (hL : 0 ≤ L)
    (hf : Ext.Lip scaledEuclidean L f) (ht : Tabulates f δ t) {w a : ℝ} (ha : 0 ≤ a ∧ a < 360)
    (hne : ∃ p ∈ t.points, scaledEuclidean (p.1 - (w, a)) ≤ r) :
    ∃ x, call defaultInterpolate (fun p => decide (scaledEuclidean p ≤ r)) t w a = .ok x ∧ |x - f (w, a)| ≤ L * r + δ := by
  obtain ⟨hb, hs⟩ := C143_mean isDist_scaledEuclidean (C21_gauss_positive 50)
  by_cases hg : w ∉ t.ws ∨ pmod a 360 ∉ t.wa
  · obtain ⟨pts, hpts, hcall⟩ := C52_off_grid defaultInterpolate (fun p => decide (scaledEuclidean p ≤ r)) t hg
    obtain ⟨p, hp, hpr⟩ := hne
    obtain ⟨x, hx⟩ := hs pts (w, a) (List.ne_nil_of_mem ((hpts p).2 ⟨hp, decide_eq_true hpr⟩))
    have hx' := hcall.trans hx
    refine ⟨x, hx', ?_⟩
    refine C143_between_partial hb ht hg ⟨p, hp, by simpa using hpr⟩ (fun q _ hq => ?_) hx'
    exact (hf _ _).trans (mul_le_mul_of_nonneg_left (by simpa using hq) hL)
  · push Not at hg
    rw [pmod_of_mem ha.1 ha.2] at hg
    obtain ⟨x, h1, h2⟩ := C143_entries defaultInterpolate (fun p => decide (scaledEuclidean p ≤ r)) h ht hg.1 hg.2
    refine ⟨x, h1, h2.trans ?_⟩
    obtain ⟨p, -, hpr⟩ := hne
    have : 0 ≤ r := (Real.sqrt_nonneg _).trans hpr
    nlinarith [mul_nonneg hL this]

open Classical in
/-- The hypotheses can be met: with a ball of radius 1/40 (one knot), the table with wind speeds 0, 1 and 2, read at half a
knot, has an error of at most one knot. -/
example : ∃ x, call defaultInterpolate (fun p => decide (scaledEuclidean p ≤ 1 / 40)) (linearTable 1 2 [90]) (1 / 2) 90 =
    .ok x ∧ |x - 1 / 2| ≤ 40 * (1 / 40) + 0 := by
  have hwf : WF (linearTable 1 2 [90]) := by
    constructor <;> simp [linearTable, List.range_succ] <;> norm_num
  refine C143_radius_partial hwf (by norm_num) lip_fst (tabulates_linearTable 1 2 [90]) (by norm_num)
    ⟨((0, 90), 0), ?_, ?_⟩
  · rw [points_linearTable]
    simp
  · unfold scaledEuclidean
    rw [Real.sqrt_le_left (by norm_num)]
    norm_num

example : ∃ x, call defaultInterpolate defaultNbh (linearTable 100 20 [0, 45, 90, 135, 180]) (1 / (2 * (100 : Nat))) 90 = .ok x ∧
    3 / 20 ≤ |x - 1 / (2 * (100 : Nat))| :=
  ((C143_limit_false (m := 20) (by norm_num) (by simp) (by intro a; simp; rintro (h | h | h | h | h) <;> subst h <;> norm_num)
    (by simp)).2 100 (by norm_num)).2

end Verif.Table
