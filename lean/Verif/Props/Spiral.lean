import Mathlib.Analysis.Convex.Combination
import Mathlib.Analysis.Real.Pi.Bounds
import Verif.Model.Spiral
import Verif.Model.Extension
import Verif.Lemmas.Fold
import Verif.Props.Sampler

/-!
# Property C87: samplers on spirals
-/

namespace Verif.Sampler

/-! ### Auxiliary facts -/

theorem rescaleLoop_pos {α : Type} (n : Nat) (generate : ℝ → List α) : ∀ fuel (lb : ℝ) ub t s out,
    0 ≤ lb → (∀ u, ub = some u → 0 < u) → 0 < t → s = generate t →
    rescaleLoop n generate fuel lb ub t s = some out → ∃ t, 0 < t ∧ out = generate t := by
  intro fuel
  induction fuel with
  | zero => intro lb ub t s out _ _ _ _ h; simp [rescaleLoop] at h
  | succ fuel ih =>
    intro lb ub t s out hlb hub ht hs h
    rw [rescaleLoop] at h
    split at h
    · simp only at h
      refine ih _ _ _ _ _ ?_ ?_ ?_ rfl h
      · split_ifs
        · exact ht.le
        · exact hlb
      · intro u hu
        split_ifs at hu
        · exact hub u hu
        · exact Option.some.inj hu ▸ ht
      · by_cases hc : n < s.length
        · simp only [hc, if_true]
          cases hu : ub with
          | none => simp only; linarith
          | some u =>
            have := hub u hu
            simp only
            linarith
        · simp only [hc, if_false]
          linarith
    · exact ⟨t, ht, by rw [← hs]; exact (Option.some.inj h).symm⟩

theorem rescaleLoop_zero {α : Type} (n : Nat) (generate : ℝ → List α) (hg : (generate 0).length ≠ n) :
    ∀ fuel ub, (∀ u, ub = some u → u = 0) → rescaleLoop n generate fuel 0 ub 0 (generate 0) = none := by
  intro fuel
  induction fuel with
  | zero => intro ub _; rfl
  | succ fuel ih =>
    intro ub hub
    rw [rescaleLoop, if_pos hg]
    simp only
    by_cases hc : n < (generate 0).length
    · simp only [hc, if_true]
      cases hu : ub with
      | none => simpa [hu] using ih none (by simp)
      | some u =>
        have h0 := hub u hu
        subst h0
        simpa using ih (some 0) (by simp)
    · simp only [hc, if_false]
      simpa using ih (some 0) (by simp)

theorem fibonacciBase_nodup (ub : Nat) (h : 0 < ub) : (fibonacciBase ub).Nodup := by
  refine List.Nodup.map_on ?_ List.nodup_range
  intro i _ j _ hij
  have hu : (0 : ℝ) < ub := by exact_mod_cast h
  simp only [Prod.mk.injEq] at hij
  obtain ⟨h1, h2⟩ := hij
  have key : ∀ (k : Nat) (b : ℝ), (Real.sqrt (((k : ℝ) + 1) / ub) * Real.cos b) ^ 2 +
      (Real.sqrt (((k : ℝ) + 1) / ub) * Real.sin b) ^ 2 = ((k : ℝ) + 1) / ub := by
    intro k b
    have hs := Real.sq_sqrt (show (0 : ℝ) ≤ ((k : ℝ) + 1) / ub by positivity)
    have hc := Real.sin_sq_add_cos_sq b
    calc _ = Real.sqrt (((k : ℝ) + 1) / ub) ^ 2 * (Real.sin b ^ 2 + Real.cos b ^ 2) := by ring
      _ = _ := by rw [hs, hc, mul_one]
  have e1 := key i (2 * Real.pi * ((i : ℝ) + 1) * ((1 + Real.sqrt 5) / 2)⁻¹)
  have e2 := key j (2 * Real.pi * ((j : ℝ) + 1) * ((1 + Real.sqrt 5) / 2)⁻¹)
  rw [h1, h2, e2] at e1
  have h3 : ((j : ℝ) + 1) = (i : ℝ) + 1 := by
    have := congrArg (· * (ub : ℝ)) e1
    simpa [div_mul_cancel₀ _ hu.ne'] using this
  exact_mod_cast (add_right_cancel h3).symm

theorem archimedeanBeta_nonneg (k : Nat) : 0 ≤ archimedeanBeta k := by
  induction k with
  | zero => exact le_refl _
  | succ k ih =>
    have : 0 < 8 / (archimedeanBeta k + 2) := by positivity
    rw [archimedeanBeta]
    linarith

theorem archimedeanBeta_strictMono : StrictMono archimedeanBeta := by
  refine strictMono_nat_of_lt_succ fun k => ?_
  have h0 := archimedeanBeta_nonneg k
  have : 0 < 8 / (archimedeanBeta k + 2) := by positivity
  rw [archimedeanBeta]
  linarith

theorem archimedeanBase_nodup (ub : Nat) : (archimedeanBase ub).Nodup := by
  refine List.Nodup.map_on ?_ List.nodup_range
  intro i _ j _ hij
  simp only [Prod.mk.injEq] at hij
  obtain ⟨h1, h2⟩ := hij
  have key : ∀ b : ℝ, (b * Real.cos b) ^ 2 + (b * Real.sin b) ^ 2 = b ^ 2 := by
    intro b
    have hc := Real.sin_sq_add_cos_sq b
    calc _ = b ^ 2 * (Real.sin b ^ 2 + Real.cos b ^ 2) := by ring
      _ = _ := by rw [hc, mul_one]
  have e1 := key (archimedeanBeta i)
  rw [h1, h2, key (archimedeanBeta j)] at e1
  have := (sq_eq_sq₀ (archimedeanBeta_nonneg j) (archimedeanBeta_nonneg i)).1 e1
  exact (archimedeanBeta_strictMono.injective this).symm

theorem sampleGenerator_nodup {base : List (ℝ × ℝ)} (hb : base.Nodup) (mid : ℝ × ℝ) (ineqs : List (Facet ℝ)) {t : ℝ}
    (ht : 0 < t) : (sampleGenerator base mid ineqs t).Nodup := by
  refine List.Nodup.filter _ (List.Nodup.map ?_ hb)
  intro p q h
  simp only [Prod.mk.injEq, add_right_inj, mul_eq_mul_left_iff, ht.ne', or_false] at h
  exact Prod.ext h.1 h.2

theorem toPlane_rows (pts : List (ℝ × ℝ)) : toPlane (pts.map fun p => [p.1, p.2]) = .ok pts := by
  induction pts with
  | nil => rfl
  | cons p ps ih => simp only [List.map_cons, toPlane, ih]

/-- The array with the given points as rows. -/
def rowsOf (pts : List (ℝ × ℝ)) : List (List ℝ) := pts.map fun p => [p.1, p.2]

/-- `ineqs` describe the convex hull of the points. -/
def IsHull (pts : List (ℝ × ℝ)) (ineqs : List (Facet ℝ)) : Prop :=
  ∀ p, Inside ineqs p ↔ p ∈ convexHull ℝ {q | q ∈ pts}

theorem convex_disc (m : ℝ × ℝ) (R : ℝ) : Convex ℝ {p : ℝ × ℝ | (p.1 - m.1) ^ 2 + (p.2 - m.2) ^ 2 ≤ R} := by
  intro p hp q hq a b ha hb hab
  simp only [Set.mem_setOf_eq] at hp hq ⊢
  simp only [Prod.fst_add, Prod.snd_add, Prod.smul_fst, Prod.smul_snd, smul_eq_mul]
  obtain rfl : b = 1 - a := by linarith
  have key : ∀ x y c : ℝ, (a * x + (1 - a) * y - c) ^ 2 ≤ a * (x - c) ^ 2 + (1 - a) * (y - c) ^ 2 := by
    intro x y c
    nlinarith [mul_nonneg (mul_nonneg ha hb) (sq_nonneg (x - y))]
  nlinarith [key p.1 q.1 m.1, key p.2 q.2 m.2]

theorem hull_in_disc {pts : List (ℝ × ℝ)} {m : ℝ × ℝ} {R : ℝ}
    (h : ∀ p ∈ pts, Real.sqrt ((p.1 - m.1) ^ 2 + (p.2 - m.2) ^ 2) < R) {p : ℝ × ℝ}
    (hp : p ∈ convexHull ℝ {q | q ∈ pts}) : Real.sqrt ((p.1 - m.1) ^ 2 + (p.2 - m.2) ^ 2) ≤ R := by
  have hne : pts ≠ [] := by
    rintro rfl
    simp at hp
  obtain ⟨q, qs, rfl⟩ := List.exists_cons_of_ne_nil hne
  have hR : 0 ≤ R := le_trans (Real.sqrt_nonneg _) (h q (by simp)).le
  have : p ∈ {p : ℝ × ℝ | (p.1 - m.1) ^ 2 + (p.2 - m.2) ^ 2 ≤ R ^ 2} := by
    refine convexHull_min ?_ (convex_disc m (R ^ 2)) hp
    intro q' hq'
    exact (Real.sqrt_le_left hR).1 (h q' hq').le
  exact (Real.sqrt_le_left hR).2 this

/-- What is proved of both samplers. -/
theorem spiral_spec {base : Nat → List (ℝ × ℝ)} (hb : ∀ k, 0 < k → (base k).Nodup) {hull : Hull}
    {shuffle : List (ℝ × ℝ) → List (ℝ × ℝ)} (hsh : ∀ l, (shuffle l).Perm l) {n fuel : Nat} {pts out : List (ℝ × ℝ)}
    {vol : ℝ} {ineqs : List (Facet ℝ)} (hh : hull pts = .ok (vol, ineqs)) (hhull : IsHull pts ineqs)
    {mid : ℝ × ℝ} {r : ℝ} (hc : makeCircle (shuffle pts) (1 / 10000) fuel = some (.ok (mid, r))) (hr : 0 < r)
    (h : spiralSample base hull shuffle n fuel (rowsOf pts) = some (.ok out)) :
    out.length = n ∧ out.Nodup ∧ ∀ p ∈ out, p ∈ convexHull ℝ {q | q ∈ pts} ∧
      Real.sqrt ((p.1 - mid.1) ^ 2 + (p.2 - mid.2) ^ 2) ≤ r + 1 / 10000 := by
  unfold spiralSample at h
  simp only [rowsOf, toPlane_rows, hc, hh] at h
  split_ifs at h
  · simp at h
  cases hb' : binaryRescale n (sampleGenerator (base (upperBound r vol n)) mid ineqs) r fuel with
  | none => simp [hb'] at h
  | some out' =>
    simp only [hb', Option.map_some, Option.some.injEq, Except.ok.injEq] at h
    subst h
    obtain ⟨hl, hin, -⟩ := C30_spiral_samples n _ mid ineqs r fuel hb'
    refine ⟨hl, ?_, fun p hp => ?_⟩
    · obtain ⟨t, ht, he⟩ := rescaleLoop_pos n _ fuel 0 none r _ out' le_rfl (by simp) hr rfl hb'
      rw [he]
      exact sampleGenerator_nodup (hb _ (by simp [upperBound])) _ _ ht
    · have hp' := (hhull p).1 (hin p hp)
      refine ⟨hp', hull_in_disc (fun q hq => ?_) hp'⟩
      exact C30_enclosing (hsh pts) _ fuel hc q.1 q.2 hq

/-! ## C87 -/

/-- **C87.** Whenever the Fibonacci sampler returns, for points with an enclosing circle of positive radius, it returns
exactly `n` different points. They lie in the convex hull of the given points, and (up to the tolerance) in their
enclosing circle. -/
theorem C87_fibonacci {hull : Hull} {shuffle : List (ℝ × ℝ) → List (ℝ × ℝ)} (hsh : ∀ l, (shuffle l).Perm l)
    {n fuel : Nat} {pts out : List (ℝ × ℝ)} {vol : ℝ} {ineqs : List (Facet ℝ)} (hh : hull pts = .ok (vol, ineqs))
    (hhull : IsHull pts ineqs) {mid : ℝ × ℝ} {r : ℝ}
    (hc : makeCircle (shuffle pts) (1 / 10000) fuel = some (.ok (mid, r))) (hr : 0 < r)
    (h : fibonacci hull shuffle n fuel (rowsOf pts) = some (.ok out)) :
    out.length = n ∧ out.Nodup ∧ ∀ p ∈ out, p ∈ convexHull ℝ {q | q ∈ pts} ∧
      Real.sqrt ((p.1 - mid.1) ^ 2 + (p.2 - mid.2) ^ 2) ≤ r + 1 / 10000 :=
  spiral_spec fibonacciBase_nodup hsh hh hhull hc hr h

/-- **C87.** The same is true of the Archimedean sampler. -/
theorem C87_archimedean {hull : Hull} {shuffle : List (ℝ × ℝ) → List (ℝ × ℝ)} (hsh : ∀ l, (shuffle l).Perm l)
    {n fuel : Nat} {pts out : List (ℝ × ℝ)} {vol : ℝ} {ineqs : List (Facet ℝ)} (hh : hull pts = .ok (vol, ineqs))
    (hhull : IsHull pts ineqs) {mid : ℝ × ℝ} {r : ℝ}
    (hc : makeCircle (shuffle pts) (1 / 10000) fuel = some (.ok (mid, r))) (hr : 0 < r)
    (h : archimedean hull shuffle n fuel (rowsOf pts) = some (.ok out)) :
    out.length = n ∧ out.Nodup ∧ ∀ p ∈ out, p ∈ convexHull ℝ {q | q ∈ pts} ∧
      Real.sqrt ((p.1 - mid.1) ^ 2 + (p.2 - mid.2) ^ 2) ≤ r + 1 / 10000 := by
  unfold archimedean at h
  split_ifs at h
  · simp at h
  · exact spiral_spec (fun k _ => archimedeanBase_nodup k) hsh hh hhull hc hr h

/-- **C87.** The points of the Fibonacci spiral lie in the unit disc, and the squared radii grow by equal amounts. -/
theorem C87_fibonacci_radii (ub : Nat) (i : Nat) (hi : i + 1 < ub) :
    ∃ p, (fibonacciBase ub)[i]? = some p ∧ p.1 ^ 2 + p.2 ^ 2 = ((i : ℝ) + 1) / ub ∧ p.1 ^ 2 + p.2 ^ 2 < 1 := by
  have hu : (0 : ℝ) < ub := by exact_mod_cast (by omega : 0 < ub)
  have he : (fibonacciBase ub)[i]? = some
      (Real.sqrt (((i : ℝ) + 1) / ub) * Real.cos (2 * Real.pi * ((i : ℝ) + 1) * ((1 + Real.sqrt 5) / 2)⁻¹),
       Real.sqrt (((i : ℝ) + 1) / ub) * Real.sin (2 * Real.pi * ((i : ℝ) + 1) * ((1 + Real.sqrt 5) / 2)⁻¹)) := by
    simp only [fibonacciBase, List.getElem?_map, List.getElem?_range (show i < ub - 1 by omega), Option.map_some]
  have hs := Real.sq_sqrt (show (0 : ℝ) ≤ ((i : ℝ) + 1) / ub by positivity)
  have hc := Real.sin_sq_add_cos_sq (2 * Real.pi * ((i : ℝ) + 1) * ((1 + Real.sqrt 5) / 2)⁻¹)
  have hr : (Real.sqrt (((i : ℝ) + 1) / ub) * Real.cos (2 * Real.pi * ((i : ℝ) + 1) * ((1 + Real.sqrt 5) / 2)⁻¹)) ^ 2 +
      (Real.sqrt (((i : ℝ) + 1) / ub) * Real.sin (2 * Real.pi * ((i : ℝ) + 1) * ((1 + Real.sqrt 5) / 2)⁻¹)) ^ 2 =
      ((i : ℝ) + 1) / ub := by
    generalize 2 * Real.pi * ((i : ℝ) + 1) * ((1 + Real.sqrt 5) / 2)⁻¹ = b at hc ⊢
    calc _ = Real.sqrt (((i : ℝ) + 1) / ub) ^ 2 * (Real.sin b ^ 2 + Real.cos b ^ 2) := by ring
      _ = _ := by rw [hs, hc, mul_one]
  refine ⟨_, he, hr, ?_⟩
  rw [hr, div_lt_one hu]
  exact_mod_cast hi

/-- **C87.** The parameters of the Archimedean spiral satisfy `8 k ≤ β² + 2 β` and `β² ≤ 16 k + 16`, so that the radius grows
like the square root of the index. -/
theorem C87_archimedean_growth (k : Nat) :
    archimedeanBeta k ^ 2 ≤ 16 * k + 16 ∧ 8 * (k : ℝ) ≤ archimedeanBeta k ^ 2 + 2 * archimedeanBeta k := by
  have h0 := archimedeanBeta_nonneg
  constructor
  · have key : ∀ k : Nat, (archimedeanBeta k) ^ 2 ≤ 16 * k + 16 := by
      intro k
      rcases k with _ | _ | k
      · simp [archimedeanBeta]
      · norm_num [archimedeanBeta]
      · have h4 : ∀ j : Nat, 4 ≤ archimedeanBeta (j + 1) ∧ archimedeanBeta (j + 1) ^ 2 ≤ 16 * ((j : ℝ) + 1) + 16 := by
          intro j
          induction j with
          | zero => norm_num [archimedeanBeta]
          | succ j ih =>
            obtain ⟨i1, i2⟩ := ih
            rw [archimedeanBeta]
            set b := archimedeanBeta (j + 1) with hb
            have hd : 8 / (b + 2) * (b + 2) = 8 := div_mul_cancel₀ _ (by linarith)
            have hp : 0 < 8 / (b + 2) := by positivity
            set e := 8 / (b + 2) with he
            refine ⟨by linarith, ?_⟩
            have he2 : e ≤ 4 / 3 := by nlinarith
            push_cast
            nlinarith
        have := (h4 (k + 1)).2
        push_cast at this ⊢
        linarith
    exact key k
  · induction k with
    | zero => simp [archimedeanBeta]
    | succ k ih =>
      have hb := h0 k
      rw [archimedeanBeta]
      set b := archimedeanBeta k with hb'
      have hd : 8 / (b + 2) * (b + 2) = 8 := div_mul_cancel₀ _ (by linarith)
      have hp : 0 < 8 / (b + 2) := by positivity
      set e := 8 / (b + 2) with he
      push_cast
      nlinarith

/-- **C87.** The bounds between which `UniformRandomSampler` draws contain the convex hull of the given points, and are
attained. -/
theorem C87_bounds {pts : List (ℝ × ℝ)} (hne : pts ≠ []) :
    ∃ a b c d, createBounds pts = .ok ((a, b), (c, d)) ∧
      (∀ p ∈ convexHull ℝ {q | q ∈ pts}, a ≤ p.1 ∧ p.1 ≤ b ∧ c ≤ p.2 ∧ p.2 ≤ d) ∧
      a ∈ pts.map Prod.fst ∧ b ∈ pts.map Prod.fst ∧ c ∈ pts.map Prod.snd ∧ d ∈ pts.map Prod.snd := by
  obtain ⟨q, qs, rfl⟩ := List.exists_cons_of_ne_nil hne
  obtain ⟨a1, a2⟩ := foldl_min_spec (qs.map Prod.fst) q.1
  obtain ⟨b1, b2⟩ := foldl_max_spec (qs.map Prod.fst) q.1
  obtain ⟨c1, c2⟩ := foldl_min_spec (qs.map Prod.snd) q.2
  obtain ⟨d1, d2⟩ := foldl_max_spec (qs.map Prod.snd) q.2
  refine ⟨_, _, _, _, rfl, ?_, by simpa using a1, by simpa using b1, by simpa using c1, by simpa using d1⟩
  intro p hp
  have hconv : ∀ a b c d : ℝ, Convex ℝ {p : ℝ × ℝ | a ≤ p.1 ∧ p.1 ≤ b ∧ c ≤ p.2 ∧ p.2 ≤ d} := by
    intro a b c d x hx y hy s t hs ht hst
    obtain rfl : t = 1 - s := by linarith
    obtain ⟨x1, x2, x3, x4⟩ := hx
    obtain ⟨y1, y2, y3, y4⟩ := hy
    simp only [Set.mem_setOf_eq, Prod.fst_add, Prod.snd_add, Prod.smul_fst, Prod.smul_snd, smul_eq_mul]
    refine ⟨?_, ?_, ?_, ?_⟩ <;> nlinarith
  refine convexHull_min ?_ (hconv _ _ _ _) hp
  intro x hx
  have h1 : x.1 ∈ q.1 :: qs.map Prod.fst := by
    rcases List.mem_cons.1 hx with rfl | hx
    · simp
    · exact List.mem_cons_of_mem _ (List.mem_map_of_mem hx)
  have h2 : x.2 ∈ q.2 :: qs.map Prod.snd := by
    rcases List.mem_cons.1 hx with rfl | hx
    · simp
    · exact List.mem_cons_of_mem _ (List.mem_map_of_mem hx)
  exact ⟨a2 _ h1, b2 _ h1, c2 _ h2, d2 _ h2⟩

/-- **C87 is false** for points that are given together with their boat speeds: both samplers raise `ValueError` for
every array with three columns (and at least two rows). -/
theorem C87_columns_false (hull : Hull) (shuffle : List (ℝ × ℝ) → List (ℝ × ℝ)) (n fuel : Nat) {rows : List (List ℝ)}
    (hne : rows ≠ []) (h3 : ∀ r ∈ rows, r.length = 3) :
    fibonacci hull shuffle n fuel rows = some (.error .valueError) ∧
      archimedean hull shuffle n fuel rows = some (.error .valueError) := by
  obtain ⟨r, rs, rfl⟩ := List.exists_cons_of_ne_nil hne
  have hr := h3 r (by simp)
  have : toPlane (r :: rs) = .error .valueError := by
    match r, hr with
    | [x, y, z], _ => rfl
  constructor
  · simp [fibonacci, spiralSample, this]
  · simp only [archimedean, spiralSample, this]
    split_ifs <;> rfl

/-- **C87 is false** for `PointcloudExtension`, which hands all three columns of the data to its sampler: with a
Fibonacci or Archimedean sampler it raises `ValueError` for all data. -/
theorem C87_pointcloud_false (hull : Hull) (shuffle : List (ℝ × ℝ) → List (ℝ × ℝ)) (n fuel : Nat)
    (nbh : ℝ × ℝ → Bool) (interpolate : List (Interp.Pt ℝ × ℝ) → ℝ × ℝ → Except PyErr ℝ)
    {points : List (Interp.Pt ℝ × ℝ)} (hne : points ≠ [])
    {sample : List (Interp.Pt ℝ) → Except PyErr (List (ℝ × ℝ))}
    (hs : fibonacci hull shuffle n fuel (points.map fun p => [p.1.1.1, p.1.1.2, p.1.2]) =
        some (sample (points.map Prod.fst)) ∨
      archimedean hull shuffle n fuel (points.map fun p => [p.1.1.1, p.1.1.2, p.1.2]) =
        some (sample (points.map Prod.fst))) :
    Ext.cloudProcess sample nbh interpolate points = .error .valueError := by
  have key : sample (points.map Prod.fst) = .error .valueError := by
    have h := C87_columns_false hull shuffle n fuel
      (rows := points.map fun p => [p.1.1.1, p.1.1.2, p.1.2]) (by simpa using hne) (by
        intro r hr
        obtain ⟨p, -, rfl⟩ := List.mem_map.1 hr
        rfl)
    rcases hs with hs | hs
    · rw [h.1] at hs
      exact (Option.some.inj hs).symm
    · rw [h.2] at hs
      exact (Option.some.inj hs).symm
  simp [Ext.cloudProcess, key, bind, Except.bind]

theorem circleLoop_stay (pts : List (ℝ × ℝ)) (eps : ℝ) (c : Circle) (h : ∀ p ∈ pts, isInCircle p c eps) :
    ∀ fuel i j k, circleLoop pts eps fuel i j k c = none ∨ circleLoop pts eps fuel i j k c = some (.ok c) := by
  intro fuel
  induction fuel with
  | zero => intro i j k; exact Or.inl rfl
  | succ fuel ih =>
    intro i j k
    rw [circleLoop]
    cases hp : pts[i]? with
    | none => exact Or.inr rfl
    | some p =>
      simp only [h p (List.mem_of_getElem? hp), if_true]
      exact ih _ _ _

theorem makeCircle_close {p : ℝ × ℝ} {pts : List (ℝ × ℝ)} {eps : ℝ} (heps : 0 < eps)
    (h0 : eps ≤ norm2 p) (h : ∀ q ∈ pts, norm2 (q.1 - p.1, q.2 - p.2) < eps) (fuel : Nat) :
    makeCircle (p :: pts) eps fuel = none ∨ makeCircle (p :: pts) eps fuel = some (.ok (p, 0)) := by
  unfold makeCircle
  simp only [smallCircle]
  cases fuel with
  | zero => exact Or.inl rfl
  | succ fuel =>
    rw [circleLoop]
    have hn : ¬ isInCircle p ((0, 0), 0) eps := by
      simpa [isInCircle] using h0
    simp only [List.getElem?_cons_zero, hn, if_false, if_true, List.filterMap_cons, List.filterMap_nil, smallCircle]
    refine circleLoop_stay _ _ _ ?_ fuel _ _ _
    intro q hq
    rcases List.mem_cons.1 hq with rfl | hq
    · simpa [isInCircle, norm2] using heps
    · simpa [isInCircle] using h q hq

/-- **C87 is false** for points that are very close together: if all points have a distance less than `1/10000` to the
first point of the shuffled array, then the radius of the circle is zero, and neither sampler ever returns (unless
exactly 9, respectively 11, samples are requested). -/
theorem C87_close_diverges {hull : Hull} {shuffle : List (ℝ × ℝ) → List (ℝ × ℝ)} {n : Nat}
    {p : ℝ × ℝ} {pts qs : List (ℝ × ℝ)} {vol : ℝ} {ineqs : List (Facet ℝ)} (hh : hull pts = .ok (vol, ineqs))
    (hvol : 0 < vol) (hsh : shuffle pts = p :: qs) (hin : Inside ineqs p) (h0 : 1 / 10000 ≤ norm2 p)
    (hclose : ∀ q ∈ qs, norm2 (q.1 - p.1, q.2 - p.2) < 1 / 10000) (fuel : Nat) :
    (n ≠ 9 → fibonacci hull shuffle n fuel (rowsOf pts) = none) ∧
      (n ≠ 11 → 2 ≤ pts.length → archimedean hull shuffle n fuel (rowsOf pts) = none) := by
  have key : ∀ base : Nat → List (ℝ × ℝ), n ≠ (base 10).length →
      spiralSample base hull shuffle n fuel (rowsOf pts) = none := by
    intro base hn
    unfold spiralSample
    simp only [rowsOf, toPlane_rows, hsh]
    rcases makeCircle_close (by norm_num) h0 hclose fuel with hc | hc
    · rw [hc]
    · rw [hc]
      simp only [hh, hvol.ne', if_false, Option.map_eq_none_iff]
      have hub : upperBound 0 vol n = 10 := by simp [upperBound]
      rw [hub]
      refine rescaleLoop_zero n _ ?_ fuel none (by simp)
      have : sampleGenerator (base 10) p ineqs 0 = (base 10).map fun _ => p := by
        unfold sampleGenerator
        rw [List.filter_eq_self.2]
        · simp
        · intro q hq
          obtain ⟨b, -, rfl⟩ := List.mem_map.1 hq
          simpa using (inHull_iff ineqs p).2 hin
      rw [this, List.length_map]
      exact hn.symm
  constructor
  · intro hn
    exact key _ (by simpa [fibonacciBase] using hn)
  · intro hn hl
    unfold archimedean
    rw [if_neg (by simp only [rowsOf, List.length_map]; omega)]
    exact key _ (by simpa [archimedeanBase] using hn)

/-- **C87 is false** for two points: the check that there are at least three points lets two points pass, so that the
exception is the one raised by the convex hull instead of a `ValueError`. -/
theorem C87_two_points_false {hull : Hull} {shuffle : List (ℝ × ℝ) → List (ℝ × ℝ)} {n fuel : Nat} {pts : List (ℝ × ℝ)}
    (hl : pts.length = 2) {e : PyErr} (hh : hull pts = .error e) {c : Circle}
    (hc : makeCircle (shuffle pts) (1 / 10000) fuel = some (.ok c)) :
    archimedean hull shuffle n fuel (rowsOf pts) = some (.error e) := by
  unfold archimedean
  rw [if_neg (by simp [rowsOf, hl])]
  unfold spiralSample
  simp only [rowsOf, toPlane_rows, hc, hh]

/-! ### A triangle -/

/-- Three points; the midpoint of their enclosing circle lies on the longest side. -/
def triangle : List (ℝ × ℝ) := [(1, 0), (3, 0), (2, 1)]

/-- The facets of their convex hull. -/
def triangleFacets : List (Facet ℝ) := [(0, -1, 0), (1, 1, -3), (-1, 1, 1)]

/-- The convex hull of the triangle; its area is one. -/
noncomputable def triangleHull : Hull := fun pts =>
  open Classical in if pts = triangle then .ok (1, triangleFacets) else .error .otherError

theorem triangle_inside (p : ℝ × ℝ) :
    Inside triangleFacets p ↔ 0 ≤ p.2 ∧ p.1 + p.2 ≤ 3 ∧ 1 + p.2 ≤ p.1 := by
  constructor
  · intro h
    have h1 := h 0 (-1) 0 (by simp [triangleFacets])
    have h2 := h 1 1 (-3) (by simp [triangleFacets])
    have h3 := h (-1) 1 1 (by simp [triangleFacets])
    refine ⟨by linarith, by linarith, by linarith⟩
  · rintro ⟨h1, h2, h3⟩ a b c hm
    simp only [triangleFacets, List.mem_cons, Prod.mk.injEq, List.not_mem_nil, or_false] at hm
    rcases hm with ⟨rfl, rfl, rfl⟩ | ⟨rfl, rfl, rfl⟩ | ⟨rfl, rfl, rfl⟩ <;> linarith

theorem triangle_isHull : IsHull triangle triangleFacets := by
  intro p
  rw [triangle_inside]
  constructor
  · rintro ⟨h1, h2, h3⟩
    have hmem : ∀ q ∈ triangle, q ∈ convexHull ℝ {q | q ∈ triangle} := fun q hq => subset_convexHull ℝ _ hq
    have hc := convex_convexHull ℝ {q | q ∈ triangle}
    have := hc.sum_mem (t := Finset.univ) (w := ![(3 - p.1 - p.2) / 2, (p.1 - p.2 - 1) / 2, p.2])
      (z := ![((1, 0) : ℝ × ℝ), (3, 0), (2, 1)]) (by
        intro i _
        fin_cases i
        · simp; linarith
        · simp; linarith
        · simpa using h1) (by simp [Fin.sum_univ_three]; ring) (by
        intro i _
        fin_cases i
        · exact hmem _ (by simp [triangle])
        · exact hmem _ (by simp [triangle])
        · exact hmem _ (by simp [triangle]))
    have he : p = (∑ i, (![(3 - p.1 - p.2) / 2, (p.1 - p.2 - 1) / 2, p.2] : Fin 3 → ℝ) i •
        (![((1, 0) : ℝ × ℝ), (3, 0), (2, 1)] : Fin 3 → ℝ × ℝ) i) := by
      simp only [Fin.sum_univ_three]
      ext
      · simp; ring
      · simp
    rw [he]
    exact this
  · intro hp
    have hconv : Convex ℝ {p : ℝ × ℝ | 0 ≤ p.2 ∧ p.1 + p.2 ≤ 3 ∧ 1 + p.2 ≤ p.1} := by
      intro x hx y hy s t hs ht hst
      obtain rfl : t = 1 - s := by linarith
      obtain ⟨x1, x2, x3⟩ := hx
      obtain ⟨y1, y2, y3⟩ := hy
      simp only [Set.mem_setOf_eq, Prod.fst_add, Prod.snd_add, Prod.smul_fst, Prod.smul_snd, smul_eq_mul]
      refine ⟨?_, ?_, ?_⟩ <;> nlinarith
    refine convexHull_min ?_ hconv hp
    intro q hq
    simp only [triangle, Set.mem_setOf_eq, List.mem_cons, List.not_mem_nil, or_false] at hq
    rcases hq with rfl | rfl | rfl <;> norm_num

theorem triangle_circle (fuel : Nat) : makeCircle triangle (1 / 10000) (fuel + 8) = some (.ok ((2, 0), 1)) := by
  have n1 : ∀ x : ℝ, norm2 (x, 0) = |x| := fun x => by simp [norm2, Real.sqrt_sq_eq_abs]
  have n2 : ∀ x : ℝ, norm2 (0, x) = |x| := fun x => by simp [norm2, Real.sqrt_sq_eq_abs]
  have c1 : circle2 (3, 0) (1, 0) = ((2, 0), 1) := by
    simp only [circle2]
    norm_num [n1]
  have i1 : ¬ isInCircle (1, 0) ((0, 0), 0) (1 / 10000) := by norm_num [isInCircle, n1]
  have i2 : isInCircle (1, 0) ((1, 0), 0) (1 / 10000) := by norm_num [isInCircle, n1]
  have i3 : ¬ isInCircle (3, 0) ((1, 0), 0) (1 / 10000) := by norm_num [isInCircle, n1]
  have i4 : ¬ isInCircle (1, 0) ((3, 0), 0) (1 / 10000) := by norm_num [isInCircle, n1]
  have i5 : isInCircle (1, 0) ((2, 0), 1) (1 / 10000) := by norm_num [isInCircle, n1]
  have i6 : isInCircle (3, 0) ((2, 0), 1) (1 / 10000) := by norm_num [isInCircle, n1]
  have i7 : isInCircle (2, 1) ((2, 0), 1) (1 / 10000) := by norm_num [isInCircle, n2]
  generalize (1 / 10000 : ℝ) = eps at *
  simp [makeCircle, circleLoop, triangle, smallCircle, i1, i2, i3, i4, i5, i6, i7, c1]

theorem triangle_disc {p : ℝ × ℝ} (h : Inside triangleFacets p) : (p.1 - 2) ^ 2 + p.2 ^ 2 ≤ 1 := by
  obtain ⟨h1, h2, h3⟩ := (triangle_inside p).1 h
  rcases le_total 2 p.1 with h | h <;> nlinarith

/-- One sample of the Archimedean sampler in the triangle. -/
theorem triangle_archimedean : archimedean triangleHull id 1 8 (rowsOf triangle) = some (.ok [(2, 0)]) := by
  unfold archimedean
  rw [if_neg (by simp [rowsOf, triangle])]
  unfold spiralSample
  simp only [rowsOf, toPlane_rows, id, triangle_circle 0, triangleHull, if_true, one_ne_zero, if_false]
  have key : ∀ ub, sampleGenerator (archimedeanBase ub) (2, 0) triangleFacets 1 = [(2, 0)] := by
    intro ub
    unfold sampleGenerator archimedeanBase
    rw [List.range_succ_eq_map]
    simp only [List.map_cons, List.map_map, archimedeanBeta, zero_mul, mul_zero, add_zero]
    rw [List.filter_cons_of_pos, List.filter_eq_nil_iff.2]
    · intro q hq
      obtain ⟨k, -, rfl⟩ := List.mem_map.1 hq
      rw [inHull_iff]
      intro h
      have h1 := triangle_disc h
      simp only [Function.comp_def] at h1
      have hb : 4 ≤ archimedeanBeta (k + 1) := by
        have := archimedeanBeta_strictMono.monotone (show 1 ≤ k + 1 by omega)
        refine le_trans ?_ this
        norm_num [archimedeanBeta]
      rw [show Nat.succ k = k + 1 from rfl] at h1
      generalize archimedeanBeta (k + 1) = b at h1 hb
      have hc := Real.sin_sq_add_cos_sq b
      have : (2 + 1 * (b * Real.cos b) - 2) ^ 2 + (0 + 1 * (b * Real.sin b)) ^ 2 = b ^ 2 := by
        calc _ = b ^ 2 * (Real.sin b ^ 2 + Real.cos b ^ 2) := by ring
          _ = _ := by rw [hc, mul_one]
      rw [this] at h1
      nlinarith
    · rw [inHull_iff, triangle_inside]
      norm_num
  unfold binaryRescale
  rw [key, rescaleLoop]
  simp

example : ([(2, 0)] : List (ℝ × ℝ)).length = 1 ∧ ([(2, 0)] : List (ℝ × ℝ)).Nodup ∧ ∀ p ∈ ([(2, 0)] : List (ℝ × ℝ)),
    p ∈ convexHull ℝ {q | q ∈ triangle} ∧ Real.sqrt ((p.1 - 2) ^ 2 + (p.2 - 0) ^ 2) ≤ 1 + 1 / 10000 :=
  C87_archimedean (hull := triangleHull) (shuffle := id) (fun l => List.Perm.refl l) (fuel := 8)
    (by rw [triangleHull, if_pos rfl]) triangle_isHull (triangle_circle 0) one_pos triangle_archimedean

/-- The angles of the Fibonacci spiral up to full turns. -/
theorem fibonacci_angle (i : ℝ) :
    2 * Real.pi * i * ((1 + Real.sqrt 5) / 2)⁻¹ = Real.pi * (i * (Real.sqrt 5 - 1)) := by
  have h5 : Real.sqrt 5 ^ 2 = 5 := Real.sq_sqrt (by norm_num)
  have hp : 0 < Real.sqrt 5 := Real.sqrt_pos.2 (by norm_num)
  field_simp
  linear_combination (-i) * h5

theorem sqrt5_bounds : 2.236 < Real.sqrt 5 ∧ Real.sqrt 5 < 2.2361 := by
  constructor
  · rw [Real.lt_sqrt (by norm_num)]; norm_num
  · rw [Real.sqrt_lt' (by norm_num)]; norm_num

/-- One sample of the Fibonacci sampler in the triangle: the second point of the spiral, scaled by two. -/
theorem triangle_fibonacci : ∃ p, fibonacci triangleHull id 1 8 (rowsOf triangle) = some (.ok [p]) := by
  obtain ⟨s1, s2⟩ := sqrt5_bounds
  have hpi := Real.pi_pos
  have hub : upperBound 1 1 1 = 13 := by
    have : ⌊Real.pi * 1 ^ 2 * ((1 : Nat) : ℝ) / 1⌋ = 3 := by
      rw [Int.floor_eq_iff]
      have := Real.pi_gt_three
      have := Real.pi_lt_four
      constructor <;> norm_num <;> linarith
    simp only [upperBound, this]
    rfl
  set f : Nat → ℝ × ℝ := fun k => (Real.sqrt (((k : ℝ) + 1) / (13 : Nat)) *
      Real.cos (Real.pi * (((k : ℝ) + 1) * (Real.sqrt 5 - 1))),
    Real.sqrt (((k : ℝ) + 1) / (13 : Nat)) * Real.sin (Real.pi * (((k : ℝ) + 1) * (Real.sqrt 5 - 1)))) with hf
  have hbase : fibonacciBase 13 = (List.range 12).map f := by
    simp only [fibonacciBase, fibonacci_angle, hf]
  have hnorm : ∀ k, (f k).1 ^ 2 + (f k).2 ^ 2 = ((k : ℝ) + 1) / 13 := by
    intro k
    have hs := Real.sq_sqrt (show (0 : ℝ) ≤ ((k : ℝ) + 1) / (13 : Nat) by positivity)
    have hc := Real.sin_sq_add_cos_sq (Real.pi * (((k : ℝ) + 1) * (Real.sqrt 5 - 1)))
    simp only [hf]
    generalize Real.pi * (((k : ℝ) + 1) * (Real.sqrt 5 - 1)) = b at hc
    calc _ = Real.sqrt (((k : ℝ) + 1) / (13 : Nat)) ^ 2 * (Real.sin b ^ 2 + Real.cos b ^ 2) := by ring
      _ = _ := by rw [hs, hc, mul_one]; norm_num
  have hsqrt : ∀ k : Nat, 0 < Real.sqrt (((k : ℝ) + 1) / (13 : Nat)) := fun k => Real.sqrt_pos.2 (by positivity)
  have hshift : ∀ (x : ℝ) (n : ℤ), Real.sin (Real.pi * x) = Real.sin (Real.pi * (x - 2 * n)) := by
    intro x n
    rw [show Real.pi * (x - 2 * n) = Real.pi * x - n * (2 * Real.pi) by ring, Real.sin_sub_int_mul_two_pi]
  have hshiftc : ∀ (x : ℝ) (n : ℤ), Real.cos (Real.pi * x) = Real.cos (Real.pi * (x - 2 * n)) := by
    intro x n
    rw [show Real.pi * (x - 2 * n) = Real.pi * x - n * (2 * Real.pi) by ring, Real.cos_sub_int_mul_two_pi]
  have hneg : ∀ (k : Nat) (n : ℤ), 1 < ((k : ℝ) + 1) * (Real.sqrt 5 - 1) - 2 * n →
      ((k : ℝ) + 1) * (Real.sqrt 5 - 1) - 2 * n < 2 → (f k).2 < 0 := by
    intro k n h1 h2
    have h3 : Real.sin (Real.pi * (((k : ℝ) + 1) * (Real.sqrt 5 - 1))) < 0 := by
      rw [hshift _ n, show Real.pi * (((k : ℝ) + 1) * (Real.sqrt 5 - 1) - 2 * n) =
        Real.pi * (((k : ℝ) + 1) * (Real.sqrt 5 - 1) - 2 * n - 2) + 2 * Real.pi by ring, Real.sin_add_two_pi]
      exact Real.sin_neg_of_neg_of_neg_pi_lt (by nlinarith) (by nlinarith)
    have := hsqrt k
    simp only [hf]
    nlinarith
  have hpos : ∀ (k : Nat) (n : ℤ), 0 < ((k : ℝ) + 1) * (Real.sqrt 5 - 1) - 2 * n →
      ((k : ℝ) + 1) * (Real.sqrt 5 - 1) - 2 * n < 1 → 0 < (f k).2 := by
    intro k n h1 h2
    have h3 : 0 < Real.sin (Real.pi * (((k : ℝ) + 1) * (Real.sqrt 5 - 1))) := by
      rw [hshift _ n]
      exact Real.sin_pos_of_pos_of_lt_pi (by positivity) (by nlinarith)
    have := hsqrt k
    simp only [hf]
    positivity
  have n0 : (f 0).2 < 0 := hneg 0 0 (by push_cast; linarith) (by push_cast; linarith)
  have n2 : (f 2).2 < 0 := hneg 2 1 (by push_cast; linarith) (by push_cast; linarith)
  have p1 : 0 < (f 1).2 := hpos 1 1 (by push_cast; linarith) (by push_cast; linarith)
  have p3 : 0 < (f 3).2 := hpos 3 2 (by push_cast; linarith) (by push_cast; linarith)
  have hin : ∀ (t : ℝ) (p : ℝ × ℝ), inHull triangleFacets (2 + t * p.1, 0 + t * p.2) = true ↔
      0 ≤ t * p.2 ∧ t * p.1 + t * p.2 ≤ 1 ∧ t * p.2 ≤ 1 + t * p.1 := by
    intro t p
    rw [inHull_iff, triangle_inside]
    constructor
    · rintro ⟨h1, h2, h3⟩
      exact ⟨by linarith, by linarith, by linarith⟩
    · rintro ⟨h1, h2, h3⟩
      exact ⟨by linarith, by linarith, by linarith⟩
  -- the unscaled spiral has at least two points in the triangle
  have hsmall : ∀ (a b c : ℝ), a ^ 2 + b ^ 2 = c → c ≤ 1 / 2 → a + b ≤ 1 ∧ b ≤ 1 + a := by
    intro a b c h hc
    constructor
    · nlinarith [sq_nonneg (a - b), sq_nonneg (a + b - 1)]
    · nlinarith [sq_nonneg (a + b), sq_nonneg (b - a - 1)]
  have i1 : inHull triangleFacets (2 + 1 * (f 1).1, 0 + 1 * (f 1).2) = true := by
    rw [hin]
    obtain ⟨h1, h2⟩ := hsmall _ _ _ (hnorm 1) (by norm_num)
    exact ⟨by linarith, by linarith, by linarith⟩
  have i3 : inHull triangleFacets (2 + 1 * (f 3).1, 0 + 1 * (f 3).2) = true := by
    rw [hin]
    obtain ⟨h1, h2⟩ := hsmall _ _ _ (hnorm 3) (by norm_num)
    exact ⟨by linarith, by linarith, by linarith⟩
  have hcount : 1 < (sampleGenerator ((List.range 12).map f) (2, 0) triangleFacets 1).length := by
    have hsub : [(2 + 1 * (f 1).1, 0 + 1 * (f 1).2), (2 + 1 * (f 3).1, 0 + 1 * (f 3).2)].Sublist
        (sampleGenerator ((List.range 12).map f) (2, 0) triangleFacets 1) := by
      have hl : [1, 3].Sublist (List.range 12) := by decide
      have h2 := ((hl.map f).map fun p => ((2 : ℝ) + 1 * p.1, (0 : ℝ) + 1 * p.2)).filter (inHull triangleFacets)
      simp only [List.map_cons, List.map_nil, List.filter_cons, List.filter_nil, i1, i3, if_true] at h2
      exact h2
    exact hsub.length_le
  -- scaled by two only one point is left
  have hlarge : ∀ k, 3 ≤ k → inHull triangleFacets (2 + 1 * 2 * (f k).1, 0 + 1 * 2 * (f k).2) = false := by
    intro k hk
    rw [Bool.eq_false_iff]
    intro h
    have h1 := triangle_disc ((inHull_iff _ _).1 h)
    have h2 := hnorm k
    have h3 : (3 : ℝ) ≤ k := by exact_mod_cast hk
    simp only at h1
    nlinarith
  have o0 : inHull triangleFacets (2 + 1 * 2 * (f 0).1, 0 + 1 * 2 * (f 0).2) = false := by
    rw [Bool.eq_false_iff, Ne, hin]
    rintro ⟨h1, -, -⟩
    linarith
  have o2 : inHull triangleFacets (2 + 1 * 2 * (f 2).1, 0 + 1 * 2 * (f 2).2) = false := by
    rw [Bool.eq_false_iff, Ne, hin]
    rintro ⟨h1, -, -⟩
    linarith
  have j1 : inHull triangleFacets (2 + 1 * 2 * (f 1).1, 0 + 1 * 2 * (f 1).2) = true := by
    rw [hin]
    have hx : |(f 1).1| ≤ 1 / 20 := by
      have hsq : Real.sqrt ((((1 : Nat) : ℝ) + 1) / (13 : Nat)) ≤ 2 / 5 := by
        rw [Real.sqrt_le_left (by norm_num)]; norm_num
      have hcos : |Real.cos (Real.pi * ((((1 : Nat) : ℝ) + 1) * (Real.sqrt 5 - 1)))| ≤ 1 / 10 := by
        rw [hshiftc _ 1, show Real.pi * ((((1 : Nat) : ℝ) + 1) * (Real.sqrt 5 - 1) - 2 * ((1 : ℤ) : ℝ)) =
          Real.pi / 2 - Real.pi * (9 / 2 - 2 * Real.sqrt 5) by push_cast; ring, Real.cos_pi_div_two_sub]
        have h0 : 0 ≤ Real.pi * (9 / 2 - 2 * Real.sqrt 5) := mul_nonneg hpi.le (by linarith)
        rw [abs_of_nonneg (Real.sin_nonneg_of_nonneg_of_le_pi h0 (by nlinarith))]
        refine le_trans (Real.sin_le h0) ?_
        have := Real.pi_lt_d2
        nlinarith
      simp only [hf, abs_mul, abs_of_pos (hsqrt 1)]
      have := abs_nonneg (Real.cos (Real.pi * ((((1 : Nat) : ℝ) + 1) * (Real.sqrt 5 - 1))))
      nlinarith [hsqrt 1]
    have hy : (f 1).2 ≤ 2 / 5 := by
      have := hnorm 1
      norm_num at this
      nlinarith [sq_nonneg (f 1).1]
    obtain ⟨h1, h2⟩ := abs_le.1 hx
    exact ⟨by linarith, by linarith, by linarith⟩
  have htwo : sampleGenerator ((List.range 12).map f) (2, 0) triangleFacets (1 * 2) =
      [(2 + 1 * 2 * (f 1).1, 0 + 1 * 2 * (f 1).2)] := by
    have hr : List.range 12 = [0, 1, 2] ++ (List.range 9).map (· + 3) := by decide
    unfold sampleGenerator
    rw [hr]
    simp only [List.map_append, List.map_cons, List.map_nil, List.map_map, List.filter_append, List.filter_cons,
      List.filter_nil, o0, o2, j1, if_true]
    rw [List.filter_eq_nil_iff.2]
    · simp
    · intro q hq
      obtain ⟨k, -, rfl⟩ := List.mem_map.1 hq
      simpa using hlarge (k + 3) (by omega)
  refine ⟨(2 + 1 * 2 * (f 1).1, 0 + 1 * 2 * (f 1).2), ?_⟩
  unfold fibonacci spiralSample
  simp only [rowsOf, toPlane_rows, id, triangle_circle 0, triangleHull, if_true, one_ne_zero, if_false, hub, hbase]
  unfold binaryRescale
  rw [rescaleLoop, if_pos hcount.ne']
  simp only [hcount, if_true, htwo]
  rw [rescaleLoop]
  simp

example : ∃ out : List (ℝ × ℝ), out.length = 1 ∧ out.Nodup ∧ ∀ p ∈ out, p ∈ convexHull ℝ {q | q ∈ triangle} ∧
    Real.sqrt ((p.1 - 2) ^ 2 + (p.2 - 0) ^ 2) ≤ 1 + 1 / 10000 := by
  obtain ⟨p, hp⟩ := triangle_fibonacci
  exact ⟨[p], C87_fibonacci (hull := triangleHull) (shuffle := id) (fun l => List.Perm.refl l) (fuel := 8)
    (by rw [triangleHull, if_pos rfl]) triangle_isHull (triangle_circle 0) one_pos hp⟩

example : ∃ p, (fibonacciBase 13)[1]? = some p ∧ p.1 ^ 2 + p.2 ^ 2 = ((1 : Nat) + 1 : ℝ) / (13 : Nat) ∧
    p.1 ^ 2 + p.2 ^ 2 < 1 := C87_fibonacci_radii 13 1 (by norm_num)

example : archimedeanBeta 2 = 4 + 8 / 6 := by norm_num [archimedeanBeta]

example : createBounds triangle = .ok ((1, 3), (0, 1)) := by
  norm_num [createBounds, triangle]

example : fibonacci triangleHull id 1 8 [[1, 0, 5], [3, 0, 6], [2, 1, 7]] = some (.error .valueError) :=
  (C87_columns_false _ _ _ _ (by simp) (by simp)).1

example : Ext.cloudProcess (fun _ => .error .valueError) (fun _ => true) (fun _ _ => .ok (1 : ℝ))
    [(((1, 0), 5), (1 : ℝ)), (((3, 0), 6), 1), (((2, 1), 7), 1)] = .error .valueError :=
  C87_pointcloud_false triangleHull id 1 8 _ _ (by simp)
    (Or.inl (C87_columns_false _ _ _ _ (by simp) (by simp)).1)

/-- Three points within less than the tolerance. -/
example (fuel : Nat) : fibonacci (fun _ => .ok (1 / 800000000, [(-1, 0, 5), (0, -1, 0), (1, 1, -100001 / 20000)])) id 100
    fuel (rowsOf [(5, 0), (5 + 1 / 20000, 0), (5, 1 / 20000)]) = none := by
  have n1 : ∀ x : ℝ, norm2 (x, 0) = |x| := fun x => by simp [norm2, Real.sqrt_sq_eq_abs]
  have n2 : ∀ x : ℝ, norm2 (0, x) = |x| := fun x => by simp [norm2, Real.sqrt_sq_eq_abs]
  refine (C87_close_diverges (hull := fun _ => .ok (1 / 800000000, [(-1, 0, 5), (0, -1, 0), (1, 1, -100001 / 20000)]))
    (shuffle := id) (n := 100) (pts := [(5, 0), (5 + 1 / 20000, 0), (5, 1 / 20000)]) (p := (5, 0)) (qs := [(5 + 1 / 20000, 0), (5, 1 / 20000)])
    (vol := 1 / 800000000) (ineqs := [(-1, 0, 5), (0, -1, 0), (1, 1, -100001 / 20000)]) rfl (by norm_num) rfl ?_ ?_ ?_
    fuel).1 (by norm_num)
  · intro a b c hm
    simp only [List.mem_cons, Prod.mk.injEq, List.not_mem_nil, or_false] at hm
    rcases hm with ⟨rfl, rfl, rfl⟩ | ⟨rfl, rfl, rfl⟩ | ⟨rfl, rfl, rfl⟩ <;> norm_num
  · norm_num [n1]
  · intro q hq
    simp only [List.mem_cons, List.not_mem_nil, or_false] at hq
    rcases hq with rfl | rfl
    · norm_num [n1]
    · norm_num [n2]

/-- Two points; their convex hull is degenerate. -/
example : archimedean (fun _ => .error .otherError) id 1 8 (rowsOf [(1, 0), (3, 0)]) = some (.error .otherError) := by
  have n1 : ∀ x : ℝ, norm2 (x, 0) = |x| := fun x => by simp [norm2, Real.sqrt_sq_eq_abs]
  have c1 : circle2 (3, 0) (1, 0) = ((2, 0), 1) := by
    simp only [circle2]
    norm_num [n1]
  have i1 : ¬ isInCircle (1, 0) ((0, 0), 0) (1 / 10000) := by norm_num [isInCircle, n1]
  have i2 : isInCircle (1, 0) ((1, 0), 0) (1 / 10000) := by norm_num [isInCircle, n1]
  have i3 : ¬ isInCircle (3, 0) ((1, 0), 0) (1 / 10000) := by norm_num [isInCircle, n1]
  have i4 : ¬ isInCircle (1, 0) ((3, 0), 0) (1 / 10000) := by norm_num [isInCircle, n1]
  have i5 : isInCircle (1, 0) ((2, 0), 1) (1 / 10000) := by norm_num [isInCircle, n1]
  have i6 : isInCircle (3, 0) ((2, 0), 1) (1 / 10000) := by norm_num [isInCircle, n1]
  refine C87_two_points_false rfl rfl (c := ((2, 0), 1)) ?_
  generalize (1 / 10000 : ℝ) = eps at *
  simp [makeCircle, circleLoop, smallCircle, i1, i2, i3, i4, i5, i6, c1]

end Verif.Sampler
