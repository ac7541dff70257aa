import Verif.Model.FloatIdw
import Verif.Props.FloatIsochrone
import Verif.Props.FloatWeather
import Verif.Props.Interpolator

/-!
# Property C156: inverse distance weighting in double precision
-/

set_option linter.unusedSectionVars false

namespace Verif.F64

open Verif.Interp

variable {K : Type} [Field K] [LinearOrder K] [IsStrictOrderedRing K] [FloorRing K]

theorem Dotted.length_pos {l : List (K × K)} {s : K} (h : Dotted l s) : 1 ≤ l.length := by
  induction h with
  | one x => simp
  | add _ _ h1 h2 => simp only [List.length_append]; omega
  | fma p _ h => simp
  | perm hp _ h => rw [← hp.length_eq]; exact h

theorem Dotted.exists {l : List (K × K)} (h : l ≠ []) : ∃ s, Dotted l s := by
  induction l with
  | nil => exact absurd rfl h
  | cons a l ih =>
    by_cases hl : l = []
    · subst hl
      exact ⟨_, .one a⟩
    · obtain ⟨s, hs⟩ := ih hl
      exact ⟨_, .fma a hs⟩

/-- The exact product of two vectors, given as pairs, and the sum of the absolute values. -/
def prodSum (l : List (K × K)) : K := (l.map fun p => p.1 * p.2).sum

/-- The sum of the absolute values of the products. -/
def absSum (l : List (K × K)) : K := (l.map fun p => |p.1 * p.2|).sum

theorem prodSum_le (l : List (K × K)) : |prodSum l| ≤ absSum l := by
  induction l with
  | nil => simp [prodSum, absSum]
  | cons p l ih =>
    simp only [prodSum, absSum, List.map_cons, List.sum_cons] at ih ⊢
    exact (abs_add_le _ _).trans (by linarith)

theorem absSum_nonneg (l : List (K × K)) : 0 ≤ absSum l := (abs_nonneg _).trans (prodSum_le l)

theorem growth {c S A : K} {n m : ℕ} (hm : 1 ≤ m) (hA : |S| ≤ A) (h : |c - S| ≤ ((1 + u K) ^ n - 1) * A) :
    u K * |c| + |c - S| ≤ ((1 + u K) ^ (n + m) - 1) * A := by
  have hu := u_pos (K := K)
  have hA0 : 0 ≤ A := (abs_nonneg S).trans hA
  have h3 : |c| ≤ (1 + u K) ^ n * A := by
    have : |c| ≤ |S| + |c - S| := by
      have := abs_add_le S (c - S)
      rwa [add_sub_cancel] at this
    linarith
  have h4 : (1 + u K) ^ (n + 1) ≤ (1 + u K) ^ (n + m) := pow_u_mono (by omega)
  have h5 := mul_le_mul_of_nonneg_right h4 hA0
  have h6 := mul_le_mul_of_nonneg_left h3 hu.le
  rw [pow_succ] at h5
  linarith

/-- The error of a product of vectors, whatever the order and however operations are fused. -/
theorem Dotted.error {l : List (K × K)} {s : K} (h : Dotted l s) :
    |s - prodSum l| ≤ ((1 + u K) ^ l.length - 1) * absSum l := by
  have hu := u_pos (K := K)
  induction h with
  | one p =>
    simp only [prodSum, absSum, List.map_cons, List.map_nil, List.sum_cons, List.sum_nil, add_zero, List.length_singleton,
      pow_one]
    have := fl_error' (p.1 * p.2)
    linarith
  | perm hp _ h =>
    have e1 := (hp.map fun p : K × K => p.1 * p.2).sum_eq
    have e2 := (hp.map fun p : K × K => |p.1 * p.2|).sum_eq
    rw [prodSum, absSum, ← e1, ← e2, ← hp.length_eq]
    exact h
  | @add l m a b ha hb h1 h2 =>
    have la := ha.length_pos
    have lb := hb.length_pos
    have e1 := growth lb (prodSum_le l) h1
    have e2 := growth la (prodSum_le m) h2
    rw [add_comm m.length] at e2
    have e0 := fl_error' (a + b)
    have e3 : u K * |a + b| ≤ u K * |a| + u K * |b| := by
      rw [← mul_add]
      exact mul_le_mul_of_nonneg_left (abs_add_le a b) hu.le
    have p1 : prodSum (l ++ m) = prodSum l + prodSum m := by simp [prodSum]
    have p2 : absSum (l ++ m) = absSum l + absSum m := by simp [absSum]
    rw [p1, p2, List.length_append, mul_add]
    have e4 : |fl (a + b) - (prodSum l + prodSum m)| ≤ |fl (a + b) - (a + b)| + |a - prodSum l| + |b - prodSum m| := by
      have : fl (a + b) - (prodSum l + prodSum m) = (fl (a + b) - (a + b)) + (a - prodSum l) + (b - prodSum m) := by ring
      rw [this]
      exact abs_add_three _ _ _
    linarith
  | @fma l a p ha h =>
    have e1 := growth (m := 1) le_rfl (prodSum_le l) h
    have e0 := fl_error' (p.1 * p.2 + a)
    have e3 : u K * |p.1 * p.2 + a| ≤ u K * |p.1 * p.2| + u K * |a| := by
      rw [← mul_add]
      exact mul_le_mul_of_nonneg_left (abs_add_le _ a) hu.le
    have p1 : prodSum (p :: l) = p.1 * p.2 + prodSum l := by simp [prodSum]
    have p2 : absSum (p :: l) = |p.1 * p.2| + absSum l := by simp [absSum]
    rw [p1, p2, List.length_cons, mul_add]
    have e4 : |fl (p.1 * p.2 + a) - (p.1 * p.2 + prodSum l)| ≤ |fl (p.1 * p.2 + a) - (p.1 * p.2 + a)| + |a - prodSum l| := by
      have : fl (p.1 * p.2 + a) - (p.1 * p.2 + prodSum l) = (fl (p.1 * p.2 + a) - (p.1 * p.2 + a)) + (a - prodSum l) := by
        ring
      rw [this]
      exact abs_add_le _ _
    have e5 : u K * |p.1 * p.2| ≤ ((1 + u K) ^ (l.length + 1) - 1) * |p.1 * p.2| := by
      refine mul_le_mul_of_nonneg_right ?_ (abs_nonneg _)
      have : (1 + u K) ^ 1 ≤ (1 + u K) ^ (l.length + 1) := pow_u_mono (by omega)
      linarith
    linarith

/-- Calculated weights, given by relative errors, and the product with the speeds. -/
theorem Near.dotted {ρ B : K} {w v : List K} (h : Near ρ w v) : ∀ {z : List K}, z.length = w.length → (∀ x ∈ z, |x| ≤ B) →
    |prodSum (v.zip z) - dot w z| ≤ ρ * B * w.sum ∧ absSum (v.zip z) ≤ (1 + ρ) * B * w.sum := by
  induction h with
  | nil => intro z _ _; simp [prodSum, absSum, dot]
  | @cons x y w v h _ ih =>
    intro z hz hB
    obtain ⟨a, z, rfl⟩ : ∃ a z', z = a :: z' := List.exists_cons_of_length_eq_add_one (by simpa using hz)
    obtain ⟨i1, i2⟩ := ih (z := z) (by simpa using hz) fun x hx => hB x (List.mem_cons_of_mem _ hx)
    have ha := hB a List.mem_cons_self
    have hB0 : 0 ≤ B := (abs_nonneg a).trans ha
    have hy : |y| ≤ (1 + ρ) * x := by
      have : |y| ≤ |x| + |y - x| := by
        have := abs_add_le x (y - x)
        rwa [add_sub_cancel] at this
      rw [abs_of_nonneg h.1] at this
      linarith [h.2]
    have e1 : |y * a - x * a| ≤ ρ * x * B := by
      rw [← sub_mul, abs_mul]
      exact mul_le_mul h.2 ha (abs_nonneg _) ((abs_nonneg _).trans h.2)
    have e2 : |y * a| ≤ (1 + ρ) * x * B := by
      rw [abs_mul]
      exact mul_le_mul hy ha (abs_nonneg _) ((abs_nonneg _).trans hy)
    have p1 : prodSum ((y :: v).zip (a :: z)) = y * a + prodSum (v.zip z) := by simp [prodSum]
    have p2 : absSum ((y :: v).zip (a :: z)) = |y * a| + absSum (v.zip z) := by simp [absSum]
    have p3 : dot (x :: w) (a :: z) = x * a + dot w z := by simp [dot]
    rw [p1, p2, p3, List.sum_cons]
    refine ⟨?_, ?_⟩
    · have : y * a + prodSum (v.zip z) - (x * a + dot w z) = (y * a - x * a) + (prodSum (v.zip z) - dot w z) := by ring
      rw [this]
      refine (abs_add_le _ _).trans ?_
      have : ρ * B * (x + w.sum) = ρ * x * B + ρ * B * w.sum := by ring
      rw [this]
      linarith
    · have : (1 + ρ) * B * (x + w.sum) = (1 + ρ) * x * B + (1 + ρ) * B * w.sum := by ring
      rw [this]
      linarith

/-- One normalised weight. -/
theorem normalised_weight {η σ S s x y : K} (hx : 0 ≤ x) (hS : 0 < S) (hy : |y - x| ≤ η * x) (hs : |s - S| ≤ σ * S)
    (hη0 : 0 ≤ η) (hη : η ≤ 1 / 8) (hσ0 : 0 ≤ σ) (hσ : σ ≤ 9 / 32) :
    0 ≤ x / S ∧ |fl (y / s) - x / S| ≤ (3 / 2 * (η + σ) + 2 * u K) * (x / S) := by
  have hu0 := u_pos (K := K)
  have hu := u_tiny (K := K)
  have hW : 0 ≤ x / S := div_nonneg hx hS.le
  refine ⟨hW, ?_⟩
  have hs' := abs_le.1 hs
  have hy' := abs_le.1 hy
  have hσS : σ * S ≤ 9 / 32 * S := mul_le_mul_of_nonneg_right hσ hS.le
  have hs0 : 23 / 32 * S ≤ s := by linarith [hs'.1]
  have hsp : 0 < s := lt_of_lt_of_le (by positivity) hs0
  have e1 : |y / s - x / S| ≤ 3 / 2 * (η + σ) * (x / S) := by
    have : y / s - x / S = ((y - x) * S - x * (s - S)) / (s * S) := by
      field_simp
      ring
    rw [this, abs_div, abs_of_pos (mul_pos hsp hS), div_le_iff₀ (mul_pos hsp hS)]
    have a1 : |(y - x) * S - x * (s - S)| ≤ η * x * S + x * (σ * S) := by
      refine (abs_sub _ _).trans ?_
      rw [abs_mul, abs_mul, abs_of_pos hS, abs_of_nonneg hx]
      have b1 := mul_le_mul_of_nonneg_right hy hS.le
      have b2 := mul_le_mul_of_nonneg_left hs hx
      linarith
    refine a1.trans ?_
    have a2 : 3 / 2 * (η + σ) * (x / S) * (s * S) = 3 / 2 * (η + σ) * x * s := by field_simp
    rw [a2]
    have a3 : (η + σ) * x * (2 / 3 * S) ≤ (η + σ) * x * s :=
      mul_le_mul_of_nonneg_left (by linarith) (by positivity)
    linarith
  have e2 := fl_error' (y / s)
  have e3 : |y / s| ≤ 2 * (x / S) := by
    have h1 : |y / s| ≤ |x / S| + |y / s - x / S| := by
      have := abs_add_le (x / S) (y / s - x / S)
      rwa [add_sub_cancel] at this
    rw [abs_of_nonneg hW] at h1
    have h2 : 3 / 2 * (η + σ) * (x / S) ≤ 1 * (x / S) := mul_le_mul_of_nonneg_right (by linarith) hW
    linarith
  have e4 : u K * |y / s| ≤ u K * (2 * (x / S)) := mul_le_mul_of_nonneg_left e3 hu0.le
  have : fl (y / s) - x / S = (fl (y / s) - y / s) + (y / s - x / S) := by ring
  rw [this]
  refine (abs_add_le _ _).trans ?_
  linarith

theorem Near.normalised {η σ S s : K} {w w' : List K} (h : Near η w w') (hS : 0 < S) (hs : |s - S| ≤ σ * S)
    (hη0 : 0 ≤ η) (hη : η ≤ 1 / 8) (hσ0 : 0 ≤ σ) (hσ : σ ≤ 9 / 32) :
    Near (3 / 2 * (η + σ) + 2 * u K) (w.map fun x => x / S) (w'.map fun y => fl (y / s)) := by
  induction h with
  | nil => exact .nil
  | cons h _ ih => exact .cons (normalised_weight h.1 hS h.2 hs hη0 hη hσ0 hσ) ih

/-- The weighted mean of IDW with weights that have relative errors of at most `η`. -/
theorem IdwMean.error {w w' z : List K} {η B x y : K} (hz : z.length = w.length) (hB : ∀ a ∈ z, |a| ≤ B)
    (hw : Near η w w') (hη0 : 0 ≤ η) (hη : η ≤ 1 / 8) (hlen : w.length ≤ 2 ^ 49) (hx : normalisedDot w z = some x)
    (hy : IdwMean w' z y) : |y - x| ≤ (5 * η + 14 * w.length * u K) * B := by
  have hu0 := u_pos (K := K)
  have hu := u_tiny (K := K)
  obtain ⟨s, hs, hd⟩ := hy
  have hl := List.Forall₂.length_eq hw
  have hpos := hs.length_pos
  rw [← hl] at hpos
  obtain ⟨S0, Sd, Sa⟩ := hw.sum
  have hSne : w.sum ≠ 0 := by
    intro h0
    simp [normalisedDot, h0] at hx
  have hS : 0 < w.sum := lt_of_le_of_ne S0 (Ne.symm hSne)
  have hx' : x = dot (w.map (· / w.sum)) z := by
    simp only [normalisedDot, if_neg hSne, Option.some.injEq] at hx
    exact hx.symm
  obtain ⟨c, hc⟩ : ∃ c : K, c = w.length := ⟨_, rfl⟩
  have hc1 : 1 ≤ c := by rw [hc]; exact_mod_cast hpos
  have hcu : c * u K ≤ 1 / 16 := by
    have h1 : c ≤ 2 ^ 49 := by rw [hc]; exact_mod_cast hlen
    have h2 := mul_le_mul_of_nonneg_right h1 hu0.le
    have h3 := u_mul (K := K)
    linarith
  have hpow : (1 + u K) ^ w.length ≤ 1 + 2 * c * u K := by
    rw [hc]
    exact pow_u_le (by rw [← hc]; linarith)
  -- the sum of the weights
  have hsum : |s - w.sum| ≤ (9 / 4 * (c * u K) + η) * w.sum := by
    have e1 := hs.error
    rw [← hl] at e1
    have e2 : ((1 + u K) ^ w.length - 1) * (w'.map abs).sum ≤ 2 * c * u K * ((1 + η) * w.sum) :=
      mul_le_mul (by linarith) Sa (sum_abs_nonneg _) (by positivity)
    have e3 : 2 * c * u K * ((1 + η) * w.sum) ≤ 2 * c * u K * (9 / 8 * w.sum) :=
      mul_le_mul_of_nonneg_left (mul_le_mul_of_nonneg_right (by linarith) hS.le) (by positivity)
    have e4 : s - w.sum = (s - w'.sum) + (w'.sum - w.sum) := by ring
    rw [e4]
    refine (abs_add_le _ _).trans ?_
    have e5 : (9 / 4 * (c * u K) + η) * w.sum = 2 * c * u K * (9 / 8 * w.sum) + η * w.sum := by ring
    rw [e5]
    linarith
  have hnear := hw.normalised hS hsum hη0 hη (by positivity) (by linarith)
  obtain ⟨ρ, hρ⟩ : ∃ ρ : K, ρ = 3 / 2 * (η + (9 / 4 * (c * u K) + η)) + 2 * u K := ⟨_, rfl⟩
  rw [← hρ] at hnear
  have hucu : u K ≤ c * u K := le_mul_of_one_le_left hu0.le hc1
  have hρ1 : ρ ≤ 3 * η + 6 * (c * u K) := by rw [hρ]; linarith
  have hρ0 : 0 ≤ ρ := by rw [hρ]; positivity
  obtain ⟨q1, q2⟩ := hnear.dotted (z := z) (by simpa using hz) hB
  have hone : (w.map fun x => x / w.sum).sum = 1 := by
    have : (w.map fun x => x / w.sum) = w.map fun x => x * (w.sum)⁻¹ := by simp [div_eq_mul_inv]
    rw [this, List.sum_map_mul_right, List.map_id']
    exact mul_inv_cancel₀ hSne
  rw [hone, mul_one] at q1 q2
  have hB0 : 0 ≤ B := by
    obtain ⟨a, ha⟩ := List.exists_mem_of_ne_nil z (by rintro rfl; simp at hz; omega)
    exact (abs_nonneg a).trans (hB a ha)
  have e1 := hd.error
  have hlz : (((w'.map fun w => fl (w / s)).zip z)).length = w.length := by
    rw [List.length_zip, List.length_map, ← hl, hz, min_self]
  rw [hlz] at e1
  have e2 : ((1 + u K) ^ w.length - 1) * absSum ((w'.map fun w => fl (w / s)).zip z) ≤ 2 * c * u K * ((1 + ρ) * B) :=
    mul_le_mul (by linarith) q2 (absSum_nonneg _) (by positivity)
  have e3 : 2 * c * u K * ((1 + ρ) * B) ≤ 2 * c * u K * (2 * B) :=
    mul_le_mul_of_nonneg_left (mul_le_mul_of_nonneg_right (by linarith) hB0) (by positivity)
  have e4 : ρ * B ≤ (3 * η + 6 * (c * u K)) * B := mul_le_mul_of_nonneg_right hρ1 hB0
  rw [hx', ← hc]
  have e5 : y - dot (w.map (· / w.sum)) z = (y - prodSum ((w'.map fun w => fl (w / s)).zip z)) +
      (prodSum ((w'.map fun w => fl (w / s)).zip z) - dot (w.map (· / w.sum)) z) := by ring
  rw [e5]
  refine (abs_add_le _ _).trans ?_
  have e6 : 0 ≤ η * B := mul_nonneg hη0 hB0
  have e7 : 0 ≤ c * u K * B := by positivity
  have e8 : (5 * η + 14 * c * u K) * B = 5 * (η * B) + 14 * (c * u K * B) := by ring
  have e9 : (3 * η + 6 * (c * u K)) * B = 3 * (η * B) + 6 * (c * u K * B) := by ring
  have e10 : 2 * c * u K * (2 * B) = 4 * (c * u K * B) := by ring
  rw [e8]
  rw [e9] at e4
  rw [e10] at e3
  linarith

/-! ### The value at a stored wind -/

theorem rdist_isDist {norm : K × K → K} (hn : IsDist norm) : IsDist (rdist norm) := by
  refine ⟨fun x => hn.1 _, fun x => ?_⟩
  unfold rdist
  rw [hn.2]
  constructor
  · intro h
    have h1 := congrArg Prod.fst h
    have h2 := congrArg Prod.snd h
    exact Prod.ext (fl_eq_zero.1 h1) (fl_eq_zero.1 h2)
  · rintro rfl
    simp [fl_zero]

/-- **C156.** Without data a `ValueError` is raised; with data a value is calculated. -/
theorem C156_defined (norm : K × K → K) (pw : K → K) (pts : List (Pt K)) (g : K × K) :
    (pts = [] → ∀ r, Idw norm pw pts g r ↔ r = .error .valueError) ∧ (pts ≠ [] → ∃ y, Idw norm pw pts g (.ok y)) := by
  refine ⟨fun h r => by simp [Idw, h], fun h => ?_⟩
  have hl : ¬ pts.length = 0 := by simpa using h
  unfold Idw
  simp only [hl, if_false]
  split
  · exact ⟨_, rfl⟩
  · obtain ⟨s, hs⟩ : ∃ s, Summed ((dists (rdist norm) pts g).map fun d => fl (1 / pw d)) s := by
      have hne : ((dists (rdist norm) pts g).map fun d => fl (1 / pw d)) ≠ [] := by simpa [dists] using h
      generalize ((dists (rdist norm) pts g).map fun d => fl (1 / pw d)) = l at hne
      induction l with
      | nil => exact absurd rfl hne
      | cons a l ih =>
        by_cases hl : l = []
        · subst hl
          exact ⟨a, .one a⟩
        · obtain ⟨s, hs⟩ := ih hl
          exact ⟨_, Summed.add (Summed.one a) hs⟩
    obtain ⟨y, hy⟩ := Dotted.exists (l := (((dists (rdist norm) pts g).map fun d => fl (1 / pw d)).map
      fun w => fl (w / s)).zip (pts.map Prod.snd)) (by
        intro h0
        have := congrArg List.length h0
        simp [dists] at this
        exact h this)
    exact ⟨y, y, ⟨s, hs, hy⟩, rfl⟩

/-- **C156.** At a stored wind exactly the stored speed is returned, also with rounded arithmetic: the difference of
doubles is never rounded to zero. -/
theorem C156_stored {norm : K × K → K} (hn : IsDist norm) (pw : K → K) {pts : List (Pt K)} {g : K × K} {v : K}
    (h : FirstStored pts g v) {r : Except PyErr K} : Idw norm pw pts g r ↔ r = .ok v := by
  have hl : ¬ pts.length = 0 := by
    obtain ⟨i, hi, -⟩ := h
    intro h0
    rw [List.length_eq_zero_iff.1 h0] at hi
    simp at hi
  simp [Idw, hl, firstAtZero_stored (rdist_isDist hn) h]

/-- One weight for the exponent two: if the distance has a relative error of `ε` then the weight has one of at most
`4 (ε + u)`. -/
theorem square_weight {d d' ε : K} (hd : 0 < d) (h : |d' - d| ≤ ε * d) (hε0 : 0 ≤ ε) (hε : ε ≤ 1 / 64) :
    0 < 1 / d ^ 2 ∧ |fl (1 / square d') - 1 / d ^ 2| ≤ 4 * (ε + u K) * (1 / d ^ 2) := by
  have hu0 := u_pos (K := K)
  have hu := u_tiny (K := K)
  have hp : 0 < 1 / d ^ 2 := by positivity
  refine ⟨hp, ?_⟩
  have h' := abs_le.1 h
  have hεd : ε * d ≤ 1 / 64 * d := mul_le_mul_of_nonneg_right hε hd.le
  have hd' : 0 < d' := by linarith [h'.1]
  have lo : (1 - ε) * d ≤ d' := by linarith [h'.1]
  have hi : d' ≤ (1 + ε) * d := by linarith [h'.2]
  have lo0 : 0 ≤ (1 - ε) * d := mul_nonneg (by linarith) hd.le
  have q1 : (1 - ε) ^ 2 * d ^ 2 ≤ d' * d' := by
    have := mul_le_mul lo lo lo0 hd'.le
    linarith
  have q2 : d' * d' ≤ (1 + ε) ^ 2 * d ^ 2 := by
    have := mul_le_mul hi hi hd'.le (hd'.le.trans hi)
    linarith
  have hdd : 0 ≤ d' * d' := by positivity
  have D1 := fl_lower (K := K) hdd
  have D2 := fl_upper (K := K) hdd
  have hd2 : 0 < d ^ 2 := by positivity
  have L : (1 - u K) * (1 - ε) ^ 2 * d ^ 2 ≤ square d' := by
    have := mul_le_mul_of_nonneg_left q1 (show 0 ≤ 1 - u K by linarith)
    unfold square
    linarith
  have U : square d' ≤ (1 + u K) * (1 + ε) ^ 2 * d ^ 2 := by
    have := mul_le_mul_of_nonneg_left q2 (show 0 ≤ 1 + u K by linarith)
    unfold square
    linarith
  have c1 : 0 < (1 - u K) * (1 - ε) ^ 2 := mul_pos (by linarith) (pow_pos (by linarith) 2)
  have hD : 0 < square d' := lt_of_lt_of_le (mul_pos c1 hd2) L
  have hi0 : 0 ≤ 1 / square d' := by positivity
  have W1 := fl_lower (K := K) hi0
  have W2 := fl_upper (K := K) hi0
  have hεu : ε * u K ≤ 1 / 64 * u K := mul_le_mul_of_nonneg_right hε hu0.le
  have hεε : ε * ε ≤ 1 / 64 * ε := mul_le_mul_of_nonneg_right hε hε0
  have huu : u K * u K ≤ 1 / 64 * u K := mul_le_mul_of_nonneg_right hu hu0.le
  have hεu0 : 0 ≤ ε * u K := mul_nonneg hε0 hu0.le
  have k1 : 1 - 2 * ε - u K ≤ (1 - u K) * (1 - ε) ^ 2 := by
    have : (1 - u K) * (1 - ε) ^ 2 = 1 - 2 * ε - u K + ε * ε * (1 - u K) + 2 * (ε * u K) := by ring
    rw [this]
    have : 0 ≤ ε * ε * (1 - u K) := mul_nonneg (mul_nonneg hε0 hε0) (by linarith)
    linarith
  have k2 : (1 + u K) * (1 + ε) ^ 2 ≤ 1 + 5 / 2 * ε + 5 / 4 * u K := by
    have : (1 + u K) * (1 + ε) ^ 2 = 1 + 2 * ε + u K + ε * ε + 2 * (ε * u K) + ε * (ε * u K) := by ring
    rw [this]
    have : ε * (ε * u K) ≤ 1 / 64 * (ε * u K) := mul_le_mul_of_nonneg_right hε hεu0
    linarith
  have up : fl (1 / square d') ≤ (1 + 4 * (ε + u K)) * (1 / d ^ 2) := by
    refine W2.trans ?_
    rw [mul_one_div, mul_one_div, div_le_div_iff₀ hD hd2]
    have a1 : (1 + 4 * (ε + u K)) * ((1 - 2 * ε - u K) * d ^ 2) ≤ (1 + 4 * (ε + u K)) * square d' :=
      mul_le_mul_of_nonneg_left ((mul_le_mul_of_nonneg_right k1 hd2.le).trans L) (by positivity)
    refine le_trans ?_ a1
    rw [← mul_assoc]
    refine mul_le_mul_of_nonneg_right ?_ hd2.le
    have : (1 + 4 * (ε + u K)) * (1 - 2 * ε - u K) =
        1 + 2 * ε + 3 * u K - 8 * (ε * ε) - 12 * (ε * u K) - 4 * (u K * u K) := by ring
    rw [this]
    linarith
  have low : (1 - 4 * (ε + u K)) * (1 / d ^ 2) ≤ fl (1 / square d') := by
    refine le_trans ?_ W1
    rw [mul_one_div, mul_one_div, div_le_div_iff₀ hd2 hD]
    have hnn : 0 ≤ 1 - 4 * (ε + u K) := by linarith
    have a1 : (1 - 4 * (ε + u K)) * square d' ≤ (1 - 4 * (ε + u K)) * ((1 + 5 / 2 * ε + 5 / 4 * u K) * d ^ 2) :=
      mul_le_mul_of_nonneg_left (U.trans (mul_le_mul_of_nonneg_right k2 hd2.le)) hnn
    refine a1.trans ?_
    rw [← mul_assoc]
    refine mul_le_mul_of_nonneg_right ?_ hd2.le
    have : (1 - 4 * (ε + u K)) * (1 + 5 / 2 * ε + 5 / 4 * u K) =
        1 - 3 / 2 * ε - 11 / 4 * u K - 10 * (ε * ε) - 15 * (ε * u K) - 5 * (u K * u K) := by ring
    rw [this]
    have : 0 ≤ ε * ε := mul_nonneg hε0 hε0
    have : 0 ≤ u K * u K := mul_nonneg hu0.le hu0.le
    linarith
  rw [abs_le]
  constructor <;> linarith

/-- **C156.** The rounded value of `IDWInterpolator` at a wind which is not among the data, for any norm whose rounded values
have a relative error of at most `ε`, and the default exponent: the error is at most `(20 ε + (14 n + 20) / 2^53) B` for
speeds of at most `B`. -/
theorem C156_error {norm norm' : K × K → K} (hn : IsDist norm) (hn' : IsDist norm') {pts : List (Pt K)} (hp : pts ≠ [])
    {g : K × K} (h : NotStored pts g) {ε B : K} (hε0 : 0 ≤ ε) (hε : ε ≤ 1 / 64)
    (hd : ∀ p ∈ pts, |rdist norm' (p.1 - g) - norm (p.1 - g)| ≤ ε * norm (p.1 - g)) (hB : ∀ p ∈ pts, |p.2| ≤ B)
    (hlen : pts.length ≤ 2 ^ 49) {r : Except PyErr K} (hr : Idw norm' square pts g r) :
    ∃ x y, idw norm 2 pts g = .ok (some x) ∧ InRange pts x ∧ r = .ok y ∧
      |y - x| ≤ (20 * ε + (14 * pts.length + 20) * u K) * B := by
  have hl : ¬ pts.length = 0 := by simpa using hp
  obtain ⟨x, hx, hrange, -⟩ := C20_mean hn 2 hp h
  have hu0 := u_pos (K := K)
  have hu := u_tiny (K := K)
  simp only [Idw, hl, if_false, firstAtZero_notStored (rdist_isDist hn') h] at hr
  obtain ⟨y, hy, rfl⟩ := hr
  refine ⟨x, y, hx, hrange, rfl, ?_⟩
  have hx' : normalisedDot ((dists norm pts g).map fun d => 1 / d ^ 2) (pts.map Prod.snd) = some x := by
    simpa [idw, hl, firstAtZero_notStored hn h] using hx
  have hpos := dist_pos hn h
  have hnear : Near (4 * (ε + u K)) ((dists norm pts g).map fun d => 1 / d ^ 2)
      ((dists (rdist norm') pts g).map fun d => fl (1 / square d)) := by
    unfold dists Near
    rw [List.map_map, List.map_map, List.forall₂_map_left_iff, List.forall₂_map_right_iff, List.forall₂_same]
    intro p hpm
    exact (square_weight (hpos p hpm) (hd p hpm) hε0 hε).imp_left le_of_lt
  have := hnear
  have e := hy.error (w := (dists norm pts g).map fun d => 1 / d ^ 2) (B := B) (by simp [dists])
    (fun a ha => by
      obtain ⟨p, hpm, rfl⟩ := List.mem_map.1 ha
      exact hB p hpm) hnear (by positivity) (by linarith) (by simpa [dists] using hlen) hx'
  have hlen' : ((dists norm pts g).map fun d => 1 / d ^ 2).length = pts.length := by simp [dists]
  rw [hlen'] at e
  refine e.trans (le_of_eq ?_)
  ring

/-! ### The default norm -/

theorem fl_abs_bounds (x : ℝ) : (1 - u ℝ) * |x| ≤ |fl x| ∧ |fl x| ≤ (1 + u ℝ) * |x| := by
  have e := fl_error' x
  have h1 : |fl x| ≤ |x| + |fl x - x| := by
    have := abs_add_le x (fl x - x)
    rwa [add_sub_cancel] at this
  have h2 : |x| ≤ |fl x| + |fl x - x| := by
    have := abs_sub (fl x) (fl x - x)
    rwa [sub_sub_cancel] at this
  constructor <;> linarith

/-- A scaled and rounded component. -/
theorem scaled_abs {c x : ℝ} (hc : 0 < c) :
    (1 - u ℝ) ^ 3 * (c * |x|) ≤ |fl (fl c * fl x)| ∧ |fl (fl c * fl x)| ≤ (1 + u ℝ) ^ 3 * (c * |x|) := by
  have hu0 := u_pos (K := ℝ)
  have hu := u_tiny (K := ℝ)
  obtain ⟨a1, a2⟩ := fl_abs_bounds (fl c * fl x)
  obtain ⟨b1, b2⟩ := fl_abs_bounds x
  have c1 := fl_lower (K := ℝ) hc.le
  have c2 := fl_upper (K := ℝ) hc.le
  have c0 : 0 ≤ fl c := fl_nonneg hc.le
  rw [abs_mul, abs_of_nonneg c0] at a1 a2
  have hx := abs_nonneg x
  have m1 : (1 - u ℝ) * c * ((1 - u ℝ) * |x|) ≤ fl c * |fl x| :=
    mul_le_mul c1 b1 (mul_nonneg (by linarith) hx) c0
  have m2 : fl c * |fl x| ≤ (1 + u ℝ) * c * ((1 + u ℝ) * |x|) :=
    mul_le_mul c2 b2 (abs_nonneg _) (mul_nonneg (by linarith) hc.le)
  constructor
  · have := mul_le_mul_of_nonneg_left m1 (show 0 ≤ 1 - u ℝ by linarith)
    calc _ = (1 - u ℝ) * ((1 - u ℝ) * c * ((1 - u ℝ) * |x|)) := by ring
      _ ≤ _ := this.trans a1
  · have := mul_le_mul_of_nonneg_left m2 (show 0 ≤ 1 + u ℝ by linarith)
    calc _ ≤ (1 + u ℝ) * ((1 + u ℝ) * c * ((1 + u ℝ) * |x|)) := a2.trans this
      _ = _ := by ring

/-- The square of a rounded component. -/
theorem scaled_sq {c x : ℝ} (hc : 0 < c) :
    (1 - u ℝ) ^ 7 * (c * x) ^ 2 ≤ fl (fl (fl c * fl x) * fl (fl c * fl x)) ∧
    fl (fl (fl c * fl x) * fl (fl c * fl x)) ≤ (1 + u ℝ) ^ 7 * (c * x) ^ 2 := by
  have hu0 := u_pos (K := ℝ)
  have hu := u_tiny (K := ℝ)
  obtain ⟨a1, a2⟩ := scaled_abs (x := x) hc
  have hx := abs_nonneg x
  generalize fl (fl c * fl x) = t at a1 a2
  have hnn : 0 ≤ t * t := mul_self_nonneg t
  have f1 := fl_lower (K := ℝ) hnn
  have f2 := fl_upper (K := ℝ) hnn
  have e1 : t * t = |t| * |t| := (abs_mul_abs_self t).symm
  have e2 : (c * x) ^ 2 = (c * |x|) * (c * |x|) := by
    rw [mul_pow, ← sq_abs x]
    ring
  have l0 : 0 ≤ (1 - u ℝ) ^ 3 * (c * |x|) := mul_nonneg (pow_nonneg (by linarith) 3) (mul_nonneg hc.le hx)
  have m1 := mul_le_mul a1 a1 l0 (abs_nonneg t)
  have m2 := mul_le_mul a2 a2 (abs_nonneg t) ((abs_nonneg t).trans a2)
  rw [← e1] at m1 m2
  constructor
  · have := mul_le_mul_of_nonneg_left m1 (show 0 ≤ 1 - u ℝ by linarith)
    rw [e2]
    calc _ = (1 - u ℝ) * ((1 - u ℝ) ^ 3 * (c * |x|) * ((1 - u ℝ) ^ 3 * (c * |x|))) := by ring
      _ ≤ _ := this.trans f1
  · have := mul_le_mul_of_nonneg_left m2 (show 0 ≤ 1 + u ℝ by linarith)
    rw [e2]
    calc _ ≤ (1 + u ℝ) * ((1 + u ℝ) ^ 3 * (c * |x|) * ((1 + u ℝ) ^ 3 * (c * |x|))) := f2.trans this
      _ = _ := by ring

/-- **C156.** The distances calculated by `scaled_euclidean_norm` have a relative error of at most `6 / 2^53`. -/
theorem C156_distance (x : ℝ × ℝ) :
    |rdist scaledEuclidean x - Interp.scaledEuclidean x| ≤ 6 * u ℝ * Interp.scaledEuclidean x := by
  have hu0 := u_pos (K := ℝ)
  have hu := u_tiny (K := ℝ)
  obtain ⟨a1, a2⟩ := scaled_sq (c := 1 / 40) (x := x.1) (by norm_num)
  obtain ⟨b1, b2⟩ := scaled_sq (c := 1 / 360) (x := x.2) (by norm_num)
  have e : rdist scaledEuclidean x = fl (Real.sqrt (fl (fl (fl (fl (1 / 40) * fl x.1) * fl (fl (1 / 40) * fl x.1)) +
      fl (fl (fl (1 / 360) * fl x.2) * fl (fl (1 / 360) * fl x.2))))) := rfl
  rw [e]
  have hd : Interp.scaledEuclidean x = Real.sqrt ((1 / 40 * x.1) ^ 2 + (1 / 360 * x.2) ^ 2) := rfl
  generalize fl (fl (fl (1 / 40) * fl x.1) * fl (fl (1 / 40) * fl x.1)) = p at a1 a2
  generalize fl (fl (fl (1 / 360) * fl x.2) * fl (fl (1 / 360) * fl x.2)) = q at b1 b2
  set D := Interp.scaledEuclidean x with hD
  have hD0 : 0 ≤ D := by rw [hd]; exact Real.sqrt_nonneg _
  have hD2 : D ^ 2 = (1 / 40 * x.1) ^ 2 + (1 / 360 * x.2) ^ 2 := by
    rw [hd]
    exact Real.sq_sqrt (by positivity)
  have lpos : 0 ≤ 1 - u ℝ := by linarith
  have s1 : (1 - u ℝ) ^ 7 * D ^ 2 ≤ p + q := by rw [hD2]; linarith
  have s2 : p + q ≤ (1 + u ℝ) ^ 7 * D ^ 2 := by rw [hD2]; linarith
  have hpq : 0 ≤ p + q := (by positivity : (0 : ℝ) ≤ (1 - u ℝ) ^ 7 * D ^ 2).trans s1
  have f1 := fl_lower (K := ℝ) hpq
  have f2 := fl_upper (K := ℝ) hpq
  have t1 : ((1 - u ℝ) ^ 4 * D) ^ 2 ≤ fl (p + q) := by
    have := mul_le_mul_of_nonneg_left s1 lpos
    calc _ = (1 - u ℝ) * ((1 - u ℝ) ^ 7 * D ^ 2) := by ring
      _ ≤ _ := this.trans f1
  have t2 : fl (p + q) ≤ ((1 + u ℝ) ^ 4 * D) ^ 2 := by
    have := mul_le_mul_of_nonneg_left s2 (show 0 ≤ 1 + u ℝ by linarith)
    calc _ ≤ (1 + u ℝ) * ((1 + u ℝ) ^ 7 * D ^ 2) := f2.trans this
      _ = _ := by ring
  have r1 : (1 - u ℝ) ^ 4 * D ≤ Real.sqrt (fl (p + q)) := Real.le_sqrt_of_sq_le t1
  have r2 : Real.sqrt (fl (p + q)) ≤ (1 + u ℝ) ^ 4 * D := by
    rw [← Real.sqrt_sq (show 0 ≤ (1 + u ℝ) ^ 4 * D by positivity)]
    exact Real.sqrt_le_sqrt t2
  have g1 := fl_lower (K := ℝ) (Real.sqrt_nonneg (fl (p + q)))
  have g2 := fl_upper (K := ℝ) (Real.sqrt_nonneg (fl (p + q)))
  have v1 : (1 - u ℝ) ^ 5 * D ≤ fl (Real.sqrt (fl (p + q))) := by
    have := mul_le_mul_of_nonneg_left r1 lpos
    calc _ = (1 - u ℝ) * ((1 - u ℝ) ^ 4 * D) := by ring
      _ ≤ _ := this.trans g1
  have v2 : fl (Real.sqrt (fl (p + q))) ≤ (1 + u ℝ) ^ 5 * D := by
    have := mul_le_mul_of_nonneg_left r2 (show 0 ≤ 1 + u ℝ by linarith)
    calc _ ≤ (1 + u ℝ) * ((1 + u ℝ) ^ 4 * D) := g2.trans this
      _ = _ := by ring
  have k1 : 1 - 6 * u ℝ ≤ (1 - u ℝ) ^ 5 := by
    have := one_add_mul_le_pow (a := -u ℝ) (by linarith) 5
    push_cast at this
    have e : (1 + -u ℝ) = 1 - u ℝ := by ring
    rw [e] at this
    linarith
  have k2 : (1 + u ℝ) ^ 5 ≤ 1 + 6 * u ℝ := by
    have h2 : u ℝ ^ 2 ≤ 1 / 64 * u ℝ := by
      rw [pow_two]
      exact mul_le_mul_of_nonneg_right hu hu0.le
    have h3 : u ℝ ^ 3 ≤ 1 / 64 * u ℝ := by
      have := mul_le_mul_of_nonneg_left h2 hu0.le
      have h4 : u ℝ * (1 / 64 * u ℝ) = 1 / 64 * u ℝ ^ 2 := by ring
      have h5 : u ℝ ^ 3 = u ℝ * u ℝ ^ 2 := by ring
      rw [h5]
      linarith
    have h4 : u ℝ ^ 4 ≤ 1 / 64 * u ℝ := by
      have := mul_le_mul_of_nonneg_left h3 hu0.le
      have h4 : u ℝ * (1 / 64 * u ℝ) = 1 / 64 * u ℝ ^ 2 := by ring
      have h5 : u ℝ ^ 4 = u ℝ * u ℝ ^ 3 := by ring
      rw [h5]
      linarith
    have h5 : u ℝ ^ 5 ≤ 1 / 64 * u ℝ := by
      have := mul_le_mul_of_nonneg_left h4 hu0.le
      have h4 : u ℝ * (1 / 64 * u ℝ) = 1 / 64 * u ℝ ^ 2 := by ring
      have h5 : u ℝ ^ 5 = u ℝ * u ℝ ^ 4 := by ring
      rw [h5]
      linarith
    have : (1 + u ℝ) ^ 5 = 1 + 5 * u ℝ + 10 * u ℝ ^ 2 + 10 * u ℝ ^ 3 + 5 * u ℝ ^ 4 + u ℝ ^ 5 := by ring
    rw [this]
    linarith
  have w1 := mul_le_mul_of_nonneg_right k1 hD0
  have w2 := mul_le_mul_of_nonneg_right k2 hD0
  rw [abs_le]
  constructor <;> linarith

theorem scaledEuclidean_isDist : IsDist scaledEuclidean := by
  constructor
  · intro x
    exact fl_nonneg (Real.sqrt_nonneg _)
  · intro x
    unfold scaledEuclidean
    simp only
    have ha : 0 ≤ fl (fl (fl (1 / 40) * x.1) * fl (fl (1 / 40) * x.1)) := fl_nonneg (mul_self_nonneg _)
    have hb : 0 ≤ fl (fl (fl (1 / 360) * x.2) * fl (fl (1 / 360) * x.2)) := fl_nonneg (mul_self_nonneg _)
    rw [fl_eq_zero, Real.sqrt_eq_zero (fl_nonneg (by linarith)), fl_eq_zero]
    have c1 : fl (1 / 40 : ℝ) ≠ 0 := by rw [Ne, fl_eq_zero]; norm_num
    have c2 : fl (1 / 360 : ℝ) ≠ 0 := by rw [Ne, fl_eq_zero]; norm_num
    rw [add_eq_zero_iff_of_nonneg ha hb, fl_eq_zero, fl_eq_zero, mul_self_eq_zero, mul_self_eq_zero, fl_eq_zero, fl_eq_zero,
      mul_eq_zero, mul_eq_zero]
    simp only [c1, c2, false_or]
    exact ⟨fun h => Prod.ext h.1 h.2, fun h => by simp [h]⟩

theorem exact_isDist : IsDist Interp.scaledEuclidean := by
  constructor
  · intro x
    exact Real.sqrt_nonneg _
  · intro x
    unfold Interp.scaledEuclidean
    rw [Real.sqrt_eq_zero (by positivity), add_eq_zero_iff_of_nonneg (sq_nonneg _) (sq_nonneg _), sq_eq_zero_iff,
      sq_eq_zero_iff, mul_eq_zero, mul_eq_zero]
    norm_num
    exact ⟨fun h => Prod.ext h.1 h.2, fun h => by simp [h]⟩

/-- **C156.** `IDWInterpolator()` with all its defaults: the returned speed differs from the exact weighted mean by at most
`(14 n + 140) / 2^53` times the largest speed, for `n` data; at most by that it leaves the range of the measured speeds. -/
theorem C156_default {pts : List (Pt ℝ)} (hp : pts ≠ []) {g : ℝ × ℝ} (h : NotStored pts g) {B : ℝ}
    (hB : ∀ p ∈ pts, |p.2| ≤ B) (hlen : pts.length ≤ 2 ^ 49) {r : Except PyErr ℝ} (hr : Idw scaledEuclidean square pts g r) :
    ∃ x y, idw Interp.scaledEuclidean 2 pts g = .ok (some x) ∧ r = .ok y ∧
      |y - x| ≤ (14 * pts.length + 140) * u ℝ * B ∧
      ∀ lo hi, (∀ p ∈ pts, lo ≤ p.2 ∧ p.2 ≤ hi) →
        lo - (14 * pts.length + 140) * u ℝ * B ≤ y ∧ y ≤ hi + (14 * pts.length + 140) * u ℝ * B := by
  have hu0 := u_pos (K := ℝ)
  have hu6 : 6 * u ℝ ≤ 1 / 64 := by
    unfold u
    norm_num
  obtain ⟨x, y, hx, hrange, hy, e⟩ := C156_error exact_isDist scaledEuclidean_isDist hp h (ε := 6 * u ℝ) (by positivity) hu6
    (fun p _ => C156_distance (p.1 - g)) hB hlen hr
  have e' : |y - x| ≤ (14 * pts.length + 140) * u ℝ * B := by
    refine e.trans (le_of_eq ?_)
    ring
  refine ⟨x, y, hx, hy, e', fun lo hi hb => ?_⟩
  have h1 := hrange lo hi hb
  have h2 := abs_le.1 e'
  exact ⟨by linarith [h1.1, h2.1], by linarith [h1.2, h2.2]⟩

/-- The hypotheses are met by two measurements. -/
example : ∃ y, Idw scaledEuclidean square [((10, 90), 6), ((12, 90), 7)] (11, 90) (.ok y) ∧
    6 - 168 * u ℝ * 7 ≤ y ∧ y ≤ 7 + 168 * u ℝ * 7 := by
  obtain ⟨y, hy⟩ := (C156_defined scaledEuclidean square [((10, 90), 6), ((12, 90), 7)] (11, 90)).2 (by simp)
  refine ⟨y, hy, ?_⟩
  obtain ⟨x, y', -, e, -, hb⟩ := C156_default (pts := [((10, 90), 6), ((12, 90), 7)]) (by simp) (g := (11, 90))
    (by intro p hp; simp at hp; rcases hp with rfl | rfl <;> simp) (B := 7)
    (by intro p hp; simp at hp; rcases hp with rfl | rfl <;> norm_num) (by simp) hy
  cases e
  have := hb 6 7 (by intro p hp; simp at hp; rcases hp with rfl | rfl <;> norm_num)
  norm_num at this ⊢
  exact this

/-- An error bound is needed: six equal speeds of 1 knot at the same distance give 0.9999999999999999 if added one after the
other. -/
theorem C156_inexact : ∃ y : ℚ, IdwMean [1, 1, 1, 1, 1, 1] [1, 1, 1, 1, 1, 1] y ∧ y < 1 := by
  have hs : Summed [(1 : ℚ), 1, 1, 1, 1, 1] 6 := by
    have := Summed.add (Summed.add (Summed.add (Summed.add (Summed.add (Summed.one (1 : ℚ)) (Summed.one 1)) (Summed.one 1))
      (Summed.one 1)) (Summed.one 1)) (Summed.one 1)
    have e2 : fl (fl (fl (fl (fl ((1 : ℚ) + 1) + 1) + 1) + 1) + 1) = 6 := by decide +kernel
    rwa [e2] at this
  have hd := Dotted.add (Dotted.add (Dotted.add (Dotted.add (Dotted.add (Dotted.one (fl ((1 : ℚ) / 6), 1))
    (Dotted.one (fl ((1 : ℚ) / 6), 1))) (Dotted.one (fl ((1 : ℚ) / 6), 1))) (Dotted.one (fl ((1 : ℚ) / 6), 1)))
    (Dotted.one (fl ((1 : ℚ) / 6), 1))) (Dotted.one (fl ((1 : ℚ) / 6), 1))
  exact ⟨_, ⟨6, hs, hd⟩, by decide +kernel⟩

end Verif.F64
