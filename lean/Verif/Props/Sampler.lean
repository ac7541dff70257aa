import Mathlib.Data.Rat.Defs
import Mathlib.Algebra.Order.Ring.Rat
import Mathlib.Tactic.Ring
import Mathlib.Tactic.Linarith
import Mathlib.Tactic.LinearCombination
import Mathlib.Tactic.FieldSimp
import Mathlib.Tactic.NormNum
import Verif.Model.Sampler

/-!
# Properties C29 and C30: samplers
-/

namespace Verif.Sampler

section Uniform

variable {K : Type} [Add K] [Mul K] [Neg K] [LE K] [DecidableLE K]

/-- `p` satisfies all facet inequalities. -/
def Inside (ineqs : List (Facet K)) (p : K × K) : Prop :=
  ∀ a b c, (a, b, c) ∈ ineqs → a * p.1 + b * p.2 ≤ -c

theorem inHull_iff (ineqs : List (Facet K)) (p : K × K) : inHull ineqs p = true ↔ Inside ineqs p := by
  simp [inHull, Inside]

theorem uniformLoop_spec (ineqs : List (Facet K)) (rng : Nat → Nat → List (K × K)) (n : Nat)
    (hr : ∀ i m, (rng i m).length = m) : ∀ fuel i (s out : List (K × K)), s.length ≤ n → (∀ p ∈ s, Inside ineqs p) →
    (∀ p ∈ s, ∃ i m, p ∈ rng i m) →
    uniformLoop ineqs rng n fuel i s = some out →
    out.length = n ∧ (∀ p ∈ out, Inside ineqs p) ∧ ∀ p ∈ out, ∃ i m, p ∈ rng i m := by
  intro fuel
  induction fuel with
  | zero => intro i s out _ _ _ h; simp [uniformLoop] at h
  | succ fuel ih =>
    intro i s out hl hp hq h
    rw [uniformLoop] at h
    split at h
    · refine ih _ _ _ ?_ ?_ ?_ h
      · have h1 := List.length_filter_le (inHull ineqs) (rng i (n - s.length))
        have h2 := hr i (n - s.length)
        simp only [List.length_append]
        omega
      · intro p hm
        rcases List.mem_append.1 hm with hm | hm
        · exact hp p hm
        · exact (inHull_iff ineqs p).1 (List.mem_filter.1 hm).2
      · intro p hm
        rcases List.mem_append.1 hm with hm | hm
        · exact hq p hm
        · exact ⟨_, _, (List.mem_filter.1 hm).1⟩
    · simp only [Option.some.injEq] at h
      subst h
      exact ⟨by omega, hp, hq⟩

/-- **C29.** Whatever the random numbers are: if the sampler returns, then it returns exactly `n` points, all of them
drawn by the generator and satisfying all facet inequalities of the convex hull. -/
theorem C29_sample (ineqs : List (Facet K)) (rng : Nat → Nat → List (K × K)) (n fuel : Nat)
    (hr : ∀ i m, (rng i m).length = m) {out : List (K × K)} (h : uniform ineqs rng n fuel = some out) :
    out.length = n ∧ (∀ p ∈ out, Inside ineqs p) ∧ ∀ p ∈ out, ∃ i m, p ∈ rng i m :=
  uniformLoop_spec ineqs rng n hr fuel 0 [] out (by simp) (by simp) (by simp) h

theorem uniformLoop_terminates (ineqs : List (Facet K)) (rng : Nat → Nat → List (K × K)) (n : Nat)
    (hr : ∀ i m, (rng i m).length = m)
    (hit : ∀ i m, 0 < m → ∃ j, i ≤ j ∧ ∃ p ∈ rng j m, Inside ineqs p) :
    ∀ m i (s : List (K × K)), n - s.length = m → ∃ fuel out, uniformLoop ineqs rng n fuel i s = some out := by
  intro m
  induction m using Nat.strong_induction_on with
  | _ m ihm =>
    intro i s hm
    by_cases hs : s.length < n
    · obtain ⟨j, hij, p, hp, hin⟩ := hit i m (by omega)
      obtain ⟨d, rfl⟩ := Nat.exists_eq_add_of_le hij
      clear hij
      induction d generalizing i with
      | zero =>
        have hlen : 0 < ((rng i (n - s.length)).filter (inHull ineqs)).length := by
          refine List.length_pos_of_mem (a := p) (List.mem_filter.2 ⟨?_, (inHull_iff _ _).2 hin⟩)
          rw [hm]; exact hp
        obtain ⟨fuel, out, h⟩ := ihm (n - (s ++ (rng i (n - s.length)).filter (inHull ineqs)).length)
          (by rw [List.length_append]; omega) (i + 1) _ rfl
        exact ⟨fuel + 1, out, by rw [uniformLoop, if_pos hs, h]⟩
      | succ d ihd =>
        by_cases h0 : (rng i (n - s.length)).filter (inHull ineqs) = []
        · obtain ⟨fuel, out, h⟩ := ihd (i + 1) (by rw [show i + 1 + d = i + (d + 1) by omega]; exact hp)
          exact ⟨fuel + 1, out, by rw [uniformLoop, if_pos hs, h0, List.append_nil, h]⟩
        · have hlen := List.length_pos_iff.2 h0
          obtain ⟨fuel, out, h⟩ := ihm (n - (s ++ (rng i (n - s.length)).filter (inHull ineqs)).length)
            (by rw [List.length_append]; omega) (i + 1) _ rfl
          exact ⟨fuel + 1, out, by rw [uniformLoop, if_pos hs, h]⟩
    · exact ⟨1, s, by rw [uniformLoop, if_neg hs]⟩

/-- **C29.** The sampler returns whenever the random numbers hit the hull again and again. -/
theorem C29_terminates (ineqs : List (Facet K)) (rng : Nat → Nat → List (K × K)) (n : Nat)
    (hr : ∀ i m, (rng i m).length = m)
    (hit : ∀ i m, 0 < m → ∃ j, i ≤ j ∧ ∃ p ∈ rng j m, Inside ineqs p) :
    ∃ fuel out, uniform ineqs rng n fuel = some out :=
  uniformLoop_terminates ineqs rng n hr hit _ 0 [] rfl

/-- **C29.** Samplers can only be created for a positive number of samples. -/
theorem C29_init (n : Int) : (0 < n → init n = .ok n.toNat) ∧ (n ≤ 0 → init n = .error .valueError) := by
  constructor
  · intro h; simp [init, not_le.2 h]
  · intro h; simp [init, h]

/-- The hull of the triangle (0,0), (1,0), (0,1), and a stream alternating between a point outside and points
inside. -/
example : uniform [(-1, 0, 0), (0, -1, 0), (1, 1, -1)]
    (fun i m => List.replicate m (if i % 2 = 0 then ((1 : Rat), (1 : Rat)) else (1 / 4, 1 / 2))) 2 5 =
    some [(1 / 4, 1 / 2), (1 / 4, 1 / 2)] := by decide +kernel

end Uniform

section Rescale

variable {K : Type} [Add K] [Mul K] [Div K] [OfNat K 0] [OfNat K 2]

theorem rescaleLoop_spec {α : Type} (n : Nat) (generate : K → List α) : ∀ fuel (lb : K) ub t s out,
    (∃ t, s = generate t) → rescaleLoop n generate fuel lb ub t s = some out →
    out.length = n ∧ ∃ t, out = generate t := by
  intro fuel
  induction fuel with
  | zero => intro lb ub t s out _ h; simp [rescaleLoop] at h
  | succ fuel ih =>
    intro lb ub t s out hs h
    rw [rescaleLoop] at h
    split at h
    · exact ih _ _ _ _ _ ⟨_, rfl⟩ h
    · next hc =>
      simp only [Option.some.injEq] at h
      subst h
      exact ⟨not_not.1 hc, hs⟩

/-- **C30.** Whenever the rescaling search returns, it returns exactly `n` points, generated for some scale. -/
theorem C30_rescale {α : Type} (n : Nat) (generate : K → List α) (start : K) (fuel : Nat) {out : List α}
    (h : binaryRescale n generate start fuel = some out) : out.length = n ∧ ∃ t, out = generate t :=
  rescaleLoop_spec n generate fuel _ _ _ _ _ ⟨start, rfl⟩ h

/-- **C30.** Hence the Fibonacci and Archimedean samplers return exactly `n` points, all of them satisfying the facet
inequalities of the hull and lying on the scaled and moved spiral. -/
theorem C30_spiral_samples [Neg K] [LE K] [DecidableLE K] (n : Nat) (base : List (K × K)) (mid : K × K)
    (ineqs : List (Facet K)) (start : K) (fuel : Nat) {out : List (K × K)}
    (h : binaryRescale n (sampleGenerator base mid ineqs) start fuel = some out) :
    out.length = n ∧ (∀ p ∈ out, Inside ineqs p) ∧
      ∃ t, ∀ p ∈ out, ∃ q ∈ base, p = (mid.1 + t * q.1, mid.2 + t * q.2) := by
  obtain ⟨hl, t, ht⟩ := C30_rescale n _ start fuel h
  refine ⟨hl, ?_, t, ?_⟩
  · intro p hp
    rw [ht, sampleGenerator] at hp
    exact (inHull_iff ineqs p).1 (List.mem_filter.1 hp).2
  · intro p hp
    rw [ht, sampleGenerator] at hp
    obtain ⟨q, hq, rfl⟩ := List.mem_map.1 (List.mem_filter.1 hp).1
    exact ⟨q, hq, rfl⟩

/-- **C30.** The rescaling search never returns if no scale gives the requested number of points (for example if two
points enter the hull at the same time). -/
theorem C30_rescale_diverges {α : Type} (n : Nat) (generate : K → List α) (start : K)
    (h : ∀ t, (generate t).length ≠ n) (fuel : Nat) : binaryRescale n generate start fuel = none := by
  cases hb : binaryRescale n generate start fuel with
  | none => rfl
  | some out =>
    obtain ⟨hl, t, ht⟩ := C30_rescale n generate start fuel hb
    exact absurd (ht ▸ hl) (h t)

/-- A square hull around the midpoint of a symmetric set of two points: one sample is never reached. -/
example : ∀ fuel, binaryRescale 1 (sampleGenerator [((1 : Rat), (0 : Rat)), (-1, 0)] (0, 0)
    [(1, 0, -1), (-1, 0, -1), (0, 1, -1), (0, -1, -1)]) 2 fuel = none := by
  refine C30_rescale_diverges _ _ _ ?_
  intro t
  simp only [sampleGenerator, inHull, List.map_cons, List.map_nil, List.filter_cons, List.filter_nil, List.all_cons,
    List.all_nil]
  by_cases h1 : t ≤ 1 <;> by_cases h2 : -1 ≤ t
  · have h3 : -t ≤ 1 := by linarith
    simp [h1, h3]
  · have h3 : ¬ (-t ≤ 1) := by linarith
    simp [h3]
  · simp [h1]
  · simp [h1]

example : binaryRescale 2 (sampleGenerator [((1 : Rat), (0 : Rat)), (-1, 0), (0, 2)] (0, 0)
    [(1, 0, -1), (-1, 0, -1), (0, 1, -1), (0, -1, -1)]) 4 10 = some [(1, 0), (-1, 0)] := by decide +kernel

end Rescale

/-! ### The enclosing circle -/

theorem circleLoop_spec (pts : List (ℝ × ℝ)) (eps : ℝ) : ∀ fuel i j k (circle c : Circle),
    (∀ l, l < i → ∀ p, pts[l]? = some p → isInCircle p circle eps) →
    circleLoop pts eps fuel i j k circle = some (.ok c) → ∀ p ∈ pts, isInCircle p c eps := by
  intro fuel
  induction fuel with
  | zero => intro i j k circle c _ h; simp [circleLoop] at h
  | succ fuel ih =>
    intro i j k circle c hinv h
    rw [circleLoop] at h
    split at h
    · next hn =>
      simp only [Option.some.injEq, Except.ok.injEq] at h
      subst h
      intro p hp
      obtain ⟨l, hl, rfl⟩ := List.getElem_of_mem hp
      exact hinv l (lt_of_lt_of_le hl (List.getElem?_eq_none_iff.1 hn)) _ (List.getElem?_eq_getElem hl)
    · next p hp =>
      split at h
      · next hin =>
        refine ih _ _ _ _ _ ?_ h
        intro l hl q hq
        rcases Nat.lt_succ_iff_lt_or_eq.1 hl with hl | rfl
        · exact hinv l hl q hq
        · rw [hp] at hq
          cases hq
          exact hin
      · dsimp only at h
        split at h
        · simp at h
        · exact ih _ _ _ _ _ (by simp) h

/-- **C30.** Whenever the search for the enclosing circle returns, every given point has a distance less than
`r + eps` from the midpoint; for every order into which the points are shuffled. -/
theorem C30_enclosing {pts shuffled : List (ℝ × ℝ)} (hs : shuffled.Perm pts) (eps : ℝ) (fuel : Nat) {mx my r : ℝ}
    (h : makeCircle shuffled eps fuel = some (.ok ((mx, my), r))) :
    ∀ x y, (x, y) ∈ pts → Real.sqrt ((x - mx) ^ 2 + (y - my) ^ 2) < r + eps := by
  intro x y hp
  exact circleLoop_spec shuffled eps fuel 0 0 [] _ _ (by simp) h (x, y) (hs.mem_iff.2 hp)

/-- The point lies on the circle. -/
def OnCircle (c : Circle) (p : ℝ × ℝ) : Prop :=
  Real.sqrt ((p.1 - c.1.1) ^ 2 + (p.2 - c.1.2) ^ 2) = c.2

/-- **C30.** The circle through one, two or three affinely independent points: the points lie on it; for two points
they are antipodal. -/
theorem C30_small_circle :
    (∀ p, ∃ c, smallCircle [p] = .ok c ∧ OnCircle c p) ∧
    (∀ p q, ∃ c, smallCircle [p, q] = .ok c ∧ OnCircle c p ∧ OnCircle c q ∧
      c.1 = ((p.1 + q.1) / 2, (p.2 + q.2) / 2)) ∧
    (∀ p q r : ℝ × ℝ, (q.1 - p.1) * (r.2 - p.2) ≠ (r.1 - p.1) * (q.2 - p.2) →
      ∃ c, smallCircle [p, q, r] = .ok c ∧ OnCircle c p ∧ OnCircle c q ∧ OnCircle c r) := by
  refine ⟨?_, ?_, ?_⟩
  · intro p
    exact ⟨_, rfl, by simp [OnCircle]⟩
  · rintro ⟨px, py⟩ ⟨qx, qy⟩
    have half : ∀ x y : ℝ, Real.sqrt ((1 / 2 * x) ^ 2 + (1 / 2 * y) ^ 2) = 1 / 2 * Real.sqrt (x ^ 2 + y ^ 2) := by
      intro x y
      rw [show (1 / 2 * x) ^ 2 + (1 / 2 * y) ^ 2 = (1 / 2) ^ 2 * (x ^ 2 + y ^ 2) by ring,
        Real.sqrt_mul (by norm_num), Real.sqrt_sq (by norm_num)]
    refine ⟨_, rfl, ?_, ?_, ?_⟩
    · simp only [OnCircle, circle2, norm2]
      rw [← half]
      congr 1; ring
    · simp only [OnCircle, circle2, norm2]
      rw [← half]
      congr 1; ring
    · simp only [circle2]
      congr 1 <;> ring
  · rintro ⟨px, py⟩ ⟨qx, qy⟩ ⟨rx, ry⟩ hdet
    simp only at hdet
    have hD : det3 1 (-px) (-py) 1 (-qx) (-qy) 1 (-rx) (-ry) ≠ 0 := by
      intro h0
      apply hdet
      simp only [det3] at h0
      linarith
    have hsq : ∀ x y : ℝ, norm2 (x, y) ^ 2 = x ^ 2 + y ^ 2 := by
      intro x y
      rw [norm2, Real.sq_sqrt (by positivity)]
    obtain ⟨a, b, c, hsol, h1, h2, h3⟩ : ∃ a b c, solveCircle (px, py) (qx, qy) (rx, ry) = some (a, b, c) ∧
        a - px * b - py * c = -(px ^ 2 + py ^ 2) ∧ a - qx * b - qy * c = -(qx ^ 2 + qy ^ 2) ∧
        a - rx * b - ry * c = -(rx ^ 2 + ry ^ 2) := by
      refine ⟨_, _, _, by simp only [solveCircle, hD, if_false]; rfl, ?_, ?_, ?_⟩
      all_goals
        simp only [hsq]
        generalize hE : det3 1 (-px) (-py) 1 (-qx) (-qy) 1 (-rx) (-ry) = E at hD ⊢
        field_simp
        rw [← hE]
        simp only [det3]
        ring
    refine ⟨((b / 2, c / 2), Real.sqrt (b ^ 2 / 4 + c ^ 2 / 4 - a)), by simp only [smallCircle, hsol], ?_, ?_, ?_⟩
    · simp only [OnCircle]; congr 1; linear_combination h1
    · simp only [OnCircle]; congr 1; linear_combination h2
    · simp only [OnCircle]; congr 1; linear_combination h3

theorem fits_circle2 (p q r : ℝ × ℝ) :
    fits r (circle2 p q) ↔ (r.1 - p.1) * (r.1 - q.1) + (r.2 - p.2) * (r.2 - q.2) ≤ 0 := by
  have half : ∀ x y : ℝ, 1 / 2 * Real.sqrt (x ^ 2 + y ^ 2) = Real.sqrt ((1 / 2 * x) ^ 2 + (1 / 2 * y) ^ 2) := by
    intro x y
    rw [show (1 / 2 * x) ^ 2 + (1 / 2 * y) ^ 2 = (1 / 2) ^ 2 * (x ^ 2 + y ^ 2) by ring,
      Real.sqrt_mul (by norm_num), Real.sqrt_sq (by norm_num)]
  simp only [fits, circle2, norm2]
  rw [half, Real.sqrt_le_sqrt_iff (by positivity)]
  constructor <;> intro h <;> nlinarith

/-- **C30.** For at most three points, collinear or not, the small circle exists and encloses the points. -/
theorem C30_small_circle_encloses (pts : List (ℝ × ℝ)) (h : pts.length ≤ 3) :
    ∃ c, smallCircle pts = .ok c ∧ ∀ p ∈ pts, Real.sqrt ((p.1 - c.1.1) ^ 2 + (p.2 - c.1.2) ^ 2) ≤ c.2 := by
  match pts, h with
  | [], _ => exact ⟨_, rfl, by simp⟩
  | [p], _ =>
    obtain ⟨c, hc, h1⟩ := C30_small_circle.1 p
    exact ⟨c, hc, by simpa using le_of_eq h1⟩
  | [p, q], _ =>
    obtain ⟨c, hc, h1, h2, -⟩ := C30_small_circle.2.1 p q
    exact ⟨c, hc, by simpa using ⟨le_of_eq h1, le_of_eq h2⟩⟩
  | [p, q, r], _ =>
    by_cases hdet : (q.1 - p.1) * (r.2 - p.2) = (r.1 - p.1) * (q.2 - p.2)
    · have hsol : solveCircle p q r = none := by
        have : det3 1 (-p.1) (-p.2) 1 (-q.1) (-q.2) 1 (-r.1) (-r.2) = 0 := by
          simp only [det3]; linear_combination hdet
        simp [solveCircle, this]
      have on : ∀ p q : ℝ × ℝ, fits p (circle2 p q) ∧ fits q (circle2 p q) := by
        intro p q; constructor <;> rw [fits_circle2] <;> simp
      simp only [smallCircle, hsol]
      split
      · next hf => exact ⟨_, rfl, by simpa using ⟨hf, (on q r).1, (on q r).2⟩⟩
      · next hf1 =>
        split
        · next hf => exact ⟨_, rfl, by simpa using ⟨(on p r).1, hf, (on p r).2⟩⟩
        · next hf2 =>
          split
          · next hf => exact ⟨_, rfl, by simpa using ⟨(on p q).1, (on p q).2, hf⟩⟩
          · next hf3 =>
            exfalso
            rw [fits_circle2, not_le] at hf1 hf2 hf3
            obtain ⟨u, hu⟩ : ∃ u, q.1 = p.1 + u := ⟨q.1 - p.1, by ring⟩
            obtain ⟨v, hv⟩ : ∃ v, q.2 = p.2 + v := ⟨q.2 - p.2, by ring⟩
            obtain ⟨s, hs⟩ : ∃ s, r.1 = p.1 + s := ⟨r.1 - p.1, by ring⟩
            obtain ⟨t, ht⟩ : ∃ t, r.2 = p.2 + t := ⟨r.2 - p.2, by ring⟩
            rw [hu, hv, hs, ht] at hdet hf1 hf2 hf3
            have e : u * t = s * v := by linear_combination hdet
            have a1 : 0 < u * s + v * t := by linarith
            have a2 : u * s + v * t < u * u + v * v := by linarith
            have a3 : u * s + v * t < s * s + t * t := by linarith
            have h1 := mul_lt_mul'' a2 a3 a1.le a1.le
            have : (u * s + v * t) * (u * s + v * t) = (u * u + v * v) * (s * s + t * t) := by
              linear_combination (-(u * t - s * v)) * e
            linarith
    · obtain ⟨c, hc, h1, h2, h3⟩ := C30_small_circle.2.2 p q r hdet
      exact ⟨c, hc, by simpa using ⟨le_of_eq h1, le_of_eq h2, le_of_eq h3⟩⟩

/-- One point is enclosed after three rounds. -/
example : makeCircle [(3, 4)] (1 / 10) 3 = some (.ok ((3, 4), 0)) := by
  have h1 : ¬ isInCircle (3, 4) ((0, 0), 0) (1 / 10) := by
    simp only [isInCircle, norm2, sub_zero, not_lt]
    apply Real.le_sqrt_of_sq_le
    norm_num
  have h2 : isInCircle (3, 4) ((3, 4), 0) (1 / 10) := by
    simp [isInCircle, norm2]
  simp only [makeCircle, smallCircle, circleLoop, List.getElem?_cons_zero, h1, h2, if_false, if_true]
  simp only [List.filterMap_cons, List.getElem?_cons_zero, List.filterMap_nil, if_true, h2]
  rfl

end Verif.Sampler
