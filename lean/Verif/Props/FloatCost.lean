import Verif.Model.FloatCost
import Verif.Props.CostIntegral
import Verif.Props.FloatMean
import Verif.Props.FloatWeigher
import Verif.Props.FloatFluctuation
import Verif.Lemmas.FloatCast

/-!
# Property C186: `cost_cruise` in double precision
-/

namespace Verif.F64

open Verif.Course (trapezoid costCruise)

/-! ### Accumulated relative errors -/

/-- `y` was calculated in place of `x` with `k` roundings, where `x` has at most the size `B`. -/
def Rel (k : ℕ) (B x y : ℝ) : Prop := |x| ≤ B ∧ |y - x| ≤ ((1 + u ℝ) ^ k - 1) * B

theorem one_le_pow_u (k : ℕ) : 1 ≤ (1 + u ℝ) ^ k := one_le_pow₀ (by linarith [u_pos (K := ℝ)])

theorem Rel.refl {B x : ℝ} (h : |x| ≤ B) : Rel 0 B x x := ⟨h, by simp⟩

theorem Rel.size {k : ℕ} {B x y : ℝ} (h : Rel k B x y) : |y| ≤ (1 + u ℝ) ^ k * B := by
  have := abs_add_le x (y - x)
  rw [add_sub_cancel] at this
  linarith [h.1, h.2]

theorem Rel.bound_nonneg {k : ℕ} {B x y : ℝ} (h : Rel k B x y) : 0 ≤ B := (abs_nonneg x).trans h.1

theorem Rel.fl {k : ℕ} {B x y : ℝ} (h : Rel k B x y) : Rel (k + 1) B x (fl y) := by
  refine ⟨h.1, ?_⟩
  have h1 := fl_error' y
  have h2 := mul_le_mul_of_nonneg_left h.size (u_pos (K := ℝ)).le
  have h3 : |F64.fl y - x| ≤ |F64.fl y - y| + |y - x| := by
    have := abs_add_le (F64.fl y - y) (y - x)
    rwa [sub_add_sub_cancel] at this
  have h4 := h.2
  rw [pow_succ]
  nlinarith

theorem Rel.mul {k l : ℕ} {B B' x x' y y' : ℝ} (h : Rel k B x y) (h' : Rel l B' x' y') : Rel (k + l) (B * B') (x * x') (y * y') := by
  have hB := h.bound_nonneg
  have hB' := h'.bound_nonneg
  refine ⟨by rw [abs_mul]; exact mul_le_mul h.1 h'.1 (abs_nonneg _) hB, ?_⟩
  have e : y * y' - x * x' = (y - x) * y' + x * (y' - x') := by ring
  rw [e]
  have h1 : |(y - x) * y'| ≤ ((1 + u ℝ) ^ k - 1) * B * ((1 + u ℝ) ^ l * B') := by
    rw [abs_mul]
    exact mul_le_mul h.2 h'.size (abs_nonneg _) (mul_nonneg (by linarith [one_le_pow_u k]) hB)
  have h2 : |x * (y' - x')| ≤ B * (((1 + u ℝ) ^ l - 1) * B') := by
    rw [abs_mul]
    exact mul_le_mul h.1 h'.2 (abs_nonneg _) hB
  have h3 := abs_add_le ((y - x) * y') (x * (y' - x'))
  have h4 : ((1 + u ℝ) ^ (k + l) - 1) * (B * B') = ((1 + u ℝ) ^ k - 1) * B * ((1 + u ℝ) ^ l * B') + B * (((1 + u ℝ) ^ l - 1) * B') := by
    rw [pow_add]; ring
  linarith

theorem Rel.half {k : ℕ} {B x y : ℝ} (h : Rel k B x y) : Rel k (B / 2) (x / 2) (y / 2) := by
  refine ⟨by rw [abs_div, abs_two]; linarith [h.1], ?_⟩
  have : y / 2 - x / 2 = (y - x) / 2 := by ring
  rw [this, abs_div, abs_two]
  linarith [h.2]

/-! ### The trapezoidal rule -/

/-- The size of the terms of the trapezoidal rule: distances times the mean of the absolute values of the costs. -/
noncomputable def gross : List (ℝ × ℝ) → ℝ
  | (x, y) :: (x', y') :: rest => |x' - x| * (|y| + |y'|) / 2 + gross ((x', y') :: rest)
  | _ => 0

theorem panels_error : ∀ nodes : List (ℝ × ℝ), 0 ≤ gross nodes ∧ |(panels nodes).sum - trapezoid nodes| ≤ ((1 + u ℝ) ^ 4 - 1) * gross nodes ∧
    ((panels nodes).map abs).sum ≤ (1 + u ℝ) ^ 4 * gross nodes ∧ |trapezoid nodes| ≤ gross nodes
  | [] => by simp [gross, panels, trapezoid]
  | [_] => by simp [gross, panels, trapezoid]
  | (x, y) :: (x', y') :: rest => by
    obtain ⟨i0, i1, i2, i3⟩ := panels_error ((x', y') :: rest)
    have r1 : Rel 1 |x' - x| (x' - x) (fl (x' - x)) := (Rel.refl le_rfl).fl
    have r2 : Rel 1 (|y| + |y'|) (y + y') (fl (y + y')) := (Rel.refl (abs_add_le y y')).fl
    have r := (r1.mul r2).fl.half.fl
    simp only [gross, panels, trapezoid, List.sum_cons, List.map_cons]
    generalize hp : fl (fl (fl (x' - x) * fl (y + y')) / 2) = p at r
    generalize hg : |x' - x| * (|y| + |y'|) / 2 = g at r
    have g0 := r.bound_nonneg
    have s := r.size
    obtain ⟨ra, rb⟩ := r
    refine ⟨by linarith, ?_, ?_, ?_⟩
    · have e : p + (panels ((x', y') :: rest)).sum - ((x' - x) * (y + y') / 2 + trapezoid ((x', y') :: rest)) =
          (p - (x' - x) * (y + y') / 2) + ((panels ((x', y') :: rest)).sum - trapezoid ((x', y') :: rest)) := by ring
      rw [e, mul_add (_ - 1)]
      exact (abs_add_le _ _).trans (add_le_add rb i1)
    · rw [mul_add]
      exact add_le_add s i2
    · exact (abs_add_le _ _).trans (add_le_add ra i3)

theorem panels_length : ∀ nodes : List (ℝ × ℝ), (panels nodes).length = nodes.length - 1
  | [] => rfl
  | [_] => rfl
  | (x, y) :: (x', y') :: rest => by
    simp only [panels, List.length_cons, panels_length ((x', y') :: rest)]
    omega

/-- **C186.** The cost calculated with the trapezoidal rule on `n` nodes in doubles, whatever the order of the additions, differs from
the exact value of the trapezoidal rule at most by `(1 + 2⁻⁵³)ⁿ⁺³ - 1` times the sum of the distances multiplied with the mean absolute
costs. -/
theorem C186_integral {nodes : List (ℝ × ℝ)} {r : ℝ} (h : Integrated nodes r) :
    |r - trapezoid nodes| ≤ ((1 + u ℝ) ^ (nodes.length + 3) - 1) * gross nodes := by
  obtain ⟨g0, e1, e2, -⟩ := panels_error nodes
  have hl := panels_length nodes
  rcases h with h | ⟨h, rfl⟩
  · have e3 := h.error
    have hpos := h.length_pos
    have hn : nodes.length + 3 = (panels nodes).length + 4 := by omega
    rw [hn]
    have e4 : |r - trapezoid nodes| ≤ |r - (panels nodes).sum| + |(panels nodes).sum - trapezoid nodes| := by
      have := abs_add_le (r - (panels nodes).sum) ((panels nodes).sum - trapezoid nodes)
      rwa [sub_add_sub_cancel] at this
    have e5 := mul_le_mul_of_nonneg_left e2 (by linarith [one_le_pow_u (panels nodes).length] : 0 ≤ (1 + u ℝ) ^ (panels nodes).length - 1)
    have e6 : ((1 + u ℝ) ^ ((panels nodes).length + 4) - 1) * gross nodes = ((1 + u ℝ) ^ (panels nodes).length - 1) *
        ((1 + u ℝ) ^ 4 * gross nodes) + ((1 + u ℝ) ^ 4 - 1) * gross nodes := by
      rw [pow_add]; ring
    linarith
  · match nodes, h with
    | [], _ => simp [gross, trapezoid]
    | [_], _ => simp [gross, trapezoid]

theorem gross_eq : ∀ {nodes : List (ℝ × ℝ)}, (nodes.map Prod.fst).Pairwise (· ≤ ·) → (∀ n ∈ nodes, 0 ≤ n.2) → gross nodes = trapezoid nodes
  | [], _, _ => rfl
  | [_], _, _ => rfl
  | (x, y) :: (x', y') :: rest, hs, hc => by
    have hx : x ≤ x' := by
      simp only [List.map_cons, List.pairwise_cons, List.mem_cons, forall_eq_or_imp] at hs
      exact hs.1.1
    have hs' : (((x', y') :: rest).map Prod.fst).Pairwise (· ≤ ·) := by
      rw [List.map_cons, List.pairwise_cons] at hs
      exact hs.2
    have hy : 0 ≤ y := hc (x, y) (by simp)
    have hy' : 0 ≤ y' := hc (x', y') (by simp)
    have ih := gross_eq hs' fun n hn => hc n (List.mem_cons_of_mem _ hn)
    simp only [gross, trapezoid, ih]
    rw [abs_of_nonneg (sub_nonneg.2 hx), abs_of_nonneg hy, abs_of_nonneg hy']

theorem panels_nonneg : ∀ {nodes : List (ℝ × ℝ)}, (nodes.map Prod.fst).Pairwise (· ≤ ·) → (∀ n ∈ nodes, 0 ≤ n.2) → ∀ p ∈ panels nodes, 0 ≤ p
  | [], _, _, p, hp => by simp [panels] at hp
  | [_], _, _, p, hp => by simp [panels] at hp
  | (x, y) :: (x', y') :: rest, hs, hc, p, hp => by
    have hx : x ≤ x' := by
      simp only [List.map_cons, List.pairwise_cons, List.mem_cons, forall_eq_or_imp] at hs
      exact hs.1.1
    have hs' : (((x', y') :: rest).map Prod.fst).Pairwise (· ≤ ·) := by
      rw [List.map_cons, List.pairwise_cons] at hs
      exact hs.2
    have hy : 0 ≤ y := hc (x, y) (by simp)
    have hy' : 0 ≤ y' := hc (x', y') (by simp)
    rw [panels, List.mem_cons] at hp
    rcases hp with rfl | hp
    · exact fl_nonneg (div_nonneg (fl_nonneg (mul_nonneg (fl_nonneg (by linarith)) (fl_nonneg (by linarith)))) (by norm_num))
    · exact panels_nonneg hs' (fun n hn => hc n (List.mem_cons_of_mem _ hn)) p hp

theorem small_pow {n : ℕ} (hn : n ≤ 2 ^ 50) : (1 + u ℝ) ^ n - 1 ≤ 2 * n * u ℝ := by
  have h : 2 * (n : ℝ) * u ℝ ≤ 1 := by
    have h1 : (n : ℝ) ≤ 2 ^ 50 := by exact_mod_cast hn
    have h2 := mul_le_mul_of_nonneg_right h1 (u_pos (K := ℝ)).le
    have h3 : (2 : ℝ) ^ 50 * u ℝ = 1 / 8 := by unfold u; norm_num
    linarith
  linarith [pow_u_le h]

/-- **C186.** For costs which are not negative and nodes in the order of their distances the calculated integral is not negative and has
a small relative error: at most `2 (n + 3) 2⁻⁵³` for `n` nodes. -/
theorem C186_relative {nodes : List (ℝ × ℝ)} (hs : (nodes.map Prod.fst).Pairwise (· ≤ ·)) (hc : ∀ n ∈ nodes, 0 ≤ n.2)
    (hn : nodes.length < 2 ^ 49) {r : ℝ} (h : Integrated nodes r) :
    0 ≤ r ∧ |r - trapezoid nodes| ≤ 2 * (nodes.length + 3) * u ℝ * trapezoid nodes := by
  constructor
  · rcases h with h | ⟨-, rfl⟩
    · exact h.nonneg (panels_nonneg hs hc)
    · exact le_rfl
  · have h1 := C186_integral h
    obtain ⟨g0, -⟩ := panels_error nodes
    rw [gross_eq hs hc] at h1 g0
    have h2 := small_pow (n := nodes.length + 3) (by omega)
    push_cast at h2
    exact h1.trans (mul_le_mul_of_nonneg_right h2 g0)

/-- **C186.** The result of `cost_cruise` in doubles is the absolute cost if there is no density; otherwise it differs from the exact sum
of the absolute cost and the trapezoidal rule at most by `(1 + 2⁻⁵³)ⁿ⁺⁴ - 1` times the sum of the sizes of the terms. -/
theorem C186_cost {P : Type} {nodes : List (ℝ × ℝ)} {place : ℝ → P} {total : ℝ} {abs : ℝ → ℝ → ℝ} {dens : Option (ℝ → P → ℝ)} {x y : ℝ}
    (h : Costs nodes place total abs dens x) (hy : costCruise nodes place total abs dens = .ok y) :
    match dens with
    | none => x = y
    | some d => ∃ last, nodes.getLast? = some last ∧ |x - y| ≤ ((1 + u ℝ) ^ (nodes.length + 4) - 1) *
        (|abs last.2 total| + gross (nodes.map fun n => (n.1, d n.2 (place n.1)))) := by
  obtain ⟨last, hl, h⟩ := h
  simp only [costCruise, hl] at hy
  cases dens with
  | none =>
    simp only [Except.ok.injEq] at h hy ⊢
    rw [h, hy]
  | some d =>
    obtain ⟨r, hr, rfl⟩ := h
    simp only [Except.ok.injEq] at hy ⊢
    subst hy
    refine ⟨last, hl, ?_⟩
    have e := C186_integral hr
    obtain ⟨g0, -, -, g1⟩ := panels_error (nodes.map fun n => (n.1, d n.2 (place n.1)))
    rw [List.length_map] at e
    generalize abs last.2 total = A at *
    generalize gross (nodes.map fun n => (n.1, d n.2 (place n.1))) = g at *
    generalize trapezoid (nodes.map fun n => (n.1, d n.2 (place n.1))) = t at *
    have hrel : Rel (nodes.length + 3) (|A| + g) (A + t) (A + r) := by
      refine ⟨(abs_add_le A t).trans (by linarith), ?_⟩
      have : A + r - (A + t) = r - t := by ring
      rw [this]
      refine e.trans (mul_le_mul_of_nonneg_left (by linarith [abs_nonneg A]) (by linarith [one_le_pow_u (nodes.length + 3)]))
    exact hrel.fl.2

/-! ### Places -/

/-- **C186.** The places at which `cost_cruise` evaluates the density are in the order of their distances, in each coordinate: they move
from the start towards the end, never back. -/
theorem C186_order {a b total s s' : ℝ} (ht : 0 < total) (hs : s ≤ s') :
    (a ≤ b → place a b total s ≤ place a b total s') ∧ (b ≤ a → place a b total s' ≤ place a b total s) := by
  have hq : fl (s / total) ≤ fl (s' / total) := fl_mono (div_le_div_of_nonneg_right hs ht.le)
  constructor
  · intro h
    have hd : 0 ≤ fl (b - a) := fl_nonneg (by linarith)
    have h1 := fl_mono (mul_le_mul_of_nonneg_right hq hd)
    exact fl_mono (by linarith)
  · intro h
    have hd : fl (b - a) ≤ 0 := by
      have := fl_nonneg (sub_nonneg.2 h)
      rw [← neg_sub, fl_neg]
      linarith
    have h1 := fl_mono (mul_le_mul_of_nonpos_right hq hd)
    exact fl_mono (by linarith)

theorem place_zero {a : ℝ} (ha : fl a = a) (b total : ℝ) : place a b total 0 = a := by
  simp [place, fl_zero, ha]

theorem place_total {a b total : ℝ} (ht : total ≠ 0) : place a b total total = fl (a + fl (b - a)) := by
  rw [place, div_self ht, fl_one, one_mul, fl_fl]

/-- **C186.** The first place is the start, and the last one differs from the end at most by the rounding errors of two operations. -/
theorem C186_ends {a b total : ℝ} (ha : fl a = a) (ht : 0 < total) :
    place a b total 0 = a ∧ |place a b total total - b| ≤ 2 * u ℝ * (|b| + |b - a|) := by
  refine ⟨place_zero ha b total, ?_⟩
  rw [place_total ht.ne']
  have h1 := fl_error' (b - a)
  have h2 := fl_error' (a + fl (b - a))
  have hu := u_pos (K := ℝ)
  have hu' := u_small (K := ℝ)
  have h3 : |a + fl (b - a)| ≤ |b| + |fl (b - a) - (b - a)| := by
    have := abs_add_le b (fl (b - a) - (b - a))
    have e : b + (fl (b - a) - (b - a)) = a + fl (b - a) := by ring
    rwa [e] at this
  have h4 : |fl (a + fl (b - a)) - b| ≤ |fl (a + fl (b - a)) - (a + fl (b - a))| + |fl (b - a) - (b - a)| := by
    have := abs_add_le (fl (a + fl (b - a)) - (a + fl (b - a))) (fl (b - a) - (b - a))
    have e : fl (a + fl (b - a)) - (a + fl (b - a)) + (fl (b - a) - (b - a)) = fl (a + fl (b - a)) - b := by ring
    rwa [e] at this
  generalize |fl (b - a) - (b - a)| = e1 at *
  generalize |fl (a + fl (b - a)) - (a + fl (b - a))| = e2 at *
  have h5 := mul_le_mul_of_nonneg_left (h3.trans (add_le_add_right h1 _)) hu.le
  have h6 : u ℝ * (u ℝ * |b - a|) ≤ 1 / 4 * (u ℝ * |b - a|) := mul_le_mul_of_nonneg_right hu' (by positivity)
  have h7 : 0 ≤ u ℝ * |b - a| := by positivity
  have h8 : 0 ≤ u ℝ * |b| := by positivity
  nlinarith

/-- **C186.** Between the ends the places lie between the start and the last place, and differ from the exact place on the way at most by
`(1 + 2⁻⁵³)⁴ - 1` times the size of the coordinates. -/
theorem C186_between {a b total s : ℝ} (ha : fl a = a) (ht : 0 < total) (h0 : 0 ≤ s) (h1 : s ≤ total) :
    (a ≤ b → a ≤ place a b total s ∧ place a b total s ≤ fl (a + fl (b - a))) ∧
    (b ≤ a → place a b total s ≤ a ∧ fl (a + fl (b - a)) ≤ place a b total s) ∧
    |place a b total s - (a + s / total * (b - a))| ≤ ((1 + u ℝ) ^ 4 - 1) * (|a| + |b - a|) := by
  have l := C186_order (a := a) (b := b) ht h0
  have r := C186_order (a := a) (b := b) ht h1
  rw [place_zero ha] at l
  rw [place_total ht.ne'] at r
  refine ⟨fun h => ⟨l.1 h, r.1 h⟩, fun h => ⟨l.2 h, r.2 h⟩, ?_⟩
  have hq : |s / total| ≤ 1 := by
    rw [abs_of_nonneg (by positivity)]
    exact (div_le_one ht).2 h1
  have m := ((Rel.refl hq).fl.mul (Rel.refl (le_refl |b - a|)).fl).fl
  rw [one_mul] at m
  have hrel : Rel 3 (|a| + |b - a|) (a + s / total * (b - a)) (a + fl (fl (s / total) * fl (b - a))) := by
    refine ⟨(abs_add_le _ _).trans (by linarith [m.1]), ?_⟩
    have e : a + fl (fl (s / total) * fl (b - a)) - (a + s / total * (b - a)) =
        fl (fl (s / total) * fl (b - a)) - s / total * (b - a) := by ring
    rw [e]
    exact m.2.trans (mul_le_mul_of_nonneg_left (by linarith [abs_nonneg a]) (by linarith [one_le_pow_u (0 + 1 + (0 + 1) + 1)]))
  exact hrel.fl.2

/-- **C186.** The last place need not be the end itself. -/
theorem C186_end_inexact : fl (1 / 2 ^ 60 : ℝ) = 1 / 2 ^ 60 ∧ place 1 (1 / 2 ^ 60) 1 1 = 0 := by
  have e : ∀ q : ℚ, fl (q : ℝ) = ((fl q : ℚ) : ℝ) := fl_cast
  constructor
  · have h := e (1 / 2 ^ 60)
    have h' : fl (1 / 2 ^ 60 : ℚ) = 1 / 2 ^ 60 := by decide +kernel
    rw [h'] at h
    push_cast at h
    exact h
  · rw [place_total one_ne_zero]
    have h := e (1 / 2 ^ 60 - 1)
    have h' : fl (1 / 2 ^ 60 - 1 : ℚ) = -1 := by decide +kernel
    rw [h'] at h
    push_cast at h
    rw [h, add_neg_cancel, fl_zero]

/-! ### Examples -/

theorem fl_count (n : ℕ) (h : n < 2 ^ 53) : fl (n : ℝ) = n := by
  have := fl_int (K := ℝ) (m := (n : ℤ)) (by rw [abs_of_nonneg (by positivity)]; exact_mod_cast h)
  simpa using this

theorem panels_example : panels [(0, 1), (2, 3), (4, 5)] = [4, 8] := by
  have h2 : fl (2 : ℝ) = 2 := by exact_mod_cast fl_count 2 (by norm_num)
  have h4 : fl (4 : ℝ) = 4 := by exact_mod_cast fl_count 4 (by norm_num)
  have h8 : fl (8 : ℝ) = 8 := by exact_mod_cast fl_count 8 (by norm_num)
  have h16 : fl (16 : ℝ) = 16 := by exact_mod_cast fl_count 16 (by norm_num)
  simp only [panels]
  norm_num [h2, h4, h8, h16]

theorem integrated_example : Integrated [(0, 1), (2, 3), (4, 5)] 12 := by
  left
  rw [panels_example]
  have h12 : fl (4 + 8 : ℝ) = 12 := by
    have := fl_count 12 (by norm_num)
    norm_num at this ⊢
    exact this
  rw [← h12]
  exact Summed.add (Summed.one 4) (Summed.one 8)

example : ∃ nodes : List (ℝ × ℝ), (nodes.map Prod.fst).Pairwise (· ≤ ·) ∧ (∀ n ∈ nodes, 0 ≤ n.2) ∧ nodes.length < 2 ^ 49 ∧
    Integrated nodes 12 ∧ trapezoid nodes = 12 ∧ gross nodes = 12 := by
  refine ⟨[(0, 1), (2, 3), (4, 5)], ?_, ?_, by norm_num, integrated_example, ?_, ?_⟩
  · norm_num
  · simp
  · norm_num [trapezoid]
  · norm_num [gross, abs_of_nonneg]

/-- Costs 1, 3 and 5 per mile after 0, 2 and 4 miles, an absolute cost of 4 hours: 16 altogether. -/
example : Costs [(0, 0), (2, 2), (4, 4)] (fun s => s) 4 (fun t _ => t) (some fun _ p => p + 1) 16 ∧
    costCruise [(0, 0), (2, 2), (4, 4)] (fun s => s) 4 (fun t _ => t) (some fun _ p => p + 1) = .ok 16 := by
  constructor
  · refine ⟨(4, 4), rfl, 12, ?_, ?_⟩
    · have := integrated_example
      norm_num
      exact this
    · have := fl_count 16 (by norm_num)
      norm_num at this ⊢
      exact this.symm
  · norm_num [costCruise, trapezoid]

/-- Half of the way from 1 to 3 over 4 miles. -/
example : place 1 3 4 2 = 2 ∧ fl (1 : ℝ) = 1 ∧ (0 : ℝ) < 4 := by
  have h1 : fl (1 : ℝ) = 1 := fl_one
  have h2 : fl (2 : ℝ) = 2 := by exact_mod_cast fl_count 2 (by norm_num)
  have hh : fl (1 / 2 : ℝ) = 1 / 2 := by
    have := fl_exact (K := ℝ) (m := 1) (k := -1) (by norm_num)
    norm_num at this ⊢
    exact this
  refine ⟨?_, h1, by norm_num⟩
  unfold place
  have a : (2 : ℝ) / 4 = 1 / 2 := by norm_num
  have b : (3 : ℝ) - 1 = 2 := by norm_num
  have c : (1 / 2 : ℝ) * 2 = 1 := by norm_num
  have d : (1 : ℝ) + 1 = 2 := by norm_num
  rw [a, b, hh, h2, c, h1, d, h2]

end Verif.F64
