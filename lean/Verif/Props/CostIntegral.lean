import Mathlib.MeasureTheory.Integral.IntervalIntegral.Basic
import Mathlib.Topology.UniformSpace.HeineCantor
import Mathlib.Analysis.SpecialFunctions.Integrals.Basic
import Verif.Model.Course

/-!
# Property C137: `cost_cruise` approximates the documented integral

The solver of the initial value problem gives distances with times. The smaller the gaps between the distances and the
errors of the times are, the closer is the returned cost to the integral of the density along the way plus the absolute
cost.
-/

namespace Verif.Course

open MeasureTheory intervalIntegral

/-- The distances begin with `a`, increase up to `b` and have gaps of at most `h`. -/
def Mesh (h a b : ℝ) : List ℝ → Prop
  | [] => False
  | [x] => x = a ∧ x = b
  | x :: y :: rest => x = a ∧ x ≤ y ∧ y - x ≤ h ∧ Mesh h y b (y :: rest)

theorem Mesh.le {h b : ℝ} : ∀ {l : List ℝ} {a : ℝ}, Mesh h a b l → a ≤ b ∧ ∀ x ∈ l, a ≤ x ∧ x ≤ b
  | [], _, hm => hm.elim
  | [x], a, hm => by
    obtain ⟨rfl, rfl⟩ := hm
    simp
  | x :: y :: rest, a, hm => by
    obtain ⟨rfl, hxy, -, hm⟩ := hm
    obtain ⟨h1, h2⟩ := hm.le
    refine ⟨hxy.trans h1, fun z hz => ?_⟩
    rcases List.mem_cons.1 hz with rfl | hz
    · exact ⟨le_rfl, hxy.trans h1⟩
    · exact ⟨hxy.trans (h2 z hz).1, (h2 z hz).2⟩

theorem Mesh.getLast {h b : ℝ} : ∀ {l : List ℝ} {a : ℝ}, Mesh h a b l → l.getLast? = some b
  | [], _, hm => hm.elim
  | [x], a, hm => by simp [hm.2]
  | x :: y :: rest, a, hm => by
    rw [List.getLast?_cons_cons]
    exact hm.2.2.2.getLast

/-- The trapezoidal rule for values that differ by at most `mu` from those of a function whose values differ by at most
`om` on each interval. -/
theorem trapezoid_error {g : ℝ → ℝ} {h b om mu : ℝ} (v : ℝ × ℝ → ℝ) : ∀ (l : List (ℝ × ℝ)) (a : ℝ),
    Mesh h a b (l.map (·.1)) → ContinuousOn g (Set.Icc a b) →
    (∀ x ∈ Set.Icc a b, ∀ y ∈ Set.Icc a b, |x - y| ≤ h → |g x - g y| ≤ om) → (∀ n ∈ l, |v n - g n.1| ≤ mu) →
    |trapezoid (l.map fun n => (n.1, v n)) - ∫ s in a..b, g s| ≤ (om + mu) * (b - a)
  | [], _, hm, _, _, _ => hm.elim
  | [n], a, hm, _, _, _ => by
    obtain ⟨h1, h2⟩ := hm
    have : a = b := h1.symm.trans h2
    subst this
    simp [trapezoid]
  | n :: m :: rest, a, hm, hc, hom, hmu => by
    obtain ⟨h1, hnm, hgap, hm⟩ := hm
    simp only at h1
    obtain ⟨hmb, -⟩ := hm.le
    subst h1
    have ih := trapezoid_error v (m :: rest) m.1 hm (hc.mono (Set.Icc_subset_Icc_left hnm))
      (fun x hx y hy => hom x (Set.Icc_subset_Icc_left hnm hx) y (Set.Icc_subset_Icc_left hnm hy))
      (fun k hk => hmu k (List.mem_cons_of_mem _ hk))
    have hi1 : IntervalIntegrable g volume n.1 m.1 :=
      (hc.mono (by rw [Set.uIcc_of_le hnm]; exact Set.Icc_subset_Icc_right hmb)).intervalIntegrable
    have hi2 : IntervalIntegrable g volume m.1 b :=
      (hc.mono (by rw [Set.uIcc_of_le hmb]; exact Set.Icc_subset_Icc_left hnm)).intervalIntegrable
    rw [← integral_add_adjacent_intervals hi1 hi2]
    have e1 : (m.1 - n.1) * (v n + v m) / 2 = ∫ _ in n.1..m.1, (v n + v m) / 2 := by
      rw [intervalIntegral.integral_const, smul_eq_mul]
      ring
    have key : |(m.1 - n.1) * (v n + v m) / 2 - ∫ s in n.1..m.1, g s| ≤ (om + mu) * (m.1 - n.1) := by
      rw [e1, ← intervalIntegral.integral_sub intervalIntegrable_const hi1]
      have := intervalIntegral.norm_integral_le_of_norm_le_const (a := n.1) (b := m.1)
        (f := fun s => (v n + v m) / 2 - g s) (C := om + mu) (by
          intro s hs
          rw [Set.uIoc_of_le hnm] at hs
          have hs' : s ∈ Set.Icc n.1 b := ⟨hs.1.le, hs.2.trans hmb⟩
          have k1 := hom n.1 ⟨le_rfl, hnm.trans hmb⟩ s hs' (by rw [abs_le]; constructor <;> linarith [hs.1, hs.2])
          have k2 := hom m.1 ⟨hnm, hmb⟩ s hs' (by rw [abs_le]; constructor <;> linarith [hs.1, hs.2])
          have k3 := hmu n (by simp)
          have k4 := hmu m (by simp)
          rw [Real.norm_eq_abs, abs_le]
          rw [abs_le] at k1 k2 k3 k4
          constructor <;> linarith [k1.1, k1.2, k2.1, k2.2, k3.1, k3.2, k4.1, k4.2])
      rwa [Real.norm_eq_abs, abs_of_nonneg (show 0 ≤ m.1 - n.1 by linarith)] at this
    simp only [List.map_cons, trapezoid] at ih ⊢
    rw [abs_le] at ih key ⊢
    constructor <;> linarith [ih.1, ih.2, key.1, key.2]

section
variable {P : Type} {place : ℝ → P} {abs : ℝ → ℝ → ℝ} {total : ℝ} {dens : ℝ → P → ℝ} {T : ℝ → ℝ}

theorem cost_error {nodes : List (ℝ × ℝ)} {h om mu al : ℝ} (hmesh : Mesh h 0 total (nodes.map (·.1)))
    (hc : ContinuousOn (fun s => dens (T s) (place s)) (Set.Icc 0 total))
    (hom : ∀ x ∈ Set.Icc 0 total, ∀ y ∈ Set.Icc 0 total, |x - y| ≤ h →
      |dens (T x) (place x) - dens (T y) (place y)| ≤ om)
    (hmu : ∀ n ∈ nodes, |dens n.2 (place n.1) - dens (T n.1) (place n.1)| ≤ mu)
    (hal : ∀ n ∈ nodes, n.1 = total → |abs n.2 total - abs (T total) total| ≤ al) :
    ∃ x, costCruise nodes place total abs (some dens) = .ok x ∧
      |x - (abs (T total) total + ∫ s in (0 : ℝ)..total, dens (T s) (place s))| ≤ al + (om + mu) * total := by
  have hlast := hmesh.getLast
  rw [List.getLast?_map, Option.map_eq_some_iff] at hlast
  obtain ⟨last, hl, h1⟩ := hlast
  refine ⟨abs last.2 total + trapezoid (nodes.map fun n => (n.1, dens n.2 (place n.1))), ?_, ?_⟩
  · simp only [costCruise, hl]
  · have k1 := trapezoid_error (g := fun s => dens (T s) (place s)) (fun n => dens n.2 (place n.1)) nodes 0 hmesh hc hom hmu
    have k2 := hal last (List.mem_of_getLast? hl) h1
    rw [sub_zero] at k1
    rw [abs_le] at k1 k2 ⊢
    constructor <;> linarith [k1.1, k1.2, k2.1, k2.2]

/-- **C137.** If the density changes by at most `L` times the distance along the way and by at most `M` times the time at
each place, and the absolute cost by at most `A` times the time, then the error of the cost is at most
`A δ + (L h + M δ) l` for gaps of at most `h`, errors of the times of at most `δ` and a way of length `l`. -/
theorem C137_error {nodes : List (ℝ × ℝ)} {h del L M A : ℝ} (hL : 0 ≤ L) (hM : 0 ≤ M) (hA : 0 ≤ A)
    (hmesh : Mesh h 0 total (nodes.map (·.1)))
    (htimes : ∀ s t, (s, t) ∈ nodes → |t - T s| ≤ del)
    (hdens : ∀ x ∈ Set.Icc 0 total, ∀ y ∈ Set.Icc 0 total,
      |dens (T x) (place x) - dens (T y) (place y)| ≤ L * |x - y|)
    (htime : ∀ t t' p, |dens t p - dens t' p| ≤ M * |t - t'|)
    (habs : ∀ t t', |abs t total - abs t' total| ≤ A * |t - t'|) :
    ∃ x, costCruise nodes place total abs (some dens) = .ok x ∧
      |x - (abs (T total) total + ∫ s in (0 : ℝ)..total, dens (T s) (place s))| ≤ A * del + (L * h + M * del) * total := by
  refine cost_error hmesh ?_ (fun x hx y hy hxy => (hdens x hx y hy).trans (mul_le_mul_of_nonneg_left hxy hL))
    (fun n hn => (htime _ _ _).trans (mul_le_mul_of_nonneg_left (htimes n.1 n.2 hn) hM))
    (fun n hn he => (habs _ _).trans (mul_le_mul_of_nonneg_left (he ▸ htimes n.1 n.2 hn) hA))
  have : LipschitzOnWith (Real.toNNReal L) (fun s => dens (T s) (place s)) (Set.Icc 0 total) := by
    refine LipschitzOnWith.of_dist_le_mul fun x hx y hy => ?_
    rw [Real.coe_toNNReal _ hL, Real.dist_eq, Real.dist_eq]
    exact hdens x hx y hy
  exact this.continuousOn

/-- **C137.** The returned cost is as close as desired to the documented one if the gaps between the distances and the
errors of the times are small enough: for each density that is continuous along the way and depends continuously on the
time near the way, and each absolute cost that depends continuously on the time of arrival. -/
theorem C137_limit (h0 : 0 ≤ total)
    (hc : ContinuousOn (fun s => dens (T s) (place s)) (Set.Icc 0 total))
    (htime : ∀ e > 0, ∃ del > 0, ∀ s ∈ Set.Icc 0 total, ∀ t, |t - T s| ≤ del →
      |dens t (place s) - dens (T s) (place s)| ≤ e)
    (habs : ContinuousAt (fun t => abs t total) (T total)) {e : ℝ} (he : 0 < e) :
    ∃ h > 0, ∃ del > 0, ∀ nodes : List (ℝ × ℝ), Mesh h 0 total (nodes.map (·.1)) →
      (∀ s t, (s, t) ∈ nodes → |t - T s| ≤ del) →
      ∃ x, costCruise nodes place total abs (some dens) = .ok x ∧
        |x - (abs (T total) total + ∫ s in (0 : ℝ)..total, dens (T s) (place s))| ≤ e := by
  set q := e / (3 * (total + 1)) with hq
  have q0 : 0 < q := by positivity
  have hqt : (q + q) * total ≤ 2 * e / 3 := by
    have : q * (3 * (total + 1)) = e := div_mul_cancel₀ _ (by positivity)
    nlinarith
  have huc := isCompact_Icc.uniformContinuousOn_of_continuous hc
  rw [Metric.uniformContinuousOn_iff] at huc
  obtain ⟨h, hh, huc⟩ := huc q q0
  obtain ⟨d1, hd1, hdens⟩ := htime q q0
  obtain ⟨d2, hd2, hab⟩ := Metric.continuousAt_iff.1 habs (e / 3) (by positivity)
  refine ⟨h / 2, by positivity, min d1 (d2 / 2), lt_min hd1 (by positivity), fun nodes hm ht => ?_⟩
  obtain ⟨x, hx, hb⟩ := cost_error (abs := abs) (al := e / 3) (om := q) (mu := q) hm hc (fun x hx y hy hxy => by
      have := huc x hx y hy (by rw [Real.dist_eq]; linarith)
      rw [Real.dist_eq] at this
      exact this.le) (fun n hn => hdens n.1 (hm.le.2 n.1 (List.mem_map_of_mem hn)) n.2
        ((ht n.1 n.2 hn).trans (min_le_left _ _))) (fun n hn hne => by
      have h1 := ht n.1 n.2 hn
      rw [hne] at h1
      have := hab (x := n.2) (by
        rw [Real.dist_eq]
        have := h1.trans (min_le_right _ _)
        linarith)
      rw [Real.dist_eq] at this
      exact this.le)
  exact ⟨x, hx, hb.trans (by linarith)⟩

end

/-- The density is the square of the distance on a way of length 1 with three nodes. -/
example : ∃ x, costCruise [(0, 0), (1 / 2, 1), (1, 2)] (fun s => s) 1 (fun t _ => t) (some fun _ p => p ^ 2) = .ok x ∧
    |x - (2 + 1 / 3)| ≤ 1 := by
  obtain ⟨x, hx, hb⟩ := C137_error (T := fun s => 2 * s) (place := fun s : ℝ => s) (total := 1) (abs := fun t _ => t)
    (dens := fun _ p => p ^ 2) (nodes := [(0, 0), (1 / 2, 1), (1, 2)]) (h := 1 / 2) (del := 0) (L := 2) (M := 0) (A := 1)
    (by norm_num) le_rfl (by norm_num)
    (by simp only [List.map_cons, List.map_nil, Mesh]; norm_num)
    (by
      intro s t hm
      simp only [List.mem_cons, Prod.mk.injEq, List.not_mem_nil, or_false] at hm
      rcases hm with ⟨rfl, rfl⟩ | ⟨rfl, rfl⟩ | ⟨rfl, rfl⟩ <;> norm_num)
    (by
      intro x hx y hy
      have : x ^ 2 - y ^ 2 = (x + y) * (x - y) := by ring
      rw [this, abs_mul]
      refine mul_le_mul_of_nonneg_right ?_ (abs_nonneg _)
      rw [abs_le]
      constructor <;> linarith [hx.1, hx.2, hy.1, hy.2]) (by simp) (by simp)
  refine ⟨x, hx, ?_⟩
  have hi : ∫ s in (0 : ℝ)..1, s ^ 2 = 1 / 3 := by
    rw [integral_pow]
    norm_num
  simp only [hi] at hb
  norm_num at hb ⊢
  exact hb

end Verif.Course
