import Verif.Model.FloatSampler
import Verif.Props.FloatCloud

/-!
# Property C198: `UniformRandomSampler` in double precision
-/

set_option linter.unusedSectionVars false

namespace Verif.F64

open Verif.Interp
open Verif.Sampler (Facet)

variable {K : Type} [Field K] [LinearOrder K] [IsStrictOrderedRing K] [FloorRing K]

/-! ### Lemmas -/

/-- A double that is multiplied with a number below one becomes smaller, also after rounding. -/
theorem fl_mul_lt {y z : K} (hy : 0 < y) (hd : fl y = y) (hz : z ≤ 1 - u K) : fl (y * z) < y := by
  obtain ⟨m, k, rfl, hm1, hm2⟩ := Verif.FloatText.double_form hy hd
  have hk : (0 : K) < 2 ^ k := two_zpow_pos (K := K) k
  have hu : u K = 1 / 2 ^ 53 := by unfold u; norm_num
  have hle : fl ((m : K) * 2 ^ k * z) ≤ fl ((m : K) * 2 ^ k * (1 - u K)) := fl_mono (by gcongr)
  refine hle.trans_lt ?_
  rcases eq_or_lt_of_le hm1 with he | hlt
  · have e : (m : K) * 2 ^ k * (1 - u K) = ((2 ^ 53 - 1 : ℤ) : K) * 2 ^ (k - 1) := by
      rw [← he, hu, zpow_sub₀ (by norm_num)]
      push_cast
      field_simp
      norm_num
    rw [e, fl_exact (by norm_num), ← e]
    have : 0 < (m : K) * 2 ^ k * u K := mul_pos hy (u_pos)
    linarith
  · set v := (m : K) * 2 ^ k * (1 - u K) with hv
    have hmk : ((2 ^ 52 + 1 : ℤ) : K) ≤ m := by exact_mod_cast hlt
    have hmk2 : (m : K) ≤ ((2 ^ 53 - 1 : ℤ) : K) := by exact_mod_cast hm2
    push_cast at hmk hmk2
    have ht : v / 2 ^ k = m - m / 2 ^ 53 := by
      rw [hv, hu]
      field_simp
    have hvlow : (2 : K) ^ (52 : ℤ) * 2 ^ k ≤ v := by
      rw [← le_div_iff₀ hk, ht]
      have : (m : K) / 2 ^ 53 ≤ 1 := by
        rw [div_le_one (by positivity)]
        linarith
      have h52 : (2 : K) ^ (52 : ℤ) = 2 ^ 52 := by norm_cast
      rw [h52]
      linarith
    have hvup : v < (2 : K) ^ (53 : ℤ) * 2 ^ k := by
      rw [← div_lt_iff₀ hk, ht]
      have : (0 : K) ≤ (m : K) / 2 ^ 53 := by
        apply div_nonneg _ (by positivity)
        linarith
      have h53 : (2 : K) ^ (53 : ℤ) = 2 ^ 53 := by norm_cast
      rw [h53]
      linarith
    have hvpos : 0 < v := lt_of_lt_of_le (by positivity) hvlow
    have hlog : Int.log 2 |v| = 52 + k := by
      rw [abs_of_pos hvpos]
      refine le_antisymm ?_ ?_
      · have := (Int.lt_zpow_iff_log_lt (b := 2) (x := 53 + k) (by norm_num) hvpos).1 (by
          push_cast
          rw [zpow_add₀ (by norm_num)]
          exact hvup)
        omega
      · exact (Int.zpow_le_iff_le_log (b := 2) (x := 52 + k) (by norm_num) hvpos).1 (by
          push_cast
          rw [zpow_add₀ (by norm_num)]
          exact hvlow)
    unfold fl
    rw [if_neg hvpos.ne']
    simp only [hlog, add_sub_cancel_left]
    rw [ht]
    refine mul_lt_mul_of_pos_right ?_ hk
    have hr := (pyRound_spec ((m : K) - m / 2 ^ 53)).1
    have hr2 := (pyRound_spec ((m : K) - m / 2 ^ 53)).2
    have : (1 : K) / 2 < m / 2 ^ 53 := by
      rw [lt_div_iff₀ (by positivity)]
      linarith
    linarith

/-! ### C198 -/

/-- **C198.** A number drawn from the range between two doubles is a double in this range, although the width of the range, the
product and the sum are rounded. -/
theorem C198_value {lo hi z : K} (hlo : fl lo = lo) (hhi : fl hi = hi) (h : lo ≤ hi) (hz0 : 0 ≤ z) (hz1 : z ≤ 1 - u K) :
    fl (uniformValue lo hi z) = uniformValue lo hi z ∧ lo ≤ uniformValue lo hi z ∧ uniformValue lo hi z ≤ hi := by
  have hx : 0 ≤ hi - lo := by linarith
  have hy : 0 ≤ fl (hi - lo) := fl_nonneg hx
  refine ⟨fl_fl _, ?_, ?_⟩
  · calc lo = fl lo := hlo.symm
      _ ≤ _ := fl_mono (by linarith [fl_nonneg (mul_nonneg hy hz0)])
  · have key : fl (fl (hi - lo) * z) ≤ hi - lo := by
      rcases hy.eq_or_lt with h0 | hpos
      · rw [← h0, zero_mul, fl_zero]
        exact hx
      · have hlt := fl_mul_lt hpos (fl_fl _) hz1
        by_contra hc
        have := fl_mono (not_le.1 hc).le
        rw [fl_fl] at this
        linarith
    calc uniformValue lo hi z ≤ fl hi := fl_mono (by linarith)
      _ = hi := hhi

theorem foldl_min_le {l : List K} {x : K} : (l.foldl min x) ≤ x ∧ (∀ y ∈ l, l.foldl min x ≤ y) ∧ (l.foldl min x = x ∨ l.foldl min x ∈ l) := by
  induction l generalizing x with
  | nil => simp
  | cons a l ih =>
    obtain ⟨h1, h2, h3⟩ := ih (x := min x a)
    refine ⟨h1.trans (min_le_left _ _), fun y hy => ?_, ?_⟩
    · rcases List.mem_cons.1 hy with rfl | hy
      · exact h1.trans (min_le_right _ _)
      · exact h2 y hy
    · rw [List.foldl_cons]
      rcases h3 with h3 | h3
      · rw [h3]
        rcases min_choice x a with h | h <;> rw [h]
        · exact .inl rfl
        · exact .inr (by simp)
      · exact .inr (by simp [h3])

theorem le_foldl_max {l : List K} {x : K} : x ≤ (l.foldl max x) ∧ (∀ y ∈ l, y ≤ l.foldl max x) ∧ (l.foldl max x = x ∨ l.foldl max x ∈ l) := by
  induction l generalizing x with
  | nil => simp
  | cons a l ih =>
    obtain ⟨h1, h2, h3⟩ := ih (x := max x a)
    refine ⟨(le_max_left _ _).trans h1, fun y hy => ?_, ?_⟩
    · rcases List.mem_cons.1 hy with rfl | hy
      · exact (le_max_right _ _).trans h1
      · exact h2 y hy
    · rw [List.foldl_cons]
      rcases h3 with h3 | h3
      · rw [h3]
        rcases max_choice x a with h | h <;> rw [h]
        · exact .inl rfl
        · exact .inr (by simp)
      · exact .inr (by simp [h3])

/-- **C198.** Winds are drawn from the range between the smallest and the largest wind speed and wind angle of the data. -/
theorem C198_bounds {pts : List (K × K)} {b : (K × K) × (K × K)} (h : createBounds pts = .ok b) :
    (∃ p ∈ pts, p.1 = b.1.1) ∧ (∃ p ∈ pts, p.1 = b.1.2) ∧ (∃ p ∈ pts, p.2 = b.2.1) ∧ (∃ p ∈ pts, p.2 = b.2.2) ∧
      ∀ p ∈ pts, b.1.1 ≤ p.1 ∧ p.1 ≤ b.1.2 ∧ b.2.1 ≤ p.2 ∧ p.2 ≤ b.2.2 := by
  cases pts with
  | nil => cases h
  | cons q ps =>
    cases h
    obtain ⟨a1, a2, a3⟩ := foldl_min_le (l := ps.map Prod.fst) (x := q.1)
    obtain ⟨b1, b2, b3⟩ := le_foldl_max (l := ps.map Prod.fst) (x := q.1)
    obtain ⟨c1, c2, c3⟩ := foldl_min_le (l := ps.map Prod.snd) (x := q.2)
    obtain ⟨d1, d2, d3⟩ := le_foldl_max (l := ps.map Prod.snd) (x := q.2)
    have pick : ∀ (f : K × K → K) (v : K), v = f q ∨ v ∈ ps.map f → ∃ p ∈ q :: ps, f p = v := by
      rintro f v (h | h)
      · exact ⟨q, by simp, h.symm⟩
      · obtain ⟨p, hp, rfl⟩ := List.mem_map.1 h
        exact ⟨p, by simp [hp], rfl⟩
    refine ⟨pick Prod.fst _ a3, pick Prod.fst _ b3, pick Prod.snd _ c3, pick Prod.snd _ d3, fun p hp => ?_⟩
    rcases List.mem_cons.1 hp with rfl | hp
    · exact ⟨a1, b1, c1, d1⟩
    · exact ⟨a2 _ (List.mem_map_of_mem hp), b2 _ (List.mem_map_of_mem hp), c2 _ (List.mem_map_of_mem hp),
        d2 _ (List.mem_map_of_mem hp)⟩

/-- The loop: the samples found are of one kind and their number is right. -/
theorem draws_spec {ineqs : List (Facet K)} {bounds : (K × K) × (K × K)} {n : Nat} {P : K × K → Prop} {Z : K → Prop}
    (hP : ∀ m z, (∀ k, Z (z k)) → ∀ p ∈ uniformWinds bounds m z, inHull ineqs p = true → P p) :
    ∀ {fuel : Nat} {z : Nat → K} {samples r : List (K × K)}, (∀ k, Z (z k)) → samples.length ≤ n → (∀ p ∈ samples, P p) →
      uniformDraws ineqs bounds n fuel z samples = some r → r.length = n ∧ ∀ p ∈ r, P p := by
  intro fuel
  induction fuel with
  | zero => intro z samples r _ _ _ h; cases h
  | succ fuel ih =>
    intro z samples r hz hl hs h
    rw [uniformDraws] at h
    split at h
    · refine ih (fun k => hz _) ?_ ?_ h
      · have h1 : ((uniformWinds bounds (n - samples.length) z).filter (inHull ineqs)).length ≤ n - samples.length := by
          refine (List.length_filter_le _ _).trans ?_
          simp [uniformWinds]
        rw [List.length_append]
        omega
      · intro p hp
        rcases List.mem_append.1 hp with hp | hp
        · exact hs p hp
        · exact hP _ _ hz p (List.mem_of_mem_filter hp) (List.mem_filter.1 hp).2
    · cases h
      exact ⟨by omega, hs⟩

/-- **C198.** If `UniformRandomSampler` returns, then it returns `n` winds; their wind speeds and wind angles are doubles between the
smallest and largest ones of the data, and they satisfy the calculated inequalities of the convex hull; the exact inequalities are
violated by at most `4 / 2^53` times the terms. -/
theorem C198_samples {hull : List (K × K) → Except PyErr (List (Facet K))} {n fuel : Nat} {pts : List (K × K)} {z : Nat → K}
    (hz : ∀ k, 0 ≤ z k ∧ z k ≤ 1 - u K) (hd : ∀ p ∈ pts, fl p.1 = p.1 ∧ fl p.2 = p.2) {r : List (K × K)}
    (h : uniformSample hull n fuel pts z = some (.ok r)) :
    r.length = n ∧ ∃ ineqs, hull pts = .ok ineqs ∧ ∀ p ∈ r,
      (fl p.1 = p.1 ∧ fl p.2 = p.2) ∧
      ((∃ q ∈ pts, q.1 ≤ p.1) ∧ ∃ q ∈ pts, p.1 ≤ q.1) ∧ ((∃ q ∈ pts, q.2 ≤ p.2) ∧ ∃ q ∈ pts, p.2 ≤ q.2) ∧
      ∀ f ∈ ineqs, f.1 * p.1 + f.2.1 * p.2 ≤ -f.2.2 + 4 * u K * (|f.1 * p.1| + |f.2.1 * p.2|) := by
  unfold uniformSample at h
  cases hh : hull pts with
  | error e => rw [hh] at h; cases h
  | ok ineqs =>
    rw [hh] at h
    cases hb : createBounds pts with
    | error e => rw [hb] at h; cases h
    | ok b =>
      rw [hb] at h
      obtain ⟨r', hr, he⟩ := Option.map_eq_some_iff.1 h
      cases he
      obtain ⟨⟨p1, m1, e1⟩, ⟨p2, m2, e2⟩, ⟨p3, m3, e3⟩, ⟨p4, m4, e4⟩, hall⟩ := C198_bounds hb
      have hw : b.1.1 ≤ b.1.2 := by
        have := hall p1 m1
        exact this.1.trans this.2.1
      have ha : b.2.1 ≤ b.2.2 := by
        have := hall p1 m1
        exact this.2.2.1.trans this.2.2.2
      have d1 : fl b.1.1 = b.1.1 := by rw [← e1]; exact (hd p1 m1).1
      have d2 : fl b.1.2 = b.1.2 := by rw [← e2]; exact (hd p2 m2).1
      have d3 : fl b.2.1 = b.2.1 := by rw [← e3]; exact (hd p3 m3).2
      have d4 : fl b.2.2 = b.2.2 := by rw [← e4]; exact (hd p4 m4).2
      obtain ⟨r1, r2⟩ := draws_spec (ineqs := ineqs) (bounds := b) (n := n) (Z := fun x => 0 ≤ x ∧ x ≤ 1 - u K)
        (P := fun p => (fl p.1 = p.1 ∧ fl p.2 = p.2) ∧
          ((∃ q ∈ pts, q.1 ≤ p.1) ∧ ∃ q ∈ pts, p.1 ≤ q.1) ∧ ((∃ q ∈ pts, q.2 ≤ p.2) ∧ ∃ q ∈ pts, p.2 ≤ q.2) ∧
          ∀ f ∈ ineqs, f.1 * p.1 + f.2.1 * p.2 ≤ -f.2.2 + 4 * u K * (|f.1 * p.1| + |f.2.1 * p.2|)) (by
        intro m z hz p hp hin
        obtain ⟨j, -, rfl⟩ := List.mem_map.1 hp
        obtain ⟨v1, v2, v3⟩ := C198_value d1 d2 hw (hz j).1 (hz j).2
        obtain ⟨w1, w2, w3⟩ := C198_value d3 d4 ha (hz (m + j)).1 (hz (m + j)).2
        refine ⟨⟨v1, w1⟩, ⟨⟨p1, m1, e1.trans_le v2⟩, ⟨p2, m2, v3.trans_eq e2.symm⟩⟩,
          ⟨⟨p3, m3, e3.trans_le w2⟩, ⟨p4, m4, w3.trans_eq e4.symm⟩⟩, fun f hf => ?_⟩
        have hin' := List.all_eq_true.1 hin f hf
        simp only [decide_eq_true_eq] at hin'
        generalize f.1 * uniformValue b.1.1 b.1.2 (z j) = A at hin' ⊢
        generalize f.2.1 * uniformValue b.2.1 b.2.2 (z (m + j)) = B at hin' ⊢
        have eA : |fl A - A| ≤ u K * |A| := fl_error A
        have eB : |fl B - B| ≤ u K * |B| := fl_error B
        have eS : |fl (fl A + fl B) - (fl A + fl B)| ≤ u K * |fl A + fl B| := fl_error _
        have hu := u_pos (K := K)
        have hu1 : u K ≤ 1 := by unfold u; norm_num
        have sA := abs_nonneg A
        have sB := abs_nonneg B
        have uA : u K * |A| ≤ |A| := mul_le_of_le_one_left sA hu1
        have uB : u K * |B| ≤ |B| := mul_le_of_le_one_left sB hu1
        have hS : |fl A + fl B| ≤ 2 * (|A| + |B|) := by
          have t1 : |fl A| ≤ 2 * |A| := by
            have := abs_add_le (fl A - A) A
            rw [sub_add_cancel] at this
            linarith
          have t2 : |fl B| ≤ 2 * |B| := by
            have := abs_add_le (fl B - B) B
            rw [sub_add_cancel] at this
            linarith
          linarith [abs_add_le (fl A) (fl B)]
        have hS' : u K * |fl A + fl B| ≤ u K * (2 * (|A| + |B|)) := mul_le_mul_of_nonneg_left hS hu.le
        have := abs_le.1 eA
        have := abs_le.1 eB
        have := abs_le.1 eS
        nlinarith) hz (by simp) (by simp) hr
      exact ⟨r1, ineqs, rfl, r2⟩

/-- **C198.** If in every round there is a draw that satisfies the inequalities, then the loop ends after at most `n` rounds. -/
theorem C198_returns {ineqs : List (Facet K)} {bounds : (K × K) × (K × K)} {n : Nat} {Z : (Nat → K) → Prop}
    (hZ : ∀ z, Z z → ∀ m, 0 < m → m ≤ n → (∃ p ∈ uniformWinds bounds m z, inHull ineqs p = true) ∧ Z fun k => z (2 * m + k)) :
    ∀ {fuel : Nat} {z : Nat → K} {samples : List (K × K)}, Z z → n - samples.length < fuel →
      ∃ r, uniformDraws ineqs bounds n fuel z samples = some r := by
  intro fuel
  induction fuel with
  | zero => intro z samples _ h; omega
  | succ fuel ih =>
    intro z samples hz hl
    rw [uniformDraws]
    split
    · rename_i hlt
      obtain ⟨⟨p, hp, hin⟩, hz'⟩ := hZ z hz (n - samples.length) (by omega) (by omega)
      refine ih hz' ?_
      have : 0 < ((uniformWinds bounds (n - samples.length) z).filter (inHull ineqs)).length :=
        List.length_pos_of_mem (List.mem_filter.2 ⟨hp, hin⟩)
      rw [List.length_append]
      omega
    · exact ⟨_, rfl⟩

/-- **C198.** If no draw ever satisfies the calculated inequalities then the loop never ends. -/
theorem C198_running {ineqs : List (Facet K)} {bounds : (K × K) × (K × K)} {n : Nat} (hn : 0 < n) {z : Nat → K}
    (h : ∀ i j, inHull ineqs (uniformValue bounds.1.1 bounds.1.2 (z i), uniformValue bounds.2.1 bounds.2.2 (z j)) = false)
    (fuel : Nat) : uniformDraws ineqs bounds n fuel z [] = none := by
  induction fuel generalizing z with
  | zero => rfl
  | succ fuel ih =>
    rw [uniformDraws, if_pos (by simpa using hn)]
    have : (uniformWinds bounds (n - ([] : List (K × K)).length) z).filter (inHull ineqs) = [] := by
      rw [List.filter_eq_nil_iff]
      intro p hp
      obtain ⟨j, -, rfl⟩ := List.mem_map.1 hp
      rw [h]
      simp
    simp only [this, List.append_nil]
    exact ih fun i j => h _ _

/-- **C198.** The default sampler of `PointcloudExtension`: for data of doubles with nonnegative winds, whenever the sampler returns,
a cloud is made whose points have winds between those of the data, and it is read from a file as it was written. -/
theorem C198_extension {hull : List (ℚ × ℚ) → Except PyErr (List (Facet ℚ))} {n fuel : Nat} (hn : 0 < n) {z : Nat → ℚ}
    (hz : ∀ k, 0 ≤ z k ∧ z k ≤ 1 - u ℚ) {sample : List (Pt ℚ) → Except PyErr (List (ℚ × ℚ))}
    {ballNorm norm : ℚ × ℚ → ℚ} (hnorm : IsDist norm) {distr : ℚ → ℚ → ℚ} (hdist : ∀ d w, 0 < distr d w) {radius : ℚ}
    {points : List (Pt ℚ × ℚ)} (hlen : points.length + 1 ≤ 2 ^ 50)
    (hd : ∀ p ∈ points, fl p.1.1.1 = p.1.1.1 ∧ fl p.1.1.2 = p.1.1.2 ∧ fl p.1.2 = p.1.2)
    (h0 : ∀ p ∈ points, 0 ≤ p.1.1.1 ∧ 0 ≤ p.1.1.2)
    {interpolate : List (Pt ℚ × ℚ) → ℚ × ℚ → Except PyErr ℚ} (hi : Performs norm 1 distr interpolate) {gs : List (ℚ × ℚ)}
    (hs : sample (points.map Prod.fst) = .ok gs)
    (hu : uniformSample hull n fuel (points.map fun p => p.1.1) z = some (.ok gs)) :
    ∃ cloud, cloudProcess sample ballNorm radius interpolate points = .ok cloud ∧ cloud.length = n ∧
      (∀ c ∈ cloud, ((∃ q ∈ points, q.1.1.1 ≤ c.1.1) ∧ ∃ q ∈ points, c.1.1 ≤ q.1.1.1)) ∧
      ((∀ p ∈ points, p.1.1.2 < 360) → ∀ c ∈ cloud, (∃ q ∈ points, q.1.1.2 ≤ c.1.2) ∧ ∃ q ∈ points, c.1.2 ≤ q.1.1.2) ∧
      cloudFromCsv Verif.FloatText.parse (Cloud.toCsv Verif.FloatText.print cloud) = .ok cloud := by
  obtain ⟨hl, ineqs, -, hg⟩ := C198_samples hz (fun p hp => by
    obtain ⟨q, hq, rfl⟩ := List.mem_map.1 hp
    exact ⟨(hd q hq).1, (hd q hq).2.1⟩) hu
  have key : ∀ g ∈ gs, (fl g.1 = g.1 ∧ fl g.2 = g.2) ∧ ((∃ q ∈ points, q.1.1.1 ≤ g.1) ∧ ∃ q ∈ points, g.1 ≤ q.1.1.1) ∧
      ((∃ q ∈ points, q.1.1.2 ≤ g.2) ∧ ∃ q ∈ points, g.2 ≤ q.1.1.2) := by
    intro g hgm
    obtain ⟨a, b, c, -⟩ := hg g hgm
    have low : ∀ {f : ℚ × ℚ → ℚ} {x : ℚ}, (∃ q ∈ points.map (fun p => p.1.1), f q ≤ x) → ∃ q ∈ points, f q.1.1 ≤ x := by
      rintro f x ⟨q, hq, hle⟩
      obtain ⟨p, hp, rfl⟩ := List.mem_map.1 hq
      exact ⟨p, hp, hle⟩
    have up : ∀ {f : ℚ × ℚ → ℚ} {x : ℚ}, (∃ q ∈ points.map (fun p => p.1.1), x ≤ f q) → ∃ q ∈ points, x ≤ f q.1.1 := by
      rintro f x ⟨q, hq, hle⟩
      obtain ⟨p, hp, rfl⟩ := List.mem_map.1 hq
      exact ⟨p, hp, hle⟩
    exact ⟨a, ⟨low (f := Prod.fst) b.1, up (f := Prod.fst) b.2⟩, ⟨low (f := Prod.snd) c.1, up (f := Prod.snd) c.2⟩⟩
  have hpos : ∀ g ∈ gs, 0 ≤ g.1 ∧ 0 ≤ g.2 := by
    intro g hgm
    obtain ⟨-, ⟨⟨q, hq, hle⟩, -⟩, ⟨q', hq', hle'⟩, -⟩ := key g hgm
    exact ⟨(h0 q hq).1.trans hle, (h0 q' hq').2.trans hle'⟩
  have hne : gs ≠ [] := by
    rintro rfl
    simp only [List.length_nil] at hl
    omega
  obtain ⟨g0, hg0⟩ := List.exists_mem_of_ne_nil _ hne
  obtain ⟨cloud, h1, h2⟩ := C197_made (ballNorm := ballNorm) (radius := radius) hnorm hdist hlen (fun p hp => (hd p hp).2.2) hi hs
    (fun g hgm => ⟨(key g hgm).1.1, (key g hgm).1.2, (hpos g hgm).2⟩) ⟨g0, hg0, (hpos g0 hg0).1⟩
  obtain ⟨v, h3, -⟩ := C197_extension (ballNorm := ballNorm) (radius := radius) hnorm hdist hlen hi hs hne
  rw [h1] at h3
  have hf : (gs.filter fun g => decide (0 ≤ g.1)) = gs := by
    rw [List.filter_eq_self]
    intro g hgm
    simpa using (hpos g hgm).1
  rw [hf] at h3
  have h4 := Except.ok.inj h3
  refine ⟨cloud, h1, by rw [h4, List.length_map, hl], fun c hc => ?_, fun h360 c hc => ?_, h2⟩
  · rw [h4] at hc
    obtain ⟨g, hgm, rfl⟩ := List.mem_map.1 hc
    exact (key g hgm).2.1
  · rw [h4] at hc
    obtain ⟨g, hgm, rfl⟩ := List.mem_map.1 hc
    obtain ⟨-, -, ⟨q, hq, hle⟩, q', hq', hle'⟩ := key g hgm
    simp only [mod_small (hpos g hgm).2 (hle'.trans_lt (h360 q' hq'))]
    exact ⟨⟨q, hq, hle⟩, q', hq', hle'⟩

/-- **C198.** That the random numbers are below 1 is needed: with 1 the upper bound would be exceeded by rounding. -/
theorem C198_one_needed : ∃ lo hi : ℚ, fl lo = lo ∧ fl hi = hi ∧ lo ≤ hi ∧ hi < uniformValue lo hi 1 :=
  ⟨3 / 2, 2 ^ 53 - 1, by decide +kernel⟩

/-- Draws that stay in their range. -/
example : uniformValue (fl (1 / 10)) (fl (3 / 10)) ((1 : ℚ) - 1 / 2 ^ 53) ≤ fl (3 / 10) ∧
    fl (3 / 10 : ℚ) - uniformValue (fl (1 / 10)) (fl (3 / 10)) ((1 : ℚ) - 1 / 2 ^ 53) < 1 / 2 ^ 50 := by decide +kernel

/-- A sample of a triangle. -/
theorem triangle_sample : uniformSample (fun _ => .ok [(-1, 0, 0), (0, -1, 0), (1, 1, -1)]) 2 3 [(0, 0), (1, 0), (0, (1 : ℚ))]
    (fun k => if k < 2 then 3 / 4 else if k = 2 then 1 / 2 else 1 / 4) = some (.ok [(3 / 4, 1 / 4), (1 / 4, 1 / 4)]) := by
  have h : (uniformSample (fun _ => .ok [(-1, 0, 0), (0, -1, 0), (1, 1, -1)]) 2 3 [(0, 0), (1, 0), (0, (1 : ℚ))]
    (fun k => if k < 2 then 3 / 4 else if k = 2 then 1 / 2 else 1 / 4)).map Except.toOption =
      some (some [(3 / 4, 1 / 4), (1 / 4, 1 / 4)]) := by decide +kernel
  cases hs : uniformSample (fun _ => .ok [(-1, 0, 0), (0, -1, 0), (1, 1, -1)]) 2 3 [(0, 0), (1, 0), (0, (1 : ℚ))]
    (fun k => if k < 2 then 3 / 4 else if k = 2 then 1 / 2 else 1 / 4) with
  | none => rw [hs] at h; cases h
  | some r =>
    rw [hs] at h
    cases r with
    | error e => simp [Except.toOption] at h
    | ok l => simpa [Except.toOption] using h

/-- A cloud is made from it. -/
example : ∃ interpolate cloud, cloudProcess (fun _ => .ok [(3 / 4, 1 / 4), (1 / 4, 1 / 4)])
      (fun x : ℚ × ℚ => fl (max |x.1| |x.2|)) 10 interpolate [(((0, 0), 1), 1), (((1, 0), 2), 1), (((0, 1), 3), 1)] = .ok cloud ∧
    cloud.length = 2 ∧ cloudFromCsv Verif.FloatText.parse (Cloud.toCsv Verif.FloatText.print cloud) = .ok cloud := by
  obtain ⟨interpolate, hi⟩ := exists_performs (fun x : ℚ × ℚ => fl (max |x.1| |x.2|)) 1 (fun _ _ : ℚ => 1)
  obtain ⟨cloud, h1, h2, -, -, h3⟩ := C198_extension (n := 2) (by norm_num)
    (z := fun k => if k < 2 then 3 / 4 else if k = 2 then 1 / 2 else 1 / 4) (by
      intro k
      have hu : u ℚ = 1 / 2 ^ 53 := by unfold u; norm_num
      rw [hu]
      split
      · norm_num
      · split <;> norm_num)
    (sample := fun _ => .ok [(3 / 4, 1 / 4), (1 / 4, 1 / 4)])
    (ballNorm := fun x : ℚ × ℚ => fl (max |x.1| |x.2|)) (radius := 10) isDist_flmax
    (distr := fun _ _ => 1) (fun _ _ => one_pos) (points := [(((0, 0), 1), 1), (((1, 0), 2), 1), (((0, 1), 3), 1)])
    (by norm_num) (by decide +kernel) (by decide +kernel) hi rfl triangle_sample
  exact ⟨interpolate, cloud, h1, h2, h3⟩

/-- Without inequalities every draw is taken, so the loop ends; with one that no number satisfies it does not. -/
example (z : Nat → ℚ) : (∃ r, uniformDraws [] ((0, 1), (0, 1)) 5 6 z [] = some r) ∧
    ∀ fuel, uniformDraws [(0, 0, 1)] ((0, 1), (0, 1)) 5 fuel z [] = none := by
  refine ⟨C198_returns (Z := fun _ => True) (fun z _ m hm _ => ⟨⟨_, List.mem_map.2 ⟨0, by simpa using hm, rfl⟩, rfl⟩, trivial⟩) trivial
    (by simp), fun fuel => C198_running (by norm_num) (fun i j => ?_) fuel⟩
  simp [inHull, fl_zero]

end Verif.F64
