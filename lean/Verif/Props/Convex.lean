import Mathlib.Data.Fin.VecNotation
import Mathlib.Tactic.FinCases
import Mathlib.Tactic.IntervalCases
import Verif.Lemmas.Hull

set_option linter.unusedSectionVars false

/-! # C71, C72: the fastest mix of courses, and the duration of a cruise -/

namespace Verif.Convex

open Curve (deg2rad rad2deg)

/-- The unit vector of a course given in degrees. -/
noncomputable def heading (x : ℝ) : ℝ × ℝ := (Real.cos (x * Real.pi / 180), Real.sin (x * Real.pi / 180))

/-- The velocity of the boat on a course. -/
noncomputable def velocity {n : Nat} (wa bsp : Fin n → ℝ) (i : Fin n) : ℝ × ℝ := bsp i • heading (wa i)

theorem unit_eq : unit = heading := rfl

theorem polarPoint_velocity {n : Nat} (wa bsp : Fin n → ℝ) (i : Fin n) :
    polarPoint (wa i) (bsp i) = velocity wa bsp i := rfl

section
variable {n : Nat} {σ : Type} [DecidableEq σ] {vertices : List (Fin n)} {wa bsp : Fin n → ℝ}
  {info : Option (Fin n → σ)} {direction : ℝ}

theorem sorted_vertices (hn : vertices.Nodup) :
    (vertices.insertionSort (· ≤ ·)).Pairwise (· < ·) := by
  have h1 : (vertices.insertionSort (· ≤ ·)).Pairwise (· ≤ ·) := List.pairwise_insertionSort _ _
  have h2 : (vertices.insertionSort (· ≤ ·)).Nodup := (List.perm_insertionSort _ _).nodup_iff.mpr hn
  exact (h1.and h2).imp fun h => lt_of_le_of_ne h.1 h.2

/-- The hull of the vertices is the hull of all points. -/
theorem hull_vertices {P : Fin n → ℝ × ℝ} (hull : IsHull P vertices) :
    convexHull ℝ (Set.range P) = convexHull ℝ (P '' {v | v ∈ vertices}) := by
  apply subset_antisymm
  · apply convexHull_min _ (convex_convexHull ℝ _)
    rintro _ ⟨i, rfl⟩
    exact hull.spans i
  · apply convexHull_mono
    rintro _ ⟨i, -, rfl⟩
    exact ⟨i, rfl⟩

/-- The situation found by `chooseEdge`: two neighbouring vertices `a`, `c`, possibly in the other order, whose
angles (turned by a full circle if necessary) enclose the direction. -/
theorem choose_spec (hull : IsHull (velocity wa bsp) vertices) (hwa : StrictMono wa)
    (hrange : ∀ i, 0 ≤ wa i ∧ wa i < 360) (hb : ∀ v ∈ vertices, 0 < bsp v)
    (h0 : (0 : ℝ × ℝ) ∈ convexHull ℝ (Set.range (velocity wa bsp))) (hd : 0 ≤ direction ∧ direction < 360)
    {i1 i2 : Fin n} (h : chooseEdge wa direction (vertices.insertionSort (· ≤ ·)) = .ok (i1, i2)) :
    i1 ∈ vertices ∧ i2 ∈ vertices ∧ ∃ (th : Fin n → ℝ) (d : ℝ) (a c : Fin n),
      (∀ i, polarPoint (th i) (bsp i) = velocity wa bsp i) ∧ heading d = heading direction ∧
      ((a = i1 ∧ c = i2) ∨ (a = i2 ∧ c = i1)) ∧ a ∈ vertices ∧ c ∈ vertices ∧
      th a < th c ∧ th c ≤ th a + 180 ∧ th a ≤ d ∧ d ≤ th c ∧
      ∀ w ∈ vertices, w ≠ a → w ≠ c → th c < th w ∧ th w < th a + 360 := by
  have hperm : ∀ v, v ∈ vertices.insertionSort (· ≤ ·) ↔ v ∈ vertices :=
    fun v => (List.perm_insertionSort _ _).mem_iff
  have hsorted := sorted_vertices hull.nodup
  have hsd : ∀ i, polarPoint (wa i + 360) (bsp i) = velocity wa bsp i := fun i => by
    rw [polarPoint_add_360, polarPoint_velocity]
  unfold chooseEdge at h
  split at h
  · -- an edge between two neighbouring vertices
    rename_i e he
    simp only [Except.ok.injEq] at h
    subst h
    obtain ⟨pre, post, hl, h1, h2⟩ := findEdge_some he
    have hmem1 : i1 ∈ vertices := (hperm _).mp (by rw [hl]; simp)
    have hmem2 : i2 ∈ vertices := (hperm _).mp (by rw [hl]; simp)
    rw [hl, List.pairwise_append] at hsorted
    obtain ⟨-, hs2, hs3⟩ := hsorted
    have hlt : i1 < i2 := (List.pairwise_cons.mp hs2).1 i2 (by simp)
    have hother : ∀ w ∈ vertices, w ≠ i1 → w ≠ i2 → w < i1 ∨ i2 < w := by
      intro w hw e1 e2
      rw [← hperm, hl] at hw
      simp only [List.mem_append, List.mem_cons] at hw
      rcases hw with hw | hw | hw | hw
      · left; exact hs3 w hw i1 (by simp)
      · exact absurd hw e1
      · exact absurd hw e2
      · right; exact (List.pairwise_cons.mp (List.pairwise_cons.mp hs2).2).1 w hw
    have hwlt : ∀ w, i2 < w → ¬ w < i1 := fun w h h' => absurd (h'.trans hlt) (not_lt.mpr h.le)
    refine ⟨hmem1, hmem2, fun i => if i < i1 then wa i + 360 else wa i, direction, i1, i2, ?_, rfl, .inl ⟨rfl, rfl⟩,
      hmem1, hmem2, ?_, ?_, ?_, ?_, ?_⟩
    · intro i
      simp only
      split
      · exact hsd i
      · rfl
    · simp only [lt_irrefl, if_false, if_neg (not_lt.mpr hlt.le)]
      exact hwa hlt
    · simp only [lt_irrefl, if_false, if_neg (not_lt.mpr hlt.le)]
      by_contra hgap
      rw [not_le] at hgap
      refine zero_not_mem (V := vertices) (th := fun i => if i ≤ i1 then wa i + 360 else wa i) (b := bsp)
        (a := wa i2) (c := wa i1 + 360) (by linarith) hb ?_ ?_
      · intro w hw
        have r := hrange w
        have r1 := hrange i1
        have r2 := hrange i2
        by_cases e1 : w = i1
        · subst e1; rw [if_pos le_rfl]; exact ⟨by linarith, le_rfl⟩
        by_cases e2 : w = i2
        · subst e2; rw [if_neg (not_le.mpr hlt)]; exact ⟨le_rfl, by linarith⟩
        rcases hother w hw e1 e2 with h' | h'
        · rw [if_pos h'.le]
          have := hwa h'
          constructor <;> linarith
        · rw [if_neg (not_le.mpr (hlt.trans h'))]
          have := hwa h'
          constructor <;> linarith
      · have : (fun i => polarPoint (if i ≤ i1 then wa i + 360 else wa i) (bsp i)) = velocity wa bsp := by
          funext i
          split
          · exact hsd i
          · rfl
        rw [this, ← hull_vertices hull]; exact h0
    · simp only [lt_irrefl, if_false]; exact h1
    · simp only [if_neg (not_lt.mpr hlt.le)]; exact h2
    · intro w hw e1 e2
      have r := hrange w
      have r1 := hrange i1
      have r2 := hrange i2
      simp only [lt_irrefl, if_false, if_neg (not_lt.mpr hlt.le)]
      rcases hother w hw e1 e2 with h' | h'
      · rw [if_pos h']
        have := hwa h'
        constructor <;> linarith
      · rw [if_neg (hwlt w h')]
        have := hwa h'
        constructor <;> linarith
  · -- the edge from the last to the first vertex
    rename_i he
    split at h
    · rename_i j1 j2 hj1 hj2
      split at h
      · cases h
      · rename_i hgap
        simp only [Except.ok.injEq, Prod.mk.injEq] at h
        obtain ⟨rfl, rfl⟩ := h
        obtain ⟨t, hl⟩ : ∃ t, vertices.insertionSort (· ≤ ·) = j1 :: t := by
          cases hv : vertices.insertionSort (· ≤ ·) with
          | nil => rw [hv] at hj1; cases hj1
          | cons x t => rw [hv] at hj1; simp only [List.head?_cons, Option.some.injEq] at hj1; exact ⟨t, by rw [hj1]⟩
        rw [hl] at he hj2 hsorted
        have hlast : (j1 :: t).getLast (by simp) = j2 := by
          rw [List.getLast?_eq_some_getLast (by simp)] at hj2
          simpa using hj2
        have hmem1 : j1 ∈ vertices := (hperm _).mp (by rw [hl]; simp)
        have hmem2 : j2 ∈ vertices := (hperm _).mp (by rw [hl, ← hlast]; exact List.getLast_mem _)
        have hne : t ≠ [] := by
          rintro rfl
          simp only [List.getLast_singleton] at hlast
          subst hlast
          apply hgap; simp
        have hdir : direction < wa j1 ∨ wa j2 < direction := by
          rcases findEdge_none he with h' | h' | h'
          · left; exact h'
          · right; rw [hlast] at h'; exact h'
          · exact absurd h' hne
        have hlt : j1 < j2 := by
          apply (List.pairwise_cons.mp hsorted).1
          rw [← hlast, List.getLast_cons hne]
          exact List.getLast_mem _
        have hother : ∀ w ∈ vertices, w ≠ j1 → w ≠ j2 → j1 < w ∧ w < j2 := by
          intro w hw e1 e2
          rw [← hperm, hl] at hw
          rcases List.mem_cons.mp hw with hw | hw
          · exact absurd hw e1
          · refine ⟨(List.pairwise_cons.mp hsorted).1 w hw, ?_⟩
            have hs := (List.pairwise_cons.mp hsorted).2
            rw [← hlast, List.getLast_cons hne] at e2 ⊢
            rw [← List.dropLast_concat_getLast hne] at hs hw
            rw [List.pairwise_append] at hs
            rcases List.mem_append.mp hw with hw | hw
            · exact hs.2.2 w hw _ (by simp)
            · exact absurd (by simpa using hw) e2
        have hww := hwa hlt
        have r1 := hrange j1
        have r2 := hrange j2
        have habs : 180 ≤ wa j2 - wa j1 := by
          rw [not_lt, abs_sub_comm, abs_of_pos (by linarith)] at hgap
          exact hgap
        refine ⟨hmem1, hmem2, fun i => if i = j2 then wa i else wa i + 360,
          if direction < wa j1 then direction + 360 else direction, j2, j1, ?_, ?_, .inr ⟨rfl, rfl⟩, hmem2, hmem1,
          ?_, ?_, ?_, ?_, ?_⟩
        · intro i
          simp only
          split
          · rfl
          · exact hsd i
        · split
          · rw [← unit_eq, unit_add_360]
          · rfl
        · simp only [if_true, if_neg hlt.ne]; linarith
        · simp only [if_true, if_neg hlt.ne]; linarith
        · simp only [if_true]
          split
          · linarith
          · rename_i hn
            rcases hdir with h' | h'
            · exact absurd h' hn
            · exact h'.le
        · simp only [if_neg hlt.ne]
          split
          · rename_i h'; linarith
          · linarith
        · intro w hw e2 e1
          simp only [if_true, if_neg hlt.ne, if_neg e2]
          obtain ⟨o1, o2⟩ := hother w hw e1 e2
          have := hwa o1
          have := hwa o2
          constructor <;> linarith
    · cases h

/-- The two courses found by `chooseEdge` can be mixed to the direction, and no mix of any courses is faster. -/
theorem mix_spec (hull : IsHull (velocity wa bsp) vertices) (hwa : StrictMono wa)
    (hrange : ∀ i, 0 ≤ wa i ∧ wa i < 360) (hb : ∀ v ∈ vertices, 0 < bsp v)
    (h0 : (0 : ℝ × ℝ) ∈ convexHull ℝ (Set.range (velocity wa bsp))) (hd : 0 ≤ direction ∧ direction < 360)
    {i1 i2 : Fin n} (h : chooseEdge wa direction (vertices.insertionSort (· ≤ ·)) = .ok (i1, i2)) :
    firstProportion (polarPoint (wa i1) (bsp i1)) (polarPoint (wa i2) (bsp i2)) direction = .error .valueError ∨
    ∃ s t : ℝ, 0 ≤ s ∧ 0 ≤ t ∧ 0 < s + t ∧
      firstProportion (polarPoint (wa i1) (bsp i1)) (polarPoint (wa i2) (bsp i2)) direction
        = .ok (some (s / (s + t))) ∧
      s • velocity wa bsp i1 + t • velocity wa bsp i2 = heading direction ∧
      ∀ x : ℝ, x • heading direction ∈ convexHull ℝ (Set.range (velocity wa bsp)) → x * (s + t) ≤ 1 := by
  obtain ⟨m1, m2, th, d, a, c, hth, hdd, hor, ma, mc, hlt, hgap, had, hdc, hother⟩ :=
    choose_spec hull hwa hrange hb h0 hd h
  have hfun : (fun i => polarPoint (th i) (bsp i)) = velocity wa bsp := funext hth
  rcases lt_or_eq_of_le hgap with hgap | hgap
  · right
    obtain ⟨s, t, hs, hs0, ht0, hst, hcomb, hg⟩ := solve2_spec (hb a ma) (hb c mc) hlt hgap had hdc
    rw [hth, hth] at hs hcomb
    rw [unit_eq, hdd] at hs hcomb
    have hbound := edge_bound (V := vertices) (th := th) (b := bsp)
      (by rw [hfun]; intro v hv; rw [hth]; exact hull.minimal v hv)
      (by rw [hfun, ← hull_vertices hull]; exact h0) hb ma mc hlt hgap hother
    have hbound2 : ∀ x : ℝ, x • heading direction ∈ convexHull ℝ (Set.range (velocity wa bsp)) → x * (s + t) ≤ 1 := by
      intro x hx
      rw [hull_vertices hull] at hx
      have := gauge_hull (p := polarPoint (th a) (bsp a)) (q := polarPoint (th c) (bsp c)) (c := 1)
        (S := velocity wa bsp '' {v | v ∈ vertices}) (by
          rintro _ ⟨w, hw, rfl⟩
          rw [← hth]; exact hbound w hw) _ hx
      rw [gauge_smul, ← hdd, ← unit_eq, hg] at this
      exact this
    rcases hor with ⟨rfl, rfl⟩ | ⟨rfl, rfl⟩
    · refine ⟨s, t, hs0, ht0, hst, ?_, hcomb, hbound2⟩
      unfold firstProportion
      rw [polarPoint_velocity, polarPoint_velocity, unit_eq, hs]
      simp only [hst.ne', if_false]
    · rw [add_comm] at hcomb hst
      refine ⟨t, s, ht0, hs0, hst, ?_, hcomb, by rw [add_comm]; exact hbound2⟩
      unfold firstProportion
      rw [polarPoint_velocity, polarPoint_velocity, unit_eq, solve2_swap hs]
      simp only [hst.ne', if_false]
  · left
    have hso : ∀ u, solve2 (velocity wa bsp a) (velocity wa bsp c) u = .error .valueError := by
      intro u
      rw [← hth, ← hth]; exact solve2_opposite u hgap
    unfold firstProportion
    rw [polarPoint_velocity, polarPoint_velocity]
    rcases hor with ⟨rfl, rfl⟩ | ⟨rfl, rfl⟩
    · rw [hso]
    · have : solve2 (velocity wa bsp c) (velocity wa bsp a) (unit direction) = .error .valueError := by
        cases hc : solve2 (velocity wa bsp c) (velocity wa bsp a) (unit direction) with
        | ok r => have := solve2_swap (s := r.1) (t := r.2) hc; rw [hso] at this; cases this
        | error e =>
          unfold solve2 at hc
          simp only at hc
          split at hc
          · exact hc.symm ▸ rfl
          · cases hc
      rw [this]

/-- **C71** (partial: the directions have to be two). If the boat can go around (the origin is in the hull of the
velocities), then the two recommended courses with their proportions add up to the requested direction, and no mix of
courses advances faster in that direction. -/
theorem C71_two_partial (hull : IsHull (velocity wa bsp) vertices) (hwa : StrictMono wa)
    (hrange : ∀ i, 0 ≤ wa i ∧ wa i < 360) (hb : ∀ v ∈ vertices, 0 < bsp v)
    (h0 : (0 : ℝ × ℝ) ∈ convexHull ℝ (Set.range (velocity wa bsp))) (hd : 0 ≤ direction ∧ direction < 360)
    {d1 d2 : Direction σ} (h : convexDirection vertices wa bsp info direction = .ok [d1, d2]) :
    ∃ (i1 i2 : Fin n) (lam speed : ℝ), d1.angle = wa i1 ∧ d2.angle = wa i2 ∧
      d1.sail = info.map (fun f => f i1) ∧ d2.sail = info.map (fun f => f i2) ∧
      d1.proportion = some lam ∧ d2.proportion = some (1 - lam) ∧ 0 ≤ lam ∧ lam ≤ 1 ∧ 0 < speed ∧
      lam • velocity wa bsp i1 + (1 - lam) • velocity wa bsp i2 = speed • heading direction ∧
      ∀ x : ℝ, x • heading direction ∈ convexHull ℝ (Set.range (velocity wa bsp)) → x ≤ speed := by
  unfold convexDirection at h
  split at h
  · cases h
  · rename_i i1 i2 hc
    simp only at h
    split at h
    · simp at h
    · have hm := mix_spec hull hwa hrange hb h0 hd hc
      rcases hm with he | ⟨s, t, hs, ht, hst, hf, hcomb, hbest⟩
      · rw [he] at h; cases h
      · rw [hf] at h
        have hl0 : 0 ≤ s / (s + t) := by positivity
        have hl1 : s / (s + t) ≤ 1 := by rw [div_le_one hst]; linarith
        simp only [correct, if_neg (not_or.mpr ⟨not_lt.mpr hl1, not_lt.mpr hl0⟩), Option.map_some, Except.ok.injEq,
          List.cons.injEq, and_true] at h
        obtain ⟨rfl, rfl⟩ := h
        refine ⟨i1, i2, s / (s + t), 1 / (s + t), rfl, rfl, rfl, rfl, rfl, rfl, hl0, hl1, by positivity, ?_, ?_⟩
        · rw [← hcomb, smul_add, smul_smul, smul_smul]
          congr 2
          · ring
          · field_simp; ring
        · intro x hx
          rw [le_div_iff₀ hst]; exact hbest x hx

/-- **C71** (partial: the direction has to be the course itself). If a single course is recommended and it is the
requested one, then no mix of courses is faster. -/
theorem C71_single_partial (hull : IsHull (velocity wa bsp) vertices) (hwa : StrictMono wa)
    (hrange : ∀ i, 0 ≤ wa i ∧ wa i < 360) (hb : ∀ v ∈ vertices, 0 < bsp v)
    (h0 : (0 : ℝ × ℝ) ∈ convexHull ℝ (Set.range (velocity wa bsp))) (hd : 0 ≤ direction ∧ direction < 360)
    {d1 : Direction σ} (h : convexDirection vertices wa bsp info direction = .ok [d1]) :
    ∃ i1 : Fin n, d1.angle = wa i1 ∧ d1.proportion = some 1 ∧ d1.sail = info.map (fun f => f i1) ∧
      (d1.angle = direction → ∀ x : ℝ, x • heading direction ∈ convexHull ℝ (Set.range (velocity wa bsp)) →
        x ≤ bsp i1) := by
  unfold convexDirection at h
  split at h
  · cases h
  · rename_i i1 i2 hc
    simp only at h
    split at h
    · simp only [Except.ok.injEq, List.cons.injEq, and_true] at h
      subst h
      refine ⟨i1, rfl, rfl, rfl, ?_⟩
      intro hdir x hx
      simp only at hdir
      -- the gauge of the first vertex is one
      obtain ⟨m1, m2, th, d, a, c, hth, hdd, hor, ma, mc, hlt, hgap, had, hdc, hother⟩ :=
        choose_spec hull hwa hrange hb h0 hd hc
      have hfun : (fun i => polarPoint (th i) (bsp i)) = velocity wa bsp := funext hth
      have hb1 := hb i1 m1
      have hx2 : (x / bsp i1) • velocity wa bsp i1 = x • heading direction := by
        rw [← hdir, velocity, smul_smul, div_mul_cancel₀ _ hb1.ne']
      rw [← hx2] at hx
      by_contra hcon
      rw [not_le] at hcon
      have hgt : 1 < x / bsp i1 := by rw [lt_div_iff₀ hb1]; linarith
      -- the vertex would lie between the origin and a point of the hull
      have h0' := h0
      rw [hull_vertices hull, image_insert (P := velocity wa bsp) m1] at h0' hx
      have hnonempty : (velocity wa bsp '' {w | w ∈ vertices ∧ w ≠ i1}).Nonempty := by
        rcases hor with ⟨rfl, rfl⟩ | ⟨rfl, rfl⟩
        · exact ⟨_, c, ⟨mc, by rintro rfl; exact lt_irrefl _ hlt⟩, rfl⟩
        · exact ⟨_, a, ⟨ma, by rintro rfl; exact lt_irrefl _ hlt⟩, rfl⟩
      have hv0 : velocity wa bsp i1 ≠ 0 := polarPoint_ne_zero _ hb1
      apply hull.minimal i1 m1
      rw [convexHull_insert hnonempty, mem_convexJoin] at hx h0'
      obtain ⟨y, hy, q, hq, a1, b1, ha1, hb1', hab1, hz1⟩ := hx
      obtain ⟨y', hy', q', hq', a2, b2, ha2, hb2', hab2, hz2⟩ := h0'
      rw [Set.mem_singleton_iff] at hy hy'
      subst hy hy'
      -- both combinations use the other vertices
      have hb1p : 0 < b1 := by
        rcases lt_or_eq_of_le hb1' with h' | h'
        · exact h'
        · exfalso
          rw [← h', zero_smul, add_zero] at hz1
          have : a1 = x / bsp i1 := smul_left_injective ℝ hv0 hz1
          linarith
      have hb2p : 0 < b2 := by
        rcases lt_or_eq_of_le hb2' with h' | h'
        · exact h'
        · exfalso
          rw [← h', zero_smul, add_zero] at hz2
          have : a2 = 1 := by linarith
          rw [this, one_smul] at hz2
          exact hv0 hz2
      have hq1 : q = ((x / bsp i1 - a1) / b1) • velocity wa bsp i1 := by
        have : b1 • q = (x / bsp i1 - a1) • velocity wa bsp i1 := by
          rw [sub_smul, ← hz1, add_sub_cancel_left]
        rw [div_eq_inv_mul, ← smul_smul, ← this, smul_smul, inv_mul_cancel₀ hb1p.ne', one_smul]
      have hq2 : q' = (-(a2 / b2)) • velocity wa bsp i1 := by
        have : b2 • q' = -(a2 • velocity wa bsp i1) := by
          rw [eq_neg_iff_add_eq_zero, add_comm]; exact hz2
        rw [neg_smul, div_eq_inv_mul, ← smul_smul, ← smul_neg, ← this, smul_smul, inv_mul_cancel₀ hb2p.ne', one_smul]
      rw [hq1] at hq
      rw [hq2] at hq'
      have hu : 1 < (x / bsp i1 - a1) / b1 := by rw [lt_div_iff₀ hb1p]; linarith
      set u := (x / bsp i1 - a1) / b1 with hudef
      set v := a2 / b2 with hvdef
      have hv : 0 ≤ v := by positivity
      have hden : 0 < u + v := by linarith
      have key := (convex_convexHull ℝ _) hq hq' (a := (1 + v) / (u + v)) (b := (u - 1) / (u + v))
        (by positivity) (div_nonneg (by linarith) hden.le) (by rw [← add_div, div_eq_one_iff_eq hden.ne']; ring)
      rw [smul_smul, smul_smul, ← add_smul] at key
      have hone : (1 + v) / (u + v) * u + (u - 1) / (u + v) * -v = 1 := by
        rw [div_mul_eq_mul_div, div_mul_eq_mul_div, ← add_div, div_eq_one_iff_eq hden.ne']; ring
      rw [hone, one_smul] at key
      exact key
    · split at h
      · cases h
      · simp at h

/-- **C71**. If the origin is in the interior of the hull of the velocities, a recommendation is given for every
direction. -/
theorem C71_exists (hull : IsHull (velocity wa bsp) vertices) (hwa : StrictMono wa)
    (hrange : ∀ i, 0 ≤ wa i ∧ wa i < 360) (hb : ∀ v ∈ vertices, 0 < bsp v)
    (h0 : (0 : ℝ × ℝ) ∈ interior (convexHull ℝ (Set.range (velocity wa bsp))))
    (hd : 0 ≤ direction ∧ direction < 360) :
    (∃ d1 : Direction σ, convexDirection vertices wa bsp info direction = .ok [d1]) ∨
    (∃ d1 d2 : Direction σ, convexDirection vertices wa bsp info direction = .ok [d1, d2]) := by
  have h0' := interior_subset h0
  have hsorted := sorted_vertices hull.nodup
  have hperm : ∀ v, v ∈ vertices.insertionSort (· ≤ ·) ↔ v ∈ vertices :=
    fun v => (List.perm_insertionSort _ _).mem_iff
  have hchoose : ∃ i1 i2, chooseEdge wa direction (vertices.insertionSort (· ≤ ·)) = .ok (i1, i2) := by
    unfold chooseEdge
    split
    · rename_i e _; exact ⟨e.1, e.2, rfl⟩
    · cases hv : vertices.insertionSort (· ≤ ·) with
      | nil =>
        exfalso
        have hempty : {v | v ∈ vertices} = (∅ : Set (Fin n)) := by
          ext v
          simp only [Set.mem_setOf_eq, Set.mem_empty_iff_false, iff_false]
          rw [← hperm, hv]; simp
        rw [hull_vertices hull, hempty] at h0'
        simp at h0'
      | cons x t =>
        rw [List.getLast?_eq_some_getLast (by simp)]
        simp only [List.head?_cons]
        refine ⟨x, (x :: t).getLast (by simp), ?_⟩
        rw [if_neg]
        intro hgap
        refine zero_not_mem (V := vertices) (th := wa) (b := bsp) (a := wa x)
          (c := wa ((x :: t).getLast (by simp))) (by rw [abs_lt] at hgap; linarith) hb ?_ ?_
        · intro w hw
          rw [hv] at hsorted
          rw [← hperm, hv] at hw
          constructor
          · rcases List.mem_cons.mp hw with h' | h'
            · rw [h']
            · exact (hwa ((List.pairwise_cons.mp hsorted).1 w h')).le
          · rw [← List.dropLast_concat_getLast (l := x :: t) (by simp)] at hsorted hw
            rw [List.pairwise_append] at hsorted
            rcases List.mem_append.mp hw with h' | h'
            · exact (hwa (hsorted.2.2 w h' _ (by simp))).le
            · rw [List.mem_singleton] at h'
              rw [h']
        · have := h0'
          rw [hull_vertices hull] at this
          exact this
  obtain ⟨i1, i2, hc⟩ := hchoose
  unfold convexDirection
  rw [hc]
  simp only
  split
  · left; exact ⟨_, rfl⟩
  · right
    rcases mix_spec hull hwa hrange hb h0' hd hc with he | ⟨s, t, -, -, -, hf, -⟩
    · exfalso
      obtain ⟨m1, m2, th, d, a, c, hth, hdd, hor, ma, mc, hlt, hgap, had, hdc, hother⟩ :=
        choose_spec hull hwa hrange hb h0' hd hc
      have hfun : (fun i => polarPoint (th i) (bsp i)) = velocity wa bsp := funext hth
      have hgap2 : th c = th a + 180 := by
        by_contra hne
        obtain ⟨s, t, hs, -⟩ := solve2_spec (hb a ma) (hb c mc) hlt (lt_of_le_of_ne hgap hne) had hdc
        rw [hth, hth, unit_eq, hdd] at hs
        unfold firstProportion at he
        rw [polarPoint_velocity, polarPoint_velocity, unit_eq] at he
        rcases hor with ⟨rfl, rfl⟩ | ⟨rfl, rfl⟩
        · rw [hs] at he; cases he
        · rw [solve2_swap hs] at he; cases he
      have hfun2 : (fun i => polarPoint (if i = a then th i + 360 else th i) (bsp i)) = velocity wa bsp := by
        funext i
        split
        · rw [polarPoint_add_360]; exact hth i
        · exact hth i
      refine zero_not_interior (V := vertices) (th := fun i => if i = a then th i + 360 else th i) (b := bsp)
        (a := th c) (c := th a + 360) (by linarith) hb ?_ ?_
      · intro w hw
        by_cases ea : w = a
        · rw [if_pos ea, ea]; constructor <;> linarith
        · rw [if_neg ea]
          by_cases ec : w = c
          · rw [ec]; constructor <;> linarith
          · have := hother w hw ea ec
            constructor <;> linarith [this.1, this.2]
      · rw [hfun2, ← hull_vertices hull]; exact h0
    · rw [hf]; exact ⟨_, _, rfl⟩

end

/-! ### Examples -/

theorem heading_0 : heading 0 = (1, 0) := by
  unfold heading; rw [zero_mul, zero_div, Real.cos_zero, Real.sin_zero]

theorem heading_90 : heading 90 = (0, 1) := by
  unfold heading
  rw [show (90 : ℝ) * Real.pi / 180 = Real.pi / 2 by ring, Real.cos_pi_div_two, Real.sin_pi_div_two]

theorem heading_180 : heading 180 = (-1, 0) := by
  unfold heading
  rw [show (180 : ℝ) * Real.pi / 180 = Real.pi by ring, Real.cos_pi, Real.sin_pi]

theorem heading_270 : heading 270 = (0, -1) := by
  unfold heading
  rw [show (270 : ℝ) * Real.pi / 180 = Real.pi / 2 + Real.pi by ring, Real.cos_add_pi, Real.sin_add_pi,
    Real.cos_pi_div_two, Real.sin_pi_div_two, neg_zero]

theorem sqrt_half_sq : (Real.sqrt 2 / 2) * (Real.sqrt 2 / 2) = 1 / 2 := by
  have := Real.mul_self_sqrt (show (0 : ℝ) ≤ 2 by norm_num)
  linarith

theorem heading_45 : heading 45 = (Real.sqrt 2 / 2, Real.sqrt 2 / 2) := by
  unfold heading
  rw [show (45 : ℝ) * Real.pi / 180 = Real.pi / 4 by ring, Real.cos_pi_div_four, Real.sin_pi_div_four]

theorem heading_135 : heading 135 = (-(Real.sqrt 2 / 2), Real.sqrt 2 / 2) := by
  unfold heading
  rw [show (135 : ℝ) * Real.pi / 180 = Real.pi - Real.pi / 4 by ring, Real.cos_pi_sub, Real.sin_pi_sub,
    Real.cos_pi_div_four, Real.sin_pi_div_four]

theorem heading_315 : heading 315 = (Real.sqrt 2 / 2, -(Real.sqrt 2 / 2)) := by
  unfold heading
  rw [show (315 : ℝ) * Real.pi / 180 = -(Real.pi / 4) + 2 * Real.pi by ring, Real.cos_add_two_pi,
    Real.sin_add_two_pi, Real.cos_neg, Real.sin_neg, Real.cos_pi_div_four, Real.sin_pi_div_four]

/-- A point on the other side of a line is not in the hull. -/
theorem not_mem_hull {S : Set (ℝ × ℝ)} {x : ℝ × ℝ} (u v c : ℝ) (h : ∀ y ∈ S, u * y.1 + v * y.2 ≤ c)
    (hx : c < u * x.1 + v * x.2) : x ∉ convexHull ℝ S := by
  intro hmem
  have hc : Convex ℝ {y : ℝ × ℝ | u * y.1 + v * y.2 ≤ c} := by
    intro y hy z hz s t hs ht hst
    simp only [Set.mem_setOf_eq] at *
    simp only [Prod.smul_fst, Prod.smul_snd, Prod.fst_add, Prod.snd_add, smul_eq_mul]
    calc u * (s * y.1 + t * z.1) + v * (s * y.2 + t * z.2)
        = s * (u * y.1 + v * y.2) + t * (u * z.1 + v * z.2) := by ring
      _ ≤ s * c + t * c := by gcongr
      _ = c := by rw [← add_mul, hst, one_mul]
  have : u * x.1 + v * x.2 ≤ c := convexHull_min (t := {y : ℝ × ℝ | u * y.1 + v * y.2 ≤ c}) (fun y hy => h y hy) hc hmem
  linarith

/-- A boat as fast on each of four courses. -/
def sqWa : Fin 4 → ℝ := ![0, 90, 180, 270]
def sqBsp : Fin 4 → ℝ := ![1, 1, 1, 1]
def sqVertices : List (Fin 4) := [0, 1, 2, 3]

theorem sq0 : velocity sqWa sqBsp 0 = (1, 0) := by
  show (1 : ℝ) • heading 0 = _; rw [one_smul, heading_0]
theorem sq1 : velocity sqWa sqBsp 1 = (0, 1) := by
  show (1 : ℝ) • heading 90 = _; rw [one_smul, heading_90]
theorem sq2 : velocity sqWa sqBsp 2 = (-1, 0) := by
  show (1 : ℝ) • heading 180 = _; rw [one_smul, heading_180]
theorem sq3 : velocity sqWa sqBsp 3 = (0, -1) := by
  show (1 : ℝ) • heading 270 = _; rw [one_smul, heading_270]

theorem sqHull : IsHull (velocity sqWa sqBsp) sqVertices := by
  refine ⟨by decide, fun i => subset_convexHull ℝ _ ⟨i, ?_, rfl⟩, ?_⟩
  · show i ∈ sqVertices
    revert i; decide
  · intro v _
    fin_cases v
    · show velocity sqWa sqBsp 0 ∉ _
      apply not_mem_hull 1 0 0
      · rintro _ ⟨w, ⟨-, hw⟩, rfl⟩
        fin_cases w
        · exact absurd rfl hw
        all_goals simp only [Fin.mk_one, Fin.reduceFinMk, sq1, sq2, sq3]; norm_num
      · rw [sq0]; norm_num
    · show velocity sqWa sqBsp 1 ∉ _
      apply not_mem_hull 0 1 0
      · rintro _ ⟨w, ⟨-, hw⟩, rfl⟩
        fin_cases w
        · simp only [Fin.zero_eta, sq0]; norm_num
        · exact absurd rfl hw
        all_goals simp only [Fin.reduceFinMk, sq2, sq3]; norm_num
      · rw [sq1]; norm_num
    · show velocity sqWa sqBsp 2 ∉ _
      apply not_mem_hull (-1) 0 0
      · rintro _ ⟨w, ⟨-, hw⟩, rfl⟩
        fin_cases w
        · simp only [Fin.zero_eta, sq0]; norm_num
        · simp only [Fin.mk_one, sq1]; norm_num
        · exact absurd rfl hw
        · simp only [Fin.reduceFinMk, sq3]; norm_num
      · rw [sq2]; norm_num
    · show velocity sqWa sqBsp 3 ∉ _
      apply not_mem_hull 0 (-1) 0
      · rintro _ ⟨w, ⟨-, hw⟩, rfl⟩
        fin_cases w
        · simp only [Fin.zero_eta, sq0]; norm_num
        · simp only [Fin.mk_one, sq1]; norm_num
        · simp only [Fin.reduceFinMk, sq2]; norm_num
        · exact absurd rfl hw
      · rw [sq3]; norm_num

theorem sqMono : StrictMono sqWa := by
  rw [Fin.strictMono_iff_lt_succ]
  intro i
  fin_cases i <;> simp [sqWa] <;> norm_num

theorem sqRange : ∀ i, 0 ≤ sqWa i ∧ sqWa i < 360 := by
  intro i
  fin_cases i <;> simp [sqWa] <;> norm_num

theorem sqPos : ∀ v ∈ sqVertices, 0 < sqBsp v := by
  intro v _
  fin_cases v <;> simp [sqBsp]

theorem sqOrigin : (0 : ℝ × ℝ) ∈ convexHull ℝ (Set.range (velocity sqWa sqBsp)) := by
  have h0 : velocity sqWa sqBsp 0 ∈ convexHull ℝ (Set.range (velocity sqWa sqBsp)) := subset_convexHull ℝ _ ⟨0, rfl⟩
  have h2 : velocity sqWa sqBsp 2 ∈ convexHull ℝ (Set.range (velocity sqWa sqBsp)) := subset_convexHull ℝ _ ⟨2, rfl⟩
  have := convex_convexHull ℝ _ h0 h2 (a := 1 / 2) (b := 1 / 2) (by norm_num) (by norm_num) (by norm_num)
  rw [sq0, sq2] at this
  convert this using 1
  ext <;> simp

/-- The names of the sails on the four courses. -/
def sqSails : Fin 4 → Nat := ![0, 1, 2, 3]

theorem sqSorted : sqVertices.insertionSort (· ≤ ·) = [0, 1, 2, 3] := by decide

theorem sqChoose45 : chooseEdge sqWa 45 (sqVertices.insertionSort (· ≤ ·)) = .ok (0, 1) := by
  rw [sqSorted]
  unfold chooseEdge findEdge
  rw [if_pos (by simp [sqWa]; norm_num)]

theorem sqChoose90 : chooseEdge sqWa 90 (sqVertices.insertionSort (· ≤ ·)) = .ok (0, 1) := by
  rw [sqSorted]
  unfold chooseEdge findEdge
  rw [if_pos (by simp [sqWa])]

theorem sqFirst : firstProportion (polarPoint (sqWa 0) (sqBsp 0)) (polarPoint (sqWa 1) (sqBsp 1)) 45
    = .ok (some (1 / 2)) := by
  have h2 : (0 : ℝ) < Real.sqrt 2 := Real.sqrt_pos.mpr (by norm_num)
  unfold firstProportion solve2
  rw [polarPoint_velocity, polarPoint_velocity, sq0, sq1, unit_eq, heading_45]
  norm_num
  field_simp

/-- With a change of sails between the two courses the answer to 45 degrees is to sail half of the time on each. -/
theorem sqTwo : convexDirection sqVertices sqWa sqBsp (some sqSails) 45
    = .ok [⟨0, some (1 / 2), some 0⟩, ⟨90, some (1 / 2), some 1⟩] := by
  unfold convexDirection
  rw [sqChoose45]
  simp only
  rw [if_neg (by simp [sqSails]), sqFirst]
  simp only [correct, Option.map_some]
  rw [if_neg (by norm_num)]
  simp only [Option.map_some, Except.ok.injEq]
  norm_num [sqWa, sqSails]

example : ∃ d1 d2, convexDirection sqVertices sqWa sqBsp (some sqSails) 45 = .ok [d1, d2] ∧
    IsHull (velocity sqWa sqBsp) sqVertices ∧ StrictMono sqWa ∧ (∀ i, 0 ≤ sqWa i ∧ sqWa i < 360) ∧
    (∀ v ∈ sqVertices, 0 < sqBsp v) ∧ (0 : ℝ × ℝ) ∈ convexHull ℝ (Set.range (velocity sqWa sqBsp)) :=
  ⟨_, _, sqTwo, sqHull, sqMono, sqRange, sqPos, sqOrigin⟩

/-- **C71 is false** for single recommendations: a boat that is equally fast on four courses is told to sail to 0
degrees when asked for 90 degrees, although 90 degrees is one of its courses. -/
theorem C71_single_false :
    IsHull (velocity sqWa sqBsp) sqVertices ∧ StrictMono sqWa ∧ (∀ v ∈ sqVertices, 0 < sqBsp v) ∧
    (0 : ℝ × ℝ) ∈ convexHull ℝ (Set.range (velocity sqWa sqBsp)) ∧
    convexDirection sqVertices sqWa sqBsp (none : Option (Fin 4 → Nat)) 90 = .ok [⟨0, some 1, none⟩] ∧
    ∀ x : ℝ, sqBsp 0 • heading 0 ≠ x • heading 90 := by
  refine ⟨sqHull, sqMono, sqPos, sqOrigin, ?_, ?_⟩
  · unfold convexDirection
    rw [sqChoose90]
    simp only
    rw [if_pos (by simp)]
    simp [sqWa]
  · intro x h
    rw [heading_0, heading_90] at h
    have := congrArg Prod.fst h
    simp [sqBsp] at this

/-- Three courses within less than half a circle. -/
noncomputable def triWa : Fin 3 → ℝ := ![0, 270, 315]
noncomputable def triBsp : Fin 3 → ℝ := ![1, 1, Real.sqrt 2]
def triVertices : List (Fin 3) := [0, 1, 2]
def triSails : Fin 3 → Nat := ![0, 1, 2]

theorem tri0 : velocity triWa triBsp 0 = (1, 0) := by
  show (1 : ℝ) • heading 0 = _; rw [one_smul, heading_0]
theorem tri1 : velocity triWa triBsp 1 = (0, -1) := by
  show (1 : ℝ) • heading 270 = _; rw [one_smul, heading_270]
theorem tri2 : velocity triWa triBsp 2 = (1, -1) := by
  show (Real.sqrt 2) • heading 315 = _
  rw [heading_315]
  have := Real.mul_self_sqrt (show (0 : ℝ) ≤ 2 by norm_num)
  ext
  · simp only [Prod.smul_fst, smul_eq_mul]; linarith
  · simp only [Prod.smul_snd, smul_eq_mul]; linarith

theorem triHull : IsHull (velocity triWa triBsp) triVertices := by
  refine ⟨by decide, fun i => subset_convexHull ℝ _ ⟨i, ?_, rfl⟩, ?_⟩
  · show i ∈ triVertices
    revert i; decide
  · intro v _
    fin_cases v
    · show velocity triWa triBsp 0 ∉ _
      apply not_mem_hull 0 1 (-1)
      · rintro _ ⟨w, ⟨-, hw⟩, rfl⟩
        fin_cases w
        · exact absurd rfl hw
        all_goals simp only [Fin.mk_one, Fin.reduceFinMk, tri1, tri2]; norm_num
      · rw [tri0]; norm_num
    · show velocity triWa triBsp 1 ∉ _
      apply not_mem_hull (-1) 0 (-1)
      · rintro _ ⟨w, ⟨-, hw⟩, rfl⟩
        fin_cases w
        · simp only [Fin.zero_eta, tri0]; norm_num
        · exact absurd rfl hw
        · simp only [Fin.reduceFinMk, tri2]; norm_num
      · rw [tri1]; norm_num
    · show velocity triWa triBsp 2 ∉ _
      apply not_mem_hull 1 (-1) 1
      · rintro _ ⟨w, ⟨-, hw⟩, rfl⟩
        fin_cases w
        · simp only [Fin.zero_eta, tri0]; norm_num
        · simp only [Fin.mk_one, tri1]; norm_num
        · exact absurd rfl hw
      · rw [tri2]; norm_num

/-- **C71 is false** if the courses of the diagram do not go around: a direction outside of the diagram is answered by a
mix of courses that goes into the opposite direction, instead of by an exception. -/
theorem C71_opposite_false :
    IsHull (velocity triWa triBsp) triVertices ∧ StrictMono triWa ∧ (∀ v ∈ triVertices, 0 < triBsp v) ∧
    convexDirection triVertices triWa triBsp (some triSails) 135
      = .ok [⟨0, some (1 / 2), some 0⟩, ⟨270, some (1 / 2), some 1⟩] ∧
    ∃ speed : ℝ, speed < 0 ∧ (1 / 2 : ℝ) • velocity triWa triBsp 0 + (1 / 2 : ℝ) • velocity triWa triBsp 1
      = speed • heading 135 := by
  have h2 : (0 : ℝ) < Real.sqrt 2 := Real.sqrt_pos.mpr (by norm_num)
  refine ⟨triHull, ?_, ?_, ?_, -(Real.sqrt 2 / 2), by linarith, ?_⟩
  · rw [Fin.strictMono_iff_lt_succ]
    intro i
    fin_cases i <;> simp [triWa] <;> norm_num
  · intro v _
    fin_cases v <;> simp [triBsp]
  · have hs : triVertices.insertionSort (· ≤ ·) = [0, 1, 2] := by decide
    have hc : chooseEdge triWa 135 (triVertices.insertionSort (· ≤ ·)) = .ok (0, 1) := by
      rw [hs]
      unfold chooseEdge findEdge
      rw [if_pos (by simp [triWa]; norm_num)]
    have hf : firstProportion (polarPoint (triWa 0) (triBsp 0)) (polarPoint (triWa 1) (triBsp 1)) 135
        = .ok (some (1 / 2)) := by
      unfold firstProportion solve2
      rw [polarPoint_velocity, polarPoint_velocity, tri0, tri1, unit_eq, heading_135]
      have hne : -(Real.sqrt 2 / 2) + -(Real.sqrt 2 / 2) ≠ 0 := by linarith
      norm_num
      field_simp
      norm_num
    unfold convexDirection
    rw [hc]
    simp only
    rw [if_neg (by simp [triSails]), hf]
    simp only [correct]
    rw [if_neg (by norm_num)]
    simp only [Option.map_some, Except.ok.injEq]
    norm_num [triWa, triSails]
  · rw [tri0, tri1, heading_135]
    have := sqrt_half_sq
    ext
    · simp only [Prod.smul_fst, Prod.fst_add, smul_eq_mul]; linarith
    · simp only [Prod.smul_snd, Prod.snd_add, smul_eq_mul]; linarith

/-! ### C72: the duration of a cruise -/

section
variable {n : Nat} {σ : Type} {wa bsp : Fin n → ℝ}

theorem speedAt_eq (hwa : Function.Injective wa) (i : Fin n) : speedAt wa bsp (wa i) = .ok (bsp i) := by
  have : (List.finRange n).filter (fun j => decide (wa j = wa i)) = [i] := by
    have h1 : (fun j => decide (wa j = wa i)) = fun j => decide (j = i) := by
      funext j
      by_cases h : j = i
      · simp [h]
      · simp [h, hwa.ne h]
    rw [h1]
    have h2 : ((List.finRange n).filter fun j => decide (j = i)).Perm [i] := by
      apply (List.perm_ext_iff_of_nodup ((List.nodup_finRange n).filter _) (by simp)).mpr
      intro j
      simp
    exact List.perm_singleton.mp h2
  unfold speedAt
  rw [this]

/-- **C72** (partial: the length of the way only). The durations of the two legs are not negative, and the way sailed on
both together is as long as the distance. -/
theorem C72_length_partial (hwa : Function.Injective wa) {i1 i2 : Fin n} {d1 d2 : Direction σ} {l dist : ℝ}
    (h1 : d1.angle = wa i1) (h2 : d2.angle = wa i2) (p1 : d1.proportion = some l) (p2 : d2.proportion = some (1 - l))
    (hl : 0 ≤ l ∧ l ≤ 1) (hb1 : 0 < bsp i1) (hb2 : 0 < bsp i2) (hdist : 0 ≤ dist) :
    ∃ t1 t2 : ℝ, cruiseTimes wa bsp dist [d1, d2] = .ok [(wa i1, some t1), (wa i2, some t2)] ∧ 0 ≤ t1 ∧ 0 ≤ t2 ∧
      t1 * bsp i1 + t2 * bsp i2 = dist ∧ t1 * (1 - l) = t2 * l := by
  have hpos : 0 < l * bsp i1 + (1 - l) * bsp i2 := by
    rcases lt_or_eq_of_le hl.1 with h | h
    · have := mul_pos h hb1
      have := mul_nonneg (sub_nonneg.mpr hl.2) hb2.le
      linarith
    · rw [← h]; linarith
  refine ⟨l * (dist / (l * bsp i1 + (1 - l) * bsp i2)), (1 - l) * (dist / (l * bsp i1 + (1 - l) * bsp i2)), ?_,
    mul_nonneg hl.1 (by positivity), mul_nonneg (sub_nonneg.mpr hl.2) (by positivity), ?_, by ring⟩
  · unfold cruiseTimes
    simp only
    rw [h1, h2, speedAt_eq hwa, speedAt_eq hwa, p1, p2]
    simp only [if_neg hpos.ne', Option.map_some]
  · field_simp

/-- **C72**. The duration of a single leg. -/
theorem C72_single (hwa : Function.Injective wa) {i : Fin n} {d : Direction σ} {dist : ℝ} (h : d.angle = wa i)
    (hb : 0 < bsp i) (hdist : 0 ≤ dist) :
    ∃ t : ℝ, cruiseTimes wa bsp dist [d] = .ok [(wa i, some t)] ∧ 0 ≤ t ∧ t * bsp i = dist := by
  refine ⟨dist / bsp i, ?_, by positivity, by field_simp⟩
  unfold cruiseTimes
  simp only
  rw [h, speedAt_eq hwa]
  simp only [if_neg hb.ne']

/-- **C72 is false** if the recommended angle occurs twice in the slice, as it may for point clouds: `TypeError`. -/
theorem C72_repeated_false {i j : Fin n} (hij : i ≠ j) {d : Direction σ} (dist : ℝ) (h1 : d.angle = wa i)
    (h2 : d.angle = wa j) : cruiseTimes wa bsp dist [d] = .error .typeError := by
  have h : speedAt wa bsp d.angle = .error .typeError := by
    unfold speedAt
    split
    · rename_i k hk
      have hi : i ∈ (List.finRange n).filter fun i => decide (wa i = d.angle) :=
        List.mem_filter.2 ⟨List.mem_finRange i, by simpa using h1.symm⟩
      have hj : j ∈ (List.finRange n).filter fun i => decide (wa i = d.angle) :=
        List.mem_filter.2 ⟨List.mem_finRange j, by simpa using h2.symm⟩
      rw [hk, List.mem_singleton] at hi hj
      exact absurd (hi.trans hj.symm) hij
    · rfl
  unfold cruiseTimes
  simp only [h]

example : cruiseTimes (σ := Unit) (n := 2) (fun _ => 90) (fun i => i.val) 1 [⟨90, none, none⟩] = .error .typeError :=
  C72_repeated_false (i := 0) (j := 1) (by decide) 1 rfl rfl

/-- The square of the length of a vector. -/
def lengthSq (v : ℝ × ℝ) : ℝ := v.1 ^ 2 + v.2 ^ 2

theorem lengthSq_mix {a b x y : ℝ} (hx : 0 < x) (hy : 0 < y) (ha : 0 ≤ a ∧ a < 360) (hb : 0 ≤ b ∧ b < 360)
    (hne : a ≠ b) : lengthSq (x • heading a + y • heading b) < (x + y) ^ 2 := by
  have hcos : Real.cos (a * Real.pi / 180 - b * Real.pi / 180) < 1 := by
    apply lt_of_le_of_ne (Real.cos_le_one _)
    intro h
    rw [Real.cos_eq_one_iff] at h
    obtain ⟨k, hk⟩ := h
    have hpi := Real.pi_pos
    have hk2 : (k : ℝ) * 360 = a - b := by
      have : ((k : ℝ) * 360 - (a - b)) * Real.pi = 0 := by linarith
      rcases mul_eq_zero.mp this with h' | h'
      · linarith
      · exact absurd h' hpi.ne'
    have hk1 : (k : ℝ) < 1 := by linarith [ha.1, ha.2, hb.1, hb.2]
    have hk0 : (-1 : ℝ) < k := by linarith [ha.1, ha.2, hb.1, hb.2]
    have hkz : k = 0 := by
      have h1 : k < 1 := by exact_mod_cast hk1
      have h2 : -1 < k := by exact_mod_cast hk0
      omega
    rw [hkz] at hk2
    apply hne
    simp at hk2; linarith
  rw [Real.cos_sub] at hcos
  have s1 := Real.sin_sq_add_cos_sq (a * Real.pi / 180)
  have s2 := Real.sin_sq_add_cos_sq (b * Real.pi / 180)
  unfold lengthSq heading
  simp only [Prod.smul_fst, Prod.smul_snd, Prod.fst_add, Prod.snd_add, smul_eq_mul]
  have hxy := mul_pos hx hy
  set ca := Real.cos (a * Real.pi / 180)
  set sa := Real.sin (a * Real.pi / 180)
  set cb := Real.cos (b * Real.pi / 180)
  set sb := Real.sin (b * Real.pi / 180)
  have key : (x * ca + y * cb) ^ 2 + (x * sa + y * sb) ^ 2
      = x ^ 2 * (sa ^ 2 + ca ^ 2) + y ^ 2 * (sb ^ 2 + cb ^ 2) + 2 * (x * y) * (ca * cb + sa * sb) := by ring
  rw [key, s1, s2]
  nlinarith

/-- **C72 is false**: whenever two different courses are mixed, the boat is still before its destination at the end of
the recommended legs. -/
theorem C72_short_false (hwa : Function.Injective wa) (hrange : ∀ i, 0 ≤ wa i ∧ wa i < 360) {i1 i2 : Fin n}
    {d1 d2 : Direction σ} {l dist : ℝ} (hne : i1 ≠ i2)
    (h1 : d1.angle = wa i1) (h2 : d2.angle = wa i2) (p1 : d1.proportion = some l) (p2 : d2.proportion = some (1 - l))
    (hl : 0 < l ∧ l < 1) (hb1 : 0 < bsp i1) (hb2 : 0 < bsp i2) (hdist : 0 < dist) :
    ∃ t1 t2 : ℝ, cruiseTimes wa bsp dist [d1, d2] = .ok [(wa i1, some t1), (wa i2, some t2)] ∧
      lengthSq (t1 • velocity wa bsp i1 + t2 • velocity wa bsp i2) < dist ^ 2 := by
  obtain ⟨t1, t2, ht, h10, h20, hsum, hprop⟩ :=
    C72_length_partial hwa h1 h2 p1 p2 ⟨hl.1.le, hl.2.le⟩ hb1 hb2 hdist.le
  refine ⟨t1, t2, ht, ?_⟩
  have hl1 : 0 < 1 - l := by linarith [hl.2]
  have t1pos : 0 < t1 := by
    rcases lt_or_eq_of_le h10 with h | h
    · exact h
    · exfalso
      rw [← h, zero_mul] at hprop
      have : t2 = 0 := by
        rcases mul_eq_zero.mp hprop.symm with h' | h'
        · exact h'
        · exact absurd h' hl.1.ne'
      rw [← h, this] at hsum; linarith
  have t2pos : 0 < t2 := by
    rcases lt_or_eq_of_le h20 with h | h
    · exact h
    · exfalso
      rw [← h, zero_mul] at hprop
      rcases mul_eq_zero.mp hprop with h' | h'
      · exact t1pos.ne' h'
      · exact hl1.ne' h'
  unfold velocity
  rw [smul_smul, smul_smul, ← hsum]
  exact lengthSq_mix (by positivity) (by positivity) (hrange i1) (hrange i2) (hwa.ne hne)

example : ∃ d1 d2, convexDirection sqVertices sqWa sqBsp (some sqSails) 45 = .ok [d1, d2] ∧
    ∃ t1 t2 : ℝ, cruiseTimes sqWa sqBsp 10 [d1, d2] = .ok [(sqWa 0, some t1), (sqWa 1, some t2)] ∧
      lengthSq (t1 • velocity sqWa sqBsp 0 + t2 • velocity sqWa sqBsp 1) < 10 ^ 2 :=
  ⟨_, _, sqTwo, C72_short_false (l := 1 / 2) sqMono.injective sqRange (by decide) rfl rfl rfl (by norm_num)
    (by norm_num) (by norm_num [sqBsp]) (by norm_num [sqBsp]) (by norm_num)⟩

end

end Verif.Convex
