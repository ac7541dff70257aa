import Verif.Props.Convex

/-!
# C132: detours do not pay, and faster boats make better way
-/

set_option linter.unusedSectionVars false

namespace Verif.Convex

section
variable {n : Nat} {σ : Type} [DecidableEq σ] {vertices : List (Fin n)} {wa bsp : Fin n → ℝ}
  {info : Option (Fin n → σ)}

/-- Sailing the recommended courses in their proportions makes good the speed `speed` in the given direction. -/
inductive MakesGood (wa bsp : Fin n → ℝ) (direction speed : ℝ) : List (Direction σ) → Prop
  | single {d : Direction σ} {i : Fin n} : d.angle = wa i → wa i = direction → bsp i = speed →
      MakesGood wa bsp direction speed [d]
  | two {d1 d2 : Direction σ} {i1 i2 : Fin n} {l : ℝ} : d1.angle = wa i1 → d2.angle = wa i2 →
      d1.proportion = some l → d2.proportion = some (1 - l) →
      l • velocity wa bsp i1 + (1 - l) • velocity wa bsp i2 = speed • heading direction →
      MakesGood wa bsp direction speed [d1, d2]

/-- What is assumed of a slice: increasing angles below 360, nonnegative speeds, positive ones at the vertices of the hull, and
the boat can go around. -/
structure Sailable (vertices : List (Fin n)) (wa bsp : Fin n → ℝ) : Prop where
  hull : IsHull (velocity wa bsp) vertices
  mono : StrictMono wa
  range : ∀ i, 0 ≤ wa i ∧ wa i < 360
  nonneg : ∀ i, 0 ≤ bsp i
  pos : ∀ v ∈ vertices, 0 < bsp v
  around : (0 : ℝ × ℝ) ∈ convexHull ℝ (Set.range (velocity wa bsp))

theorem heading_ne (x : ℝ) : heading x ≠ 0 := by
  intro h
  have h1 := congrArg Prod.fst h
  have h2 := congrArg Prod.snd h
  simp only [heading, Prod.fst_zero, Prod.snd_zero] at h1 h2
  have := Real.cos_sq_add_sin_sq (x * Real.pi / 180)
  rw [h1, h2] at this
  norm_num at this

theorem smul_heading_inj {x a b : ℝ} (h : a • heading x = b • heading x) : a = b := by
  by_contra hab
  have : (a - b) • heading x = 0 := by rw [sub_smul, h, sub_self]
  rcases smul_eq_zero.1 this with h0 | h0
  · exact hab (sub_eq_zero.1 h0)
  · exact heading_ne x h0

/-- The speed made good is a mix of velocities, and no mix is faster. -/
theorem MakesGood.best (hs : Sailable vertices wa bsp) {direction speed : ℝ} (hd : 0 ≤ direction ∧ direction < 360)
    {ds : List (Direction σ)} (h : convexDirection vertices wa bsp info direction = .ok ds)
    (hm : MakesGood wa bsp direction speed ds) :
    speed • heading direction ∈ convexHull ℝ (Set.range (velocity wa bsp)) ∧
      ∀ x : ℝ, x • heading direction ∈ convexHull ℝ (Set.range (velocity wa bsp)) → x ≤ speed := by
  cases hm with
  | @single d i h1 h2 h3 =>
    obtain ⟨i1, g1, -, -, g2⟩ := C71_single_partial hs.hull hs.mono hs.range hs.pos hs.around hd h
    have : i1 = i := hs.mono.injective (by rw [← g1, h1])
    subst this
    refine ⟨subset_convexHull ℝ _ ⟨i1, ?_⟩, fun x hx => h3 ▸ g2 (h1.trans h2) x hx⟩
    rw [velocity, h3, h2]
  | @two d1 d2 i1 i2 l h1 h2 h3 h4 h5 =>
    obtain ⟨j1, j2, lam, s, g1, g2, -, -, g3, -, hl0, hl1, -, g4, g5⟩ :=
      C71_two_partial hs.hull hs.mono hs.range hs.pos hs.around hd h
    obtain rfl : j1 = i1 := hs.mono.injective (by rw [← g1, h1])
    obtain rfl : j2 = i2 := hs.mono.injective (by rw [← g2, h2])
    obtain rfl : lam = l := by rw [h3] at g3; exact (Option.some.inj g3).symm
    have hss : s = speed := smul_heading_inj (x := direction) (by rw [← g4, h5])
    subst hss
    refine ⟨?_, g5⟩
    rw [← g4]
    exact convex_convexHull ℝ (Set.range (velocity wa bsp)) (subset_convexHull ℝ _ (Set.mem_range_self j1))
      (subset_convexHull ℝ _ (Set.mem_range_self j2)) hl0 (by linarith) (by ring)

/-- **C132.** The recommended courses make at least the speed of the diagram in the requested direction. -/
theorem C132_direct (hs : Sailable vertices wa bsp) {i : Fin n} {speed : ℝ} {ds : List (Direction σ)}
    (h : convexDirection vertices wa bsp info (wa i) = .ok ds) (hm : MakesGood wa bsp (wa i) speed ds) : bsp i ≤ speed :=
  (hm.best hs (hs.range i) h).2 _ (subset_convexHull ℝ _ ⟨i, rfl⟩)

/-- **C132.** Detours do not pay: if the way from A to B to C is sailed in the recommended courses, the time it takes is at
least that of the recommended courses from A to C. (The legs have the lengths `x`, `y`, `z`.) -/
theorem C132_detour (hs : Sailable vertices wa bsp) {α β γ x y z u v w : ℝ} (hα : 0 ≤ α ∧ α < 360) (hβ : 0 ≤ β ∧ β < 360)
    (hγ : 0 ≤ γ ∧ γ < 360) (hx : 0 ≤ x) (hy : 0 ≤ y) (hu : 0 < u) (hv : 0 < v) (hw : 0 < w)
    (hsum : x • heading α + y • heading β = z • heading γ) {da db dc : List (Direction σ)}
    (ha : convexDirection vertices wa bsp info α = .ok da) (hb : convexDirection vertices wa bsp info β = .ok db)
    (hc : convexDirection vertices wa bsp info γ = .ok dc) (ma : MakesGood wa bsp α u da) (mb : MakesGood wa bsp β v db)
    (mc : MakesGood wa bsp γ w dc) : z / w ≤ x / u + y / v := by
  have h1 := (ma.best hs hα ha).1
  have h2 := (mb.best hs hβ hb).1
  have h3 := (mc.best hs hγ hc).2
  have hxu : 0 ≤ x / u := by positivity
  have hyv : 0 ≤ y / v := by positivity
  rcases (add_nonneg hxu hyv).lt_or_eq with ht | ht
  · set t := x / u + y / v with htd
    have hmem : (z / t) • heading γ ∈ convexHull ℝ (Set.range (velocity wa bsp)) := by
      have hc := (convex_convexHull ℝ (Set.range (velocity wa bsp))) h1 h2 (a := x / u / t) (b := y / v / t)
        (by positivity) (by positivity) (by rw [← add_div, ← htd, div_self ht.ne'])
      convert hc using 1
      rw [smul_smul, smul_smul]
      have e1 : x / u / t * u = t⁻¹ * x := by field_simp
      have e2 : y / v / t * v = t⁻¹ * y := by field_simp
      rw [e1, e2, ← smul_smul, ← smul_smul, ← smul_add, hsum, smul_smul]
      congr 1
      rw [div_eq_inv_mul]
    have := h3 _ hmem
    rw [div_le_iff₀ ht] at this
    rw [div_le_iff₀ hw]
    linarith
  · have hx0 : x = 0 := by
      have : x / u = 0 := by linarith
      rcases div_eq_zero_iff.1 this with h | h
      · exact h
      · exact absurd h hu.ne'
    have hy0 : y = 0 := by
      have : y / v = 0 := by linarith
      rcases div_eq_zero_iff.1 this with h | h
      · exact h
      · exact absurd h hv.ne'
    have hz0 : z = 0 := by
      rw [hx0, hy0] at hsum
      simp only [zero_smul, add_zero] at hsum
      exact (smul_eq_zero.1 hsum.symm).resolve_right (heading_ne γ)
    rw [hx0, hy0, hz0]; simp

/-- The velocities of a slower boat are mixes of those of a faster one which can go around. -/
theorem hull_mono {bsp' : Fin n → ℝ} (hnn : ∀ i, 0 ≤ bsp i) (hle : ∀ i, bsp i ≤ bsp' i)
    (h0 : (0 : ℝ × ℝ) ∈ convexHull ℝ (Set.range (velocity wa bsp'))) :
    convexHull ℝ (Set.range (velocity wa bsp)) ⊆ convexHull ℝ (Set.range (velocity wa bsp')) := by
  apply convexHull_min _ (convex_convexHull ℝ _)
  rintro _ ⟨i, rfl⟩
  rcases (hnn i).lt_or_eq with h | h
  · have hb' : 0 < bsp' i := h.trans_le (hle i)
    have hc := (convex_convexHull ℝ (Set.range (velocity wa bsp'))) (subset_convexHull ℝ _ ⟨i, rfl⟩) h0
      (a := bsp i / bsp' i) (b := 1 - bsp i / bsp' i) (by positivity)
      (by rw [sub_nonneg, div_le_one hb']; exact hle i) (by ring)
    convert hc using 1
    rw [smul_zero, add_zero, velocity, velocity, smul_smul, div_mul_cancel₀ _ hb'.ne']
  · rw [velocity, ← h, zero_smul]; exact h0

/-- **C132.** A boat which is nowhere slower makes, on its recommended courses, at least the same speed good in every
direction. -/
theorem C132_faster {vertices' : List (Fin n)} {bsp' : Fin n → ℝ} {info' : Option (Fin n → σ)} (hs : Sailable vertices wa bsp)
    (hs' : Sailable vertices' wa bsp') (hle : ∀ i, bsp i ≤ bsp' i) {direction u v : ℝ}
    (hd : 0 ≤ direction ∧ direction < 360) {da db : List (Direction σ)}
    (ha : convexDirection vertices wa bsp info direction = .ok da)
    (hb : convexDirection vertices' wa bsp' info' direction = .ok db) (ma : MakesGood wa bsp direction u da)
    (mb : MakesGood wa bsp' direction v db) : u ≤ v :=
  (mb.best hs' hd hb).2 u (hull_mono hs.nonneg hle hs'.around (ma.best hs hd ha).1)

end

/-- The square of courses 0, 90, 180 and 270 meets the hypotheses, and its recommendation for 45 makes way in this
direction. -/
example : Sailable sqVertices sqWa sqBsp ∧ ∃ ds : List (Direction Nat), ∃ speed : ℝ, 0 < speed ∧
    convexDirection sqVertices sqWa sqBsp (some sqSails) 45 = .ok ds ∧ MakesGood sqWa sqBsp 45 speed ds := by
  have hS : Sailable sqVertices sqWa sqBsp := ⟨sqHull, sqMono, sqRange, fun i => (by fin_cases i <;> simp [sqBsp]), sqPos, sqOrigin⟩
  obtain ⟨i1, i2, lam, s, g1, g2, -, -, g3, g4, -, -, hs, g5, -⟩ :=
    C71_two_partial hS.hull hS.mono hS.range hS.pos hS.around (by norm_num) sqTwo
  exact ⟨hS, _, s, hs, sqTwo, .two g1 g2 g3 g4 g5⟩

end Verif.Convex
