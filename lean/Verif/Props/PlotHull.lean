import Mathlib.Analysis.Convex.Segment
import Mathlib.Tactic.FieldSimp
import Mathlib.Tactic.Linarith
import Mathlib.Tactic.LinearCombination
import Mathlib.Tactic.NormNum
import Mathlib.Tactic.Positivity
import Mathlib.Tactic.Push
import Mathlib.Tactic.Ring
import Verif.Model.PlotHull

/-!
# Properties C93 and C94: surfaces and convex hulls in plots
-/

set_option linter.unusedSectionVars false

namespace Verif.Plot

open Verif.Curve (deg2rad)

/-! ### C93: surfaces -/

/-- **C93.** A point of the diagram is drawn at the height of its wind speed, at the distance of its boat speed from the
axis; 0° is in direction of the second axis, 90° in direction of the first one. -/
theorem C93_points (c : Col) : (surfacePoint c).2.2 = c.ws ∧
    (surfacePoint c).1 ^ 2 + (surfacePoint c).2.1 ^ 2 = c.bsp ^ 2 ∧
    (c.wa = 0 → surfacePoint c = (0, c.bsp, c.ws)) ∧ (c.wa = 90 → surfacePoint c = (c.bsp, 0, c.ws)) := by
  refine ⟨rfl, ?_, ?_, ?_⟩
  · simp only [surfacePoint]
    linear_combination c.bsp ^ 2 * Real.sin_sq_add_cos_sq (deg2rad c.wa)
  · intro h
    simp [surfacePoint, deg2rad, h]
  · intro h
    have e : deg2rad 90 = Real.pi / 2 := by unfold deg2rad; ring
    simp [surfacePoint, h, e]

section
variable {K : Type} [Field K] [LinearOrder K] [IsStrictOrderedRing K]

/-- **C93.** A triangle is only drawn if the wind speeds of two of its vertices differ; in particular triangles within
one slice are not drawn. -/
theorem C93_drawn {a b c : Vertex K} (h : mask a b c = true) :
    1 / 5 < (a.2.2 - b.2.2) ^ 2 ∨ 1 / 5 < (a.2.2 - c.2.2) ^ 2 := by
  simp only [mask, notTooNarrow, Bool.and_eq_true, Bool.or_eq_true, decide_eq_true_eq] at h
  exact h.1

/-- **C93 (part).** If the wind speed of the first vertex differs enough from that of another one then the triangle is
drawn if all vertices are on the same side, and it is not drawn if two vertices are on different sides and the first two
vertices are in the north. (Missing: the other cases, which depend on the order of the vertices, see below.) -/
theorem C93_mask_partial {a b c : Vertex K}
    (hz : 1 / 5 < (a.2.2 - b.2.2) ^ 2 ∨ 1 / 5 < (a.2.2 - c.2.2) ^ 2) :
    (0 < a.1 ∧ 0 < b.1 ∧ 0 < c.1 ∨ a.1 < 0 ∧ b.1 < 0 ∧ c.1 < 0 → mask a b c = true) ∧
    (a.1 < 0 ∧ (0 < b.1 ∨ 0 < c.1) ∨ 0 < a.1 ∧ (b.1 < 0 ∨ c.1 < 0) → 0 < a.2.1 → 0 < b.2.1 → mask a b c = false) := by
  have hn : notTooNarrow a b c = true := by
    simpa only [notTooNarrow, Bool.or_eq_true, decide_eq_true_eq] using hz
  have hpos : ∀ x : K, 0 < x → sign x = 1 := fun x h => by simp [sign, h]
  have hneg : ∀ x : K, x < 0 → sign x = -1 := fun x h => by simp [sign, h, not_lt.2 h.le]
  constructor
  · intro h
    have : axisSkip a b c = false := by
      rcases h with ⟨h1, h2, h3⟩ | ⟨h1, h2, h3⟩
      · simp [axisSkip, hpos _ h1, hpos _ h2, hpos _ h3]
      · simp [axisSkip, hneg _ h1, hneg _ h2, hneg _ h3]
    simp [mask, hn, this]
  · intro h h1 h2
    have : axisSkip a b c = true := by
      rcases h with ⟨h1, h2 | h2⟩ | ⟨h1, h2 | h2⟩ <;> simp [axisSkip, hpos _, hneg _, h1, h2]
    simp [mask, this, northern, h1, h2]

end

example : mask ((1 : Rat), 1, 5) (2, 1, 6) (3, 1, 5) = true ∧ mask ((1 : Rat), 1, 5) (-2, 1, 6) (3, 1, 5) = false := by
  decide +kernel

/-- **C93 (refuted).** Whether a triangle is drawn depends on the order of its vertices: the difference of the wind speeds
of the second and the third vertex is not considered. Here it is 0.8, the other ones are 0.4. -/
theorem C93_narrow_false : ∃ a b c : Vertex Rat, (1 / 5 : Rat) < (b.2.2 - c.2.2) ^ 2 ∧ 0 < a.1 ∧ 0 < b.1 ∧ 0 < c.1 ∧
    mask a b c = false ∧ mask b a c = true :=
  ⟨(1, 1, 5), (2, 1, 5 + 2 / 5), (3, 1, 5 - 2 / 5), by decide +kernel⟩

/-- **C93 (refuted).** Whether a triangle is drawn depends on the order of its vertices: whether the third vertex is in
the north is not considered. -/
theorem C93_north_false : ∃ a b c : Vertex Rat, 0 < a.2.1 ∧ 0 < b.2.1 ∧ c.2.1 < 0 ∧ a.1 < 0 ∧ 0 < b.1 ∧
    mask a b c = false ∧ mask b c a = true :=
  ⟨(-1, 1, 5), (2, 1, 6), (3, -1, 7), by decide +kernel⟩

/-! ### C94: convex hulls -/

variable {L : Type}

theorem mem_wrap {vs : List (Col × L)} {r : List (Drawn L)} (h : wrap vs = .ok r) :
    (∀ v ∈ vs, draw v ∈ r) ∧ ∀ d ∈ r, (∃ v ∈ vs, d = draw v) ∨ d.1 = 0 ∨ d.1 = 360 := by
  have hd : ∀ d ∈ vs.map draw, ∃ v ∈ vs, d = draw v := by
    intro d hd
    obtain ⟨v, hv, rfl⟩ := List.mem_map.1 hd
    exact ⟨v, hv, rfl⟩
  have hm : ∀ v ∈ vs, draw v ∈ vs.map draw := fun v hv => List.mem_map.2 ⟨v, hv, rfl⟩
  unfold wrap at h
  split at h
  · split_ifs at h <;> cases h
    · exact ⟨hm, fun d h => Or.inl (hd d h)⟩
    · exact ⟨hm, fun d h => Or.inl (hd d h)⟩
    · refine ⟨fun v hv => List.mem_append_left _ (hm v hv), fun d h => ?_⟩
      rcases List.mem_append.1 h with h | h
      · exact Or.inl (hd d h)
      · rw [List.mem_singleton.1 h]; exact Or.inr (Or.inr rfl)
    · refine ⟨fun v hv => List.mem_cons_of_mem _ (hm v hv), fun d h => ?_⟩
      rcases List.mem_cons.1 h with h | h
      · rw [h]; exact Or.inr (Or.inl rfl)
      · exact Or.inl (hd d h)
    · refine ⟨fun v hv => List.mem_append_left _ (List.mem_cons_of_mem _ (hm v hv)), fun d h => ?_⟩
      rcases List.mem_append.1 h with h | h
      · rcases List.mem_cons.1 h with h | h
        · rw [h]; exact Or.inr (Or.inl rfl)
        · exact Or.inl (hd d h)
      · rw [List.mem_singleton.1 h]; exact Or.inr (Or.inr rfl)
  · cases h

/-- The vertices of the hull, sorted by angle. -/
noncomputable def vertices (hull : List (ℝ × ℝ) → Option (List Nat)) (slice : List (Col × L)) : List (Col × L) :=
  open Classical in
  (((hull (slice.map fun c => c.1.point)).getD []).filterMap (slice[·]?)).insertionSort fun c d => c.1.wa ≤ d.1.wa

theorem convexSlice_eq {hull : List (ℝ × ℝ) → Option (List Nat)} {slice : List (Col × L)} {is : List Nat}
    (h : hull (slice.map fun c => c.1.point) = some is) : convexSlice hull slice = wrap (vertices hull slice) := by
  simp [convexSlice, vertices, h]

theorem mem_vertices {hull : List (ℝ × ℝ) → Option (List Nat)} {slice : List (Col × L)} {is : List Nat}
    (h : hull (slice.map fun c => c.1.point) = some is) (v : Col × L) :
    v ∈ vertices hull slice ↔ ∃ i ∈ is, slice[i]? = some v := by
  classical
  simp only [vertices, h, Option.getD_some, List.mem_insertionSort, List.mem_filterMap]

/-- **C94.** All vertices of the hull are drawn with their own angle, speeds and information, and apart from points at 0°
and 360° nothing else is drawn. -/
theorem C94_vertices {hull : List (ℝ × ℝ) → Option (List Nat)} {slice : List (Col × L)} {is : List Nat}
    (h : hull (slice.map fun c => c.1.point) = some is) {r : List (Drawn L)} (hr : convexSlice hull slice = .ok r) :
    (∀ i ∈ is, ∀ c, slice[i]? = some c → (c.1.wa, some (c.1.ws, c.1.bsp), some c.2) ∈ r) ∧
    ∀ d ∈ r, (∃ i ∈ is, ∃ c, slice[i]? = some c ∧ d = (c.1.wa, some (c.1.ws, c.1.bsp), some c.2)) ∨
      d.1 = 0 ∨ d.1 = 360 := by
  rw [convexSlice_eq h] at hr
  obtain ⟨h1, h2⟩ := mem_wrap hr
  constructor
  · intro i hi c hc
    exact h1 c ((mem_vertices h c).2 ⟨i, hi, hc⟩)
  · intro d hd
    rcases h2 d hd with ⟨v, hv, rfl⟩ | h
    · obtain ⟨i, hi, hc⟩ := (mem_vertices h v).1 hv
      exact Or.inl ⟨i, hi, v, hc, rfl⟩
    · exact Or.inr h

/-- **C94.** If no hull can be computed then the slice itself is drawn. -/
theorem C94_no_hull {hull : List (ℝ × ℝ) → Option (List Nat)} {slice : List (Col × L)}
    (h : hull (slice.map fun c => c.1.point) = none) :
    convexSlice hull slice = .ok (slice.map fun c => (c.1.wa, some (c.1.ws, c.1.bsp), some c.2)) := by
  simp only [convexSlice, h]
  rfl

theorem vertices_sorted (hull : List (ℝ × ℝ) → Option (List Nat)) (slice : List (Col × L)) :
    (vertices hull slice).Pairwise fun c d => c.1.wa ≤ d.1.wa := by
  classical
  have := List.pairwise_insertionSort (fun c d : Col × L => c.1.wa ≤ d.1.wa)
    (((hull (slice.map fun c => c.1.point)).getD []).filterMap (slice[·]?))
  exact this

/-- **C94.** The drawn points are sorted by angle, for angles between 0° and 360°. -/
theorem C94_sorted {hull : List (ℝ × ℝ) → Option (List Nat)} {slice : List (Col × L)} {is : List Nat}
    (h : hull (slice.map fun c => c.1.point) = some is) (ha : ∀ c ∈ slice, 0 ≤ c.1.wa ∧ c.1.wa ≤ 360)
    {r : List (Drawn L)} (hr : convexSlice hull slice = .ok r) : r.Pairwise fun d e => d.1 ≤ e.1 := by
  rw [convexSlice_eq h] at hr
  have hs := vertices_sorted hull slice
  have hb : ∀ v ∈ vertices hull slice, 0 ≤ v.1.wa ∧ v.1.wa ≤ 360 := by
    intro v hv
    obtain ⟨i, -, hi⟩ := (mem_vertices h v).1 hv
    exact ha v (List.mem_of_getElem? hi)
  generalize vertices hull slice = vs at *
  have hs' : (vs.map draw).Pairwise fun d e => d.1 ≤ e.1 := by
    rw [List.pairwise_map]
    exact hs
  have hb' : ∀ d ∈ vs.map draw, 0 ≤ d.1 ∧ d.1 ≤ 360 := by
    intro d hd
    obtain ⟨v, hv, rfl⟩ := List.mem_map.1 hd
    exact hb v hv
  unfold wrap at hr
  split at hr
  · split_ifs at hr <;> cases hr
    · exact hs'
    · exact hs'
    · rw [List.pairwise_append]
      refine ⟨hs', List.pairwise_singleton _ _, ?_⟩
      intro d hd e he
      rw [List.mem_singleton.1 he]
      exact (hb' d hd).2
    · exact List.pairwise_cons.2 ⟨fun d hd => (hb' d hd).1, hs'⟩
    · rw [List.pairwise_append]
      refine ⟨List.pairwise_cons.2 ⟨fun d hd => (hb' d hd).1, hs'⟩, List.pairwise_singleton _ _, ?_⟩
      intro d hd e he
      rw [List.mem_singleton.1 he]
      rcases List.mem_cons.1 hd with rfl | hd
      · norm_num
      · exact (hb' d hd).2
  · cases hr

/-- **C94 (part).** If the vertices extend over at least 180° then the drawn curve starts at 0°, ends at 360° and has the
same wind and boat speed at both ends. (Missing: if there are vertices at 0° and at 360° then they are drawn as they are;
whether the point added is on the hull is the subject of the theorems below.) -/
theorem C94_closed_partial {vs : List (Col × L)} {p q : Col × L} (hp : vs.head? = some p) (hq : vs.getLast? = some q)
    (h180 : 180 ≤ q.1.wa - p.1.wa) (h : ¬ (p.1.wa = 0 ∧ q.1.wa = 360)) {r : List (Drawn L)} (hr : wrap vs = .ok r) :
    ∃ s l l', r.head? = some (0, s, l) ∧ r.getLast? = some (360, s, l') := by
  have hne : vs ≠ [] := by rintro rfl; simp at hp
  obtain ⟨v, vs', rfl⟩ := List.exists_cons_of_ne_nil hne
  have hv : v = p := by simpa using hp
  subst hv
  simp only [wrap, hp, hq, if_neg h, if_neg (not_lt.2 h180)] at hr
  split_ifs at hr with h1 h2 <;> cases hr
  · refine ⟨some (v.1.ws, v.1.bsp), some v.2, some v.2, ?_, ?_⟩
    · simp [draw, h1]
    · exact List.getLast?_concat
  · refine ⟨some (q.1.ws, q.1.bsp), some q.2, some q.2, by simp, ?_⟩
    have : (List.map draw (v :: vs')).getLast? = some (draw q) := by rw [List.getLast?_map, hq]; rfl
    rw [List.getLast?_cons_of_ne_nil (by simp), this]
    simp [draw, h2]
  · exact ⟨closing v.1 q.1, none, none, by simp, List.getLast?_concat⟩

theorem deg2rad_pos {x : ℝ} (h : 0 < x) : 0 < deg2rad x := by
  unfold deg2rad; have := Real.pi_pos; positivity

theorem sin_pos_of {x : ℝ} (h : 0 < x) (h' : x < 180) : 0 < Real.sin (deg2rad x) := by
  apply Real.sin_pos_of_pos_of_lt_pi (deg2rad_pos h)
  unfold deg2rad
  have := Real.pi_pos
  rw [div_lt_iff₀ (by norm_num)]
  nlinarith

theorem sin_neg_of {x : ℝ} (h : 180 < x) (h' : x < 360) : Real.sin (deg2rad x) < 0 := by
  have h1 := sin_pos_of (x := x - 180) (by linarith) (by linarith)
  have e : deg2rad x = deg2rad (x - 180) + Real.pi := by unfold deg2rad; ring
  rw [e, Real.sin_add_pi]
  linarith

/-- The chord between the points of two columns on both sides of the first axis crosses the axis in a single point. -/
theorem chord_crossing {p q : Col} (hx : q.bsp * Real.sin (deg2rad q.wa) < p.bsp * Real.sin (deg2rad p.wa))
    (hp : 0 ≤ p.bsp * Real.sin (deg2rad p.wa)) (hq : q.bsp * Real.sin (deg2rad q.wa) ≤ 0) (b : ℝ) :
    (b, (0 : ℝ)) ∈ segment ℝ p.point q.point ↔
      b * (p.bsp * Real.sin (deg2rad p.wa) - q.bsp * Real.sin (deg2rad q.wa)) =
        p.bsp * Real.sin (deg2rad p.wa) * (q.bsp * Real.cos (deg2rad q.wa)) -
          q.bsp * Real.sin (deg2rad q.wa) * (p.bsp * Real.cos (deg2rad p.wa)) := by
  simp only [segment, Col.point, Set.mem_setOf_eq, Prod.smul_mk, Prod.mk_add_mk, Prod.mk.injEq, smul_eq_mul]
  generalize p.bsp * Real.sin (deg2rad p.wa) = x0 at *
  generalize q.bsp * Real.sin (deg2rad q.wa) = x1 at *
  generalize p.bsp * Real.cos (deg2rad p.wa) = y0 at *
  generalize q.bsp * Real.cos (deg2rad q.wa) = y1 at *
  have hd : 0 < x0 - x1 := sub_pos.2 hx
  constructor
  · rintro ⟨s, t, hs, ht, hst, rfl, h0⟩
    have : s = 1 - t := by linarith
    subst this
    linear_combination (y0 - y1) * h0
  · intro h
    refine ⟨-x1 / (x0 - x1), x0 / (x0 - x1), div_nonneg (by linarith) hd.le, div_nonneg hp hd.le, ?_, ?_, ?_⟩
    · field_simp; ring
    · have := hd.ne'
      field_simp
      linear_combination -h
    · field_simp; ring

/-- The condition under which a point at 0° is estimated: the angles of the first and the last vertex are strictly
between 0° and 360°, differ by at least 180°, and the boat speeds are nonnegative and not both zero. -/
structure Wraps (p q : Col) : Prop where
  first : 0 < p.wa
  last : q.wa < 360
  spread : 180 ≤ q.wa - p.wa
  pos : 0 ≤ p.bsp
  pos' : 0 ≤ q.bsp
  ne : 0 < p.bsp ∨ 0 < q.bsp

theorem Wraps.signs {p q : Col} (h : Wraps p q) :
    q.bsp * Real.sin (deg2rad q.wa) < p.bsp * Real.sin (deg2rad p.wa) ∧
      0 ≤ p.bsp * Real.sin (deg2rad p.wa) ∧ q.bsp * Real.sin (deg2rad q.wa) ≤ 0 := by
  have h1 := sin_pos_of h.first (by linarith [h.spread, h.last])
  have h2 := sin_neg_of (x := q.wa) (by linarith [h.spread, h.first]) h.last
  have h3 : 0 ≤ p.bsp * Real.sin (deg2rad p.wa) := mul_nonneg h.pos h1.le
  have h4 : q.bsp * Real.sin (deg2rad q.wa) ≤ 0 := mul_nonpos_of_nonneg_of_nonpos h.pos' h2.le
  refine ⟨?_, h3, h4⟩
  rcases h.ne with hp | hq
  · exact lt_of_le_of_lt h4 (mul_pos hp h1)
  · exact lt_of_lt_of_le (mul_neg_of_pos_of_neg hq h2) h3

theorem closing_eq {p q : Col} (h : Wraps p q) : ∃ w b, closing p q = some (w, b) ∧
    b * (p.bsp * Real.sin (deg2rad p.wa) - q.bsp * Real.sin (deg2rad q.wa)) =
      p.bsp * Real.sin (deg2rad p.wa) * (p.bsp * Real.cos (deg2rad p.wa)) -
        q.bsp * Real.sin (deg2rad q.wa) * (q.bsp * Real.cos (deg2rad q.wa)) := by
  obtain ⟨h1, -, -⟩ := h.signs
  have hne := (sub_pos.2 h1).ne'
  refine ⟨_, _, by simp only [closing]; rw [if_neg hne], ?_⟩
  field_simp
  ring

/-- **C94.** The chord between the first and the last vertex, which closes the hull, crosses the direction 0° in exactly
one point, at a nonnegative distance. -/
theorem C94_crossing {p q : Col} (h : Wraps p q) :
    ∃ b, 0 ≤ b ∧ (b, (0 : ℝ)) ∈ segment ℝ p.point q.point ∧
      ∀ b', (b', (0 : ℝ)) ∈ segment ℝ p.point q.point → b' = b := by
  obtain ⟨h1, h2, h3⟩ := h.signs
  have hd := sub_pos.2 h1
  refine ⟨(p.bsp * Real.sin (deg2rad p.wa) * (q.bsp * Real.cos (deg2rad q.wa)) -
          q.bsp * Real.sin (deg2rad q.wa) * (p.bsp * Real.cos (deg2rad p.wa))) /
          (p.bsp * Real.sin (deg2rad p.wa) - q.bsp * Real.sin (deg2rad q.wa)), ?_, ?_, ?_⟩
  · apply div_nonneg _ hd.le
    have e : p.bsp * Real.sin (deg2rad p.wa) * (q.bsp * Real.cos (deg2rad q.wa)) -
        q.bsp * Real.sin (deg2rad q.wa) * (p.bsp * Real.cos (deg2rad p.wa)) =
        p.bsp * q.bsp * Real.sin (deg2rad p.wa - deg2rad q.wa) := by
      rw [Real.sin_sub]; ring
    rw [e]
    apply mul_nonneg (mul_nonneg h.pos h.pos')
    rw [← Real.sin_add_two_pi]
    have e2 : deg2rad p.wa - deg2rad q.wa + 2 * Real.pi = deg2rad (360 - (q.wa - p.wa)) := by unfold deg2rad; ring
    rw [e2]
    apply Real.sin_nonneg_of_nonneg_of_le_pi
    · exact (deg2rad_pos (by linarith [h.first, h.last])).le
    · unfold deg2rad
      rw [div_le_iff₀ (by norm_num)]
      have := Real.pi_pos
      have := h.spread
      nlinarith
  · rw [chord_crossing h1 h2 h3]
    exact div_mul_cancel₀ _ hd.ne'
  · intro b' hb
    rw [chord_crossing h1 h2 h3] at hb
    rw [eq_div_iff hd.ne', hb]

/-- **C94 (part, and refuted in general).** The point added at 0° and 360° is on the chord closing the hull if and only
if the first and the last vertex have the same distance from the axis 0° – 180° or the same component in direction 0°
(for instance if the slice is symmetric): the weights of both vertices are exchanged. -/
theorem C94_closing_partial {p q : Col} (h : Wraps p q) : ∃ w b, closing p q = some (w, b) ∧
    ((b, (0 : ℝ)) ∈ segment ℝ p.point q.point ↔
      p.bsp * Real.sin (deg2rad p.wa) = -(q.bsp * Real.sin (deg2rad q.wa)) ∨
        p.bsp * Real.cos (deg2rad p.wa) = q.bsp * Real.cos (deg2rad q.wa)) := by
  obtain ⟨h1, h2, h3⟩ := h.signs
  obtain ⟨w, b, hc, hb⟩ := closing_eq h
  refine ⟨w, b, hc, ?_⟩
  rw [chord_crossing h1 h2 h3, hb]
  generalize p.bsp * Real.sin (deg2rad p.wa) = x0 at *
  generalize q.bsp * Real.sin (deg2rad q.wa) = x1 at *
  generalize p.bsp * Real.cos (deg2rad p.wa) = y0 at *
  generalize q.bsp * Real.cos (deg2rad q.wa) = y1 at *
  constructor
  · intro h
    have : (x0 + x1) * (y0 - y1) = 0 := by linear_combination h
    rcases mul_eq_zero.1 this with h | h
    · left; linarith
    · right; linarith
  · rintro (h | h)
    · rw [h]; ring
    · rw [h]

/-- Angles whose sine and cosine are known. -/
theorem trig_values : Real.sin (deg2rad 30) = 1 / 2 ∧ Real.cos (deg2rad 30) = √3 / 2 ∧
    Real.sin (deg2rad 60) = √3 / 2 ∧ Real.cos (deg2rad 60) = 1 / 2 ∧ Real.sin (deg2rad 90) = 1 ∧
    Real.cos (deg2rad 90) = 0 ∧ Real.sin (deg2rad 120) = √3 / 2 ∧ Real.cos (deg2rad 120) = -(1 / 2) ∧
    Real.sin (deg2rad 180) = 0 ∧ Real.cos (deg2rad 180) = -1 ∧
    Real.sin (deg2rad 300) = -(√3 / 2) ∧ Real.cos (deg2rad 300) = 1 / 2 := by
  have e30 : deg2rad 30 = Real.pi / 6 := by unfold deg2rad; ring
  have e60 : deg2rad 60 = Real.pi / 3 := by unfold deg2rad; ring
  have e90 : deg2rad 90 = Real.pi / 2 := by unfold deg2rad; ring
  have e120 : deg2rad 120 = Real.pi - Real.pi / 3 := by unfold deg2rad; ring
  have e180 : deg2rad 180 = Real.pi := by unfold deg2rad; ring
  have e300 : deg2rad 300 = 2 * Real.pi - Real.pi / 3 := by unfold deg2rad; ring
  rw [e30, e60, e90, e120, e180, e300]
  refine ⟨Real.sin_pi_div_six, Real.cos_pi_div_six, Real.sin_pi_div_three, Real.cos_pi_div_three, Real.sin_pi_div_two,
    Real.cos_pi_div_two, ?_, ?_, Real.sin_pi, Real.cos_pi, ?_, ?_⟩
  · rw [Real.sin_pi_sub, Real.sin_pi_div_three]
  · rw [Real.cos_pi_sub, Real.cos_pi_div_three]
  · rw [Real.sin_two_pi_sub, Real.sin_pi_div_three]
  · rw [Real.cos_two_pi_sub, Real.cos_pi_div_three]

/-- The vertices 30°, 180° and 300° with boat speeds 10, 2 and 2 and wind speed 12. -/
example : Wraps ⟨12, 30, 10⟩ ⟨12, 300, 2⟩ := by constructor <;> norm_num

/-- **C94 (refuted).** The point added at 0° may be far outside the hull: there are a slice and a half plane which contains
all points of the slice, but not the point drawn at 0°. -/
theorem C94_outside_false : ∃ (slice : List (Col × Unit)) (r : List (Drawn Unit)) (w b α β γ : ℝ),
    convexSlice (fun _ => some [0, 1, 2]) slice = .ok r ∧ r.head? = some (0, some (w, b), none) ∧ 0 ≤ b ∧
      (∀ c ∈ slice, α * c.1.point.1 + β * c.1.point.2 ≤ γ) ∧ γ < α * b + β * 0 := by
  classical
  obtain ⟨s30, c30, -, -, -, -, -, -, s180, c180, s300, c300⟩ := trig_values
  have h3 : (√3 : ℝ) ^ 2 = 3 := Real.sq_sqrt (by norm_num)
  have h3' : (1 : ℝ) < √3 := by
    rw [Real.lt_sqrt (by norm_num)]; norm_num
  have hw : Wraps ⟨12, 30, 10⟩ ⟨12, 300, 2⟩ := by constructor <;> norm_num
  obtain ⟨w, b, hc, hb⟩ := closing_eq hw
  simp only [s30, c30, s300, c300] at hb
  have hb' : b * (5 + √3) = 26 * √3 := by linear_combination hb
  have hb0 : 0 ≤ b := by
    by_contra h
    push Not at h
    nlinarith
  refine ⟨[(⟨12, 30, 10⟩, ()), (⟨12, 180, 2⟩, ()), (⟨12, 300, 2⟩, ())],
    [(0, closing ⟨12, 30, 10⟩ ⟨12, 300, 2⟩, none), (30, some (12, 10), some ()), (180, some (12, 2), some ()),
      (300, some (12, 2), some ()), (360, closing ⟨12, 30, 10⟩ ⟨12, 300, 2⟩, none)], w, b, 5 + √3, -(5 * √3 - 1), 20,
    ?_, by simp [hc], hb0, ?_, ?_⟩
  · have hsort : (([0, 1, 2] : List Nat).filterMap
        ([((⟨12, 30, 10⟩ : Col), ()), (⟨12, 180, 2⟩, ()), (⟨12, 300, 2⟩, ())][·]?)).insertionSort
        (fun c d => c.1.wa ≤ d.1.wa) = [(⟨12, 30, 10⟩, ()), (⟨12, 180, 2⟩, ()), (⟨12, 300, 2⟩, ())] := by
      have e : (([0, 1, 2] : List Nat).filterMap
        ([((⟨12, 30, 10⟩ : Col), ()), (⟨12, 180, 2⟩, ()), (⟨12, 300, 2⟩, ())][·]?)) =
        [(⟨12, 30, 10⟩, ()), (⟨12, 180, 2⟩, ()), (⟨12, 300, 2⟩, ())] := rfl
      rw [e]
      apply List.Pairwise.insertionSort_eq
      simp only [List.pairwise_cons]
      norm_num
    simp only [convexSlice]
    rw [hsort]
    simp only [wrap, List.head?_cons, List.getLast?_cons_cons, List.getLast?_singleton]
    norm_num [draw]
  · intro c hc
    simp only [List.mem_cons, List.not_mem_nil, or_false] at hc
    rcases hc with rfl | rfl | rfl <;> simp only [Col.point, s30, c30, s180, c180, s300, c300] <;> nlinarith
  · rw [mul_comm, hb', mul_zero, add_zero] <;> nlinarith

/-- **C94 (refuted).** If the vertices extend over less than 180° then connecting them by angle does not give the boundary
of the hull: here each of four points is a vertex (it is the only one in which some linear function is largest), but of
two consecutive drawn points the line through them separates two other vertices. -/
theorem C94_order_false : ∃ (slice : List (Col × Unit)) (r₁ r₂ : List (Drawn Unit)) (p q : Col × Unit),
    convexSlice (fun _ => some [0, 1, 2, 3]) slice = .ok (r₁ ++ [draw p, draw q] ++ r₂) ∧ slice.length = 4 ∧
    (∀ i : Nat, i < 4 → ∃ c, slice[i]? = some c ∧ ∃ α β : ℝ, ∀ j : Nat, j < 4 → j ≠ i → ∀ d, slice[j]? = some d →
      α * d.1.point.1 + β * d.1.point.2 < α * c.1.point.1 + β * c.1.point.2) ∧
    p.1.point.1 = 0 ∧ q.1.point.1 = 0 ∧ p ∈ slice ∧ q ∈ slice ∧
    (∃ c ∈ slice, c.1.point.1 < 0) ∧ ∃ c ∈ slice, 0 < c.1.point.1 := by
  classical
  obtain ⟨-, -, s60, c60, s90, c90, s120, c120, -, -, -, -⟩ := trig_values
  have h3 : (√3 : ℝ) < 2 := by
    rw [Real.sqrt_lt' (by norm_num)]; norm_num
  have h3' : (1 : ℝ) < √3 := by
    rw [Real.lt_sqrt (by norm_num)]; norm_num
  refine ⟨[(⟨12, 60, 2⟩, ()), (⟨12, 90, 1⟩, ()), (⟨12, 90, 6⟩, ()), (⟨12, 120, 2⟩, ())],
    [(60, some (12, 2), some ())], [(120, some (12, 2), some ())], (⟨12, 90, 1⟩, ()), (⟨12, 90, 6⟩, ()), ?_, rfl, ?_, ?_,
    ?_, by simp, by simp, ⟨(⟨12, 120, 2⟩, ()), by simp, ?_⟩, ⟨(⟨12, 60, 2⟩, ()), by simp, ?_⟩⟩
  · have hsort : (([0, 1, 2, 3] : List Nat).filterMap
        ([((⟨12, 60, 2⟩ : Col), ()), (⟨12, 90, 1⟩, ()), (⟨12, 90, 6⟩, ()), (⟨12, 120, 2⟩, ())][·]?)).insertionSort
        (fun c d => c.1.wa ≤ d.1.wa) =
        [(⟨12, 60, 2⟩, ()), (⟨12, 90, 1⟩, ()), (⟨12, 90, 6⟩, ()), (⟨12, 120, 2⟩, ())] := by
      have e : (([0, 1, 2, 3] : List Nat).filterMap
        ([((⟨12, 60, 2⟩ : Col), ()), (⟨12, 90, 1⟩, ()), (⟨12, 90, 6⟩, ()), (⟨12, 120, 2⟩, ())][·]?)) =
        [(⟨12, 60, 2⟩, ()), (⟨12, 90, 1⟩, ()), (⟨12, 90, 6⟩, ()), (⟨12, 120, 2⟩, ())] := rfl
      rw [e]
      apply List.Pairwise.insertionSort_eq
      simp only [List.pairwise_cons]
      norm_num
    simp only [convexSlice]
    rw [hsort]
    simp only [wrap, List.head?_cons, List.getLast?_cons_cons, List.getLast?_singleton]
    norm_num [draw]
  · intro i hi
    have hall : ∀ (P : Col × Unit → Prop) (i : Nat), (i ≠ 0 → P (⟨12, 60, 2⟩, ())) → (i ≠ 1 → P (⟨12, 90, 1⟩, ())) →
        (i ≠ 2 → P (⟨12, 90, 6⟩, ())) → (i ≠ 3 → P (⟨12, 120, 2⟩, ())) → ∀ j : Nat, j < 4 → j ≠ i → ∀ d,
        [((⟨12, 60, 2⟩ : Col), ()), (⟨12, 90, 1⟩, ()), (⟨12, 90, 6⟩, ()), (⟨12, 120, 2⟩, ())][j]? = some d → P d := by
      intro P i h0 h1 h2 h3 j hj hji d hd
      match j with
      | 0 => cases hd; exact h0 (Ne.symm hji)
      | 1 => cases hd; exact h1 (Ne.symm hji)
      | 2 => cases hd; exact h2 (Ne.symm hji)
      | 3 => cases hd; exact h3 (Ne.symm hji)
      | j + 4 => omega
    match i with
    | 0 =>
      refine ⟨_, rfl, 1, 0, hall _ 0 ?_ ?_ ?_ ?_⟩ <;> intro h <;> simp only [Col.point, s60, c60, s90, c90, s120, c120] <;>
        first | linarith | exact absurd rfl h
    | 1 =>
      refine ⟨_, rfl, 0, -1, hall _ 1 ?_ ?_ ?_ ?_⟩ <;> intro h <;> simp only [Col.point, s60, c60, s90, c90, s120, c120] <;>
        first | linarith | exact absurd rfl h
    | 2 =>
      refine ⟨_, rfl, 0, 1, hall _ 2 ?_ ?_ ?_ ?_⟩ <;> intro h <;> simp only [Col.point, s60, c60, s90, c90, s120, c120] <;>
        first | linarith | exact absurd rfl h
    | 3 =>
      refine ⟨_, rfl, -1, 0, hall _ 3 ?_ ?_ ?_ ?_⟩ <;> intro h <;> simp only [Col.point, s60, c60, s90, c90, s120, c120] <;>
        first | linarith | exact absurd rfl h
    | i + 4 => omega
  · simp [Col.point, c90]
  · simp [Col.point, c90]
  · simp only [Col.point, c120]; norm_num
  · simp only [Col.point, c60]; norm_num

/-- A slice of two columns drawn without a convex hull, and one sorted. -/
example : convexSlice (L := Unit) (fun _ => none) [(⟨12, 30, 10⟩, ()), (⟨12, 300, 2⟩, ())] =
      .ok [(30, some (12, 10), some ()), (300, some (12, 2), some ())] ∧
    ∀ r, convexSlice (L := Unit) (fun _ => some [1, 0]) [(⟨12, 30, 10⟩, ()), (⟨12, 300, 2⟩, ())] = .ok r →
      r.Pairwise (fun d e => d.1 ≤ e.1) ∧ (300, some (12, 2), some ()) ∈ r :=
  ⟨C94_no_hull rfl, fun _ hr => ⟨C94_sorted rfl (by intro c hc; fin_cases hc <;> norm_num) hr,
    (C94_vertices rfl hr).1 1 (by simp) _ rfl⟩⟩

end Verif.Plot
