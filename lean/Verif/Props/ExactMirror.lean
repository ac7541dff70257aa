import Verif.Props.CruiseSym

/-!
# Exact condition for property C122: mirrored courses
-/

namespace Verif.Convex

section
variable {n : Nat} {σ : Type} [DecidableEq σ]

/-- The wind angles of the mirrored slice: the mirror images in the opposite order, so that they increase again. -/
def mirrorWa (wa : Fin n → ℝ) : Fin n → ℝ := fun i => 360 - wa i.rev

/-- The boat speeds (or the sails) of the mirrored slice. -/
def mirrored {α : Type} (f : Fin n → α) : Fin n → α := fun i => f i.rev

/-- The mirror image of a recommendation: mirrored headings with the same proportions and sails. -/
def mirrorDirections (l : List (Direction σ)) : List (Direction σ) :=
  (l.map fun d => ⟨360 - d.angle, d.proportion, d.sail⟩).reverse

theorem mirror_sort {vertices vertices' : List (Fin n)} (h : vertices'.Perm (vertices.map Fin.rev)) :
    vertices'.insertionSort (· ≤ ·) = ((vertices.insertionSort (· ≤ ·)).map Fin.rev).reverse := by
  refine List.Perm.eq_of_pairwise (le := (· ≤ ·)) (fun _ _ _ _ h1 h2 => le_antisymm h1 h2) (List.pairwise_insertionSort _ _) ?_ ?_
  · rw [List.pairwise_reverse, List.pairwise_map]
    exact (List.pairwise_insertionSort (· ≤ ·) vertices).imp fun h => Fin.rev_le_rev.2 h
  · exact (List.perm_insertionSort _ _).trans
      (h.trans (((List.perm_insertionSort (· ≤ ·) vertices).symm.map _).trans (List.reverse_perm _).symm))

theorem findEdge_mem {wa : Fin n → ℝ} {d : ℝ} {l pre post : List (Fin n)} {i j : Fin n} (hs : (l.map wa).Pairwise (· ≤ ·))
    (hd : ∀ v ∈ l, wa v ≠ d) (hl : l = pre ++ i :: j :: post) (h1 : wa i ≤ d) (h2 : d ≤ wa j) : findEdge wa d l = some (i, j) := by
  induction pre generalizing l with
  | nil =>
    subst hl
    simp only [List.nil_append, findEdge]
    rw [if_pos ⟨h1, h2⟩]
  | cons a pre ih =>
    subst hl
    obtain ⟨b, t, ht⟩ : ∃ b t, pre ++ i :: j :: post = b :: t := by
      cases pre with
      | nil => exact ⟨_, _, rfl⟩
      | cons b pre => exact ⟨_, _, rfl⟩
    have hrec := ih (l := b :: t) (by rw [← ht]; simp only [List.cons_append, List.map_cons, List.pairwise_cons] at hs; exact hs.2)
      (fun v hv => hd v (by rw [List.cons_append, ht]; exact List.mem_cons_of_mem _ hv)) ht.symm
    rw [List.cons_append, ht]
    have hb : wa b < d := by
      have hbi : wa b ≤ wa i := by
        rw [List.cons_append, ht, List.map_cons, List.pairwise_cons] at hs
        have hmem : i ∈ b :: t := by rw [← ht]; simp
        rcases List.mem_cons.1 hmem with rfl | hm
        · exact le_refl _
        · have := hs.2
          rw [List.map_cons, List.pairwise_cons] at this
          exact this.1 _ (List.mem_map_of_mem hm)
      refine lt_of_le_of_ne (hbi.trans h1) (hd b ?_)
      rw [List.cons_append, ht]
      simp
    simp only [findEdge]
    rw [if_neg fun h => absurd h.2 (not_le.2 hb)]
    exact hrec

theorem mirror_rev (wa : Fin n → ℝ) (i : Fin n) : mirrorWa wa i.rev = 360 - wa i := by
  simp [mirrorWa]

theorem findEdge_mirror_some {wa : Fin n → ℝ} {d : ℝ} {l : List (Fin n)} {i j : Fin n} (hs : (l.map wa).Pairwise (· ≤ ·))
    (hd : ∀ v ∈ l, wa v ≠ d) (h : findEdge wa d l = some (i, j)) :
    findEdge (mirrorWa wa) (360 - d) (l.map Fin.rev).reverse = some (j.rev, i.rev) := by
  obtain ⟨pre, post, hl, h1, h2⟩ := findEdge_some h
  refine findEdge_mem (pre := (post.map Fin.rev).reverse) (post := (pre.map Fin.rev).reverse) ?_ ?_ ?_ ?_ ?_
  · rw [List.map_reverse, List.pairwise_reverse, List.map_map, List.pairwise_map]
    rw [List.pairwise_map] at hs
    refine hs.imp fun h => ?_
    simp only [Function.comp_apply, mirror_rev]
    linarith
  · intro v hv
    rw [List.mem_reverse, List.mem_map] at hv
    obtain ⟨u, hu, rfl⟩ := hv
    rw [mirror_rev]
    intro h
    exact hd u hu (by linarith)
  · rw [hl]
    simp
  · rw [mirror_rev]; linarith
  · rw [mirror_rev]; linarith

theorem mirror_mirror (wa : Fin n → ℝ) : mirrorWa (mirrorWa wa) = wa := by
  funext i
  simp [mirrorWa]

theorem chooseEdge_mirror {wa : Fin n → ℝ} {d : ℝ} {l : List (Fin n)} (hs : (l.map wa).Pairwise (· ≤ ·))
    (hd : ∀ v ∈ l, wa v ≠ d) : chooseEdge (mirrorWa wa) (360 - d) (l.map Fin.rev).reverse =
      (chooseEdge wa d l).map fun e => (e.2.rev, e.1.rev) := by
  unfold chooseEdge
  cases h : findEdge wa d l with
  | some e =>
    obtain ⟨i, j⟩ := e
    rw [findEdge_mirror_some hs hd h]
    rfl
  | none =>
    have hnone : findEdge (mirrorWa wa) (360 - d) (l.map Fin.rev).reverse = none := by
      by_contra hne
      obtain ⟨⟨i, j⟩, he⟩ := Option.ne_none_iff_exists'.1 hne
      have := findEdge_mirror_some (wa := mirrorWa wa) (d := 360 - d) (l := (l.map Fin.rev).reverse) ?_ ?_ he
      · rw [mirror_mirror, List.map_reverse, List.reverse_reverse, List.map_map, sub_sub_cancel,
          show Fin.rev ∘ Fin.rev = (id : Fin n → Fin n) by funext x; simp, List.map_id, h] at this
        cases this
      · rw [List.map_reverse, List.pairwise_reverse, List.map_map, List.pairwise_map]
        rw [List.pairwise_map] at hs
        refine hs.imp fun h => ?_
        simp only [Function.comp_apply, mirror_rev]
        linarith
      · intro v hv
        rw [List.mem_reverse, List.mem_map] at hv
        obtain ⟨u, hu, rfl⟩ := hv
        rw [mirror_rev]
        intro h
        exact hd u hu (by linarith)
    rw [hnone]
    simp only [List.head?_reverse, List.getLast?_reverse, List.getLast?_map, List.head?_map]
    cases h1 : l.head? with
    | none =>
      cases h2 : l.getLast? <;> rfl
    | some a =>
      cases h2 : l.getLast? with
      | none => rfl
      | some b =>
        simp only [Option.map_some, mirror_rev]
        have : |360 - wa b - (360 - wa a)| = |wa a - wa b| := by ring_nf
        rw [this]
        by_cases hh : |wa a - wa b| < 180
        · simp only [if_pos hh]; rfl
        · simp only [if_neg hh]; rfl

theorem trig_mirror (x : ℝ) : Real.cos (Curve.deg2rad (360 - x)) = Real.cos (Curve.deg2rad x) ∧
    Real.sin (Curve.deg2rad (360 - x)) = -Real.sin (Curve.deg2rad x) := by
  have : Curve.deg2rad (360 - x) = 2 * Real.pi - Curve.deg2rad x := by
    unfold Curve.deg2rad
    ring
  rw [this, Real.cos_two_pi_sub, Real.sin_two_pi_sub]
  exact ⟨rfl, rfl⟩

theorem firstProportion_mirror (w1 b1 w2 b2 d : ℝ) :
    firstProportion (polarPoint (360 - w2) b2) (polarPoint (360 - w1) b1) (360 - d) =
      (firstProportion (polarPoint w1 b1) (polarPoint w2 b2) d).map fun o => o.map fun l => 1 - l := by
  unfold firstProportion solve2 polarPoint unit
  simp only [(trig_mirror _).1, (trig_mirror _).2]
  generalize b1 * Real.cos (Curve.deg2rad w1) = p1
  generalize hp2 : b1 * Real.sin (Curve.deg2rad w1) = p2
  generalize b2 * Real.cos (Curve.deg2rad w2) = q1
  generalize hq2 : b2 * Real.sin (Curve.deg2rad w2) = q2
  generalize Real.cos (Curve.deg2rad d) = u1
  generalize Real.sin (Curve.deg2rad d) = u2
  simp only [mul_neg, hp2, hq2]
  have e : -(q1 * p2) - -(p1 * q2) = p1 * q2 - q1 * p2 := by ring
  rw [e]
  by_cases h : p1 * q2 - q1 * p2 = 0
  · simp only [if_pos h]; rfl
  · simp only [if_neg h]
    have e1 : -(u1 * p2) - -(p1 * u2) = p1 * u2 - u1 * p2 := by ring
    have e2 : -(q1 * u2) - -(u1 * q2) = u1 * q2 - q1 * u2 := by ring
    rw [e1, e2]
    generalize (p1 * u2 - u1 * p2) / (p1 * q2 - q1 * p2) = s
    generalize (u1 * q2 - q1 * u2) / (p1 * q2 - q1 * p2) = t
    rw [add_comm s t]
    by_cases h' : t + s = 0
    · simp only [if_pos h']; rfl
    · simp only [if_neg h', Except.map, Option.map]
      congr 2
      field_simp
      ring

/-- Two headings are recommended, with proportions from 0 to 1, and the mean of their velocities in these proportions lies on the line
of the course. -/
def Mixed (wa bsp : Fin n → ℝ) (d : ℝ) (ds : List (Direction σ)) : Prop :=
  ∃ i j l s s', ds = [⟨wa i, some l, s⟩, ⟨wa j, some (1 - l), s'⟩] ∧ 0 ≤ l ∧ l ≤ 1 ∧
    (l * (bsp i * Real.cos (wa i * Real.pi / 180)) + (1 - l) * (bsp j * Real.cos (wa j * Real.pi / 180))) * Real.sin (d * Real.pi / 180) =
    (l * (bsp i * Real.sin (wa i * Real.pi / 180)) + (1 - l) * (bsp j * Real.sin (wa j * Real.pi / 180))) * Real.cos (d * Real.pi / 180)

theorem proportion_line {p q : ℝ × ℝ} {d : ℝ} {lam : Option ℝ} (h : firstProportion p q d = .ok lam) (l : ℝ) :
    lam = some l ↔ (l * p.1 + (1 - l) * q.1) * (unit d).2 = (l * p.2 + (1 - l) * q.2) * (unit d).1 := by
  unfold firstProportion solve2 at h
  have hu : (unit d).1 ^ 2 + (unit d).2 ^ 2 = 1 := by
    unfold unit
    exact Real.cos_sq_add_sin_sq _
  revert h hu
  generalize (unit d).1 = u1
  generalize (unit d).2 = u2
  obtain ⟨p1, p2⟩ := p
  obtain ⟨q1, q2⟩ := q
  intro h hu
  simp only at h
  by_cases hdet : p1 * q2 - q1 * p2 = 0
  · simp [hdet] at h
  simp only [if_neg hdet, Except.ok.injEq] at h
  have key : (u1 * q2 - q1 * u2) / (p1 * q2 - q1 * p2) + (p1 * u2 - u1 * p2) / (p1 * q2 - q1 * p2) =
      ((u1 * q2 - q1 * u2) + (p1 * u2 - u1 * p2)) / (p1 * q2 - q1 * p2) := by ring
  rw [← h, key]
  simp only [div_eq_zero_iff, hdet, or_false]
  by_cases h0 : (u1 * q2 - q1 * u2) + (p1 * u2 - u1 * p2) = 0
  · rw [if_pos h0]
    refine ⟨fun h => (Option.some_ne_none _ h.symm).elim, fun h => ?_⟩
    exfalso
    have e1 : u1 * q2 - q1 * u2 = 0 := by linear_combination l * h0 - h
    have e2 : p1 * u2 - u1 * p2 = 0 := by linear_combination h0 - e1
    apply hdet
    linear_combination (-(p1 * q2 - q1 * p2)) * hu + (u1 * p1 + u2 * p2) * e1 + (u1 * q1 + u2 * q2) * e2
  · rw [if_neg h0, Option.some.injEq, div_div_div_cancel_right₀ hdet, div_eq_iff h0]
    constructor
    · intro h
      linear_combination -h
    · intro h
      linear_combination -h

/-- **C122.** For a course which is not a heading of the slice, the recommendation for the mirrored course and the mirrored slice is the
mirror image of the recommendation exactly if two headings are recommended whose mixture leads along the course. So it is not, if
`convex_direction` recommends a single heading, or replaces the proportion by the one of its correction. -/
theorem C122_mirror_exactly {vertices vertices' : List (Fin n)} {wa bsp : Fin n → ℝ} {info : Option (Fin n → σ)} {d : ℝ}
    (hv : vertices'.Perm (vertices.map Fin.rev)) (hwa : StrictMono wa) (hr : ∀ i, 0 < wa i ∧ wa i < 360) (hd : ∀ i, wa i ≠ d) :
    convexDirection vertices' (mirrorWa wa) (mirrored bsp) (info.map mirrored) (360 - d) =
        (convexDirection vertices wa bsp info d).map mirrorDirections ↔
      ∀ ds, convexDirection vertices wa bsp info d = .ok ds → Mixed wa bsp d ds := by
  unfold convexDirection
  rw [mirror_sort hv, chooseEdge_mirror (by
    rw [List.pairwise_map]
    exact (List.pairwise_insertionSort (· ≤ ·) vertices).imp fun h => hwa.monotone h) fun v _ => hd v]
  cases hc : chooseEdge wa d (vertices.insertionSort (· ≤ ·)) with
  | error e => simp [Except.map]
  | ok e =>
    obtain ⟨i, j⟩ := e
    simp only [Except.map, Option.map_map, Function.comp_def, mirrored, Fin.rev_rev, mirror_rev]
    have hadj : ((j.rev : ℕ) + 1 = (i.rev : ℕ) ∨ (i.rev : ℕ) + 1 = (j.rev : ℕ)) ↔ ((i : ℕ) + 1 = j ∨ (j : ℕ) + 1 = i) := by
      simp only [Fin.val_rev]
      omega
    have hsail : (info.map fun f => f j) = (info.map fun f => f i) ↔ (info.map fun f => f i) = (info.map fun f => f j) := eq_comm
    simp only [hadj, hsail]
    by_cases ha : ((i : ℕ) + 1 = j ∨ (j : ℕ) + 1 = i) ∧ (info.map fun f => f i) = (info.map fun f => f j)
    · simp only [if_pos ha, Except.ok.injEq, mirrorDirections, List.map_cons, List.map_nil, List.reverse_singleton,
        List.cons.injEq, Direction.mk.injEq, and_true, true_and]
      constructor
      · rintro ⟨h, -⟩
        have : i = j := hwa.injective (by linarith)
        rw [this] at ha
        omega
      · intro h
        obtain ⟨_, _, _, _, _, h, -⟩ := h _ rfl
        simp at h
    · simp only [if_neg ha]
      rw [firstProportion_mirror]
      cases hf : firstProportion (polarPoint (wa i) (bsp i)) (polarPoint (wa j) (bsp j)) d with
      | error e => simp [Except.map]
      | ok lam =>
        simp only [Except.map, Except.ok.injEq, forall_eq', mirrorDirections, List.map_cons, List.map_nil, List.reverse_cons,
          List.reverse_nil, List.nil_append, List.cons_append, List.cons.injEq, Direction.mk.injEq, and_true, true_and]
        have hne : wa i + 360 - wa j ≠ 0 := by
          have h1 := (hr i).1
          have h2 := (hr j).2
          intro h
          linarith
        have hne' : 360 - wa j + 360 - (360 - wa i) ≠ 0 := by
          intro h
          exact hne (by linarith)
        have hmix : Mixed wa bsp d [⟨wa i, correct lam d (wa i) (wa j), info.map fun f => f i⟩,
            ⟨wa j, (correct lam d (wa i) (wa j)).map fun l => 1 - l, info.map fun f => f j⟩] ↔
            ∃ l, lam = some l ∧ 0 ≤ l ∧ l ≤ 1 := by
          constructor
          · rintro ⟨i', j', l, s, s', he, h0, h1, hx⟩
            simp only [List.cons.injEq, Direction.mk.injEq, and_true] at he
            obtain ⟨⟨e1, e2, -⟩, e3, -, -⟩ := he
            obtain rfl := hwa.injective e1
            obtain rfl := hwa.injective e3
            exact ⟨l, (proportion_line hf l).2 hx, h0, h1⟩
          · rintro ⟨l, rfl, h0, h1⟩
            refine ⟨i, j, l, info.map fun f => f i, info.map fun f => f j, ?_, h0, h1, (proportion_line hf l).1 rfl⟩
            simp only [correct, if_neg (show ¬ (1 < l ∨ l < 0) by rintro (h | h) <;> linarith), Option.map_some]
        rw [hmix]
        constructor
        · rintro ⟨h1, h2⟩
          by_contra hcon
          have other : ∀ (o : Option ℝ) (d w1 w2 : ℝ), w1 + 360 - w2 ≠ 0 → (∀ l, o = some l → 1 < l ∨ l < 0) →
              correct o d w1 w2 = some ((d + 360 - w2) / (w1 + 360 - w2)) := by
            intro o d w1 w2 hw ho
            cases o with
            | none => simp [correct, hw]
            | some l => simp [correct, hw, ho l rfl]
          have hl : ∀ l, lam = some l → 1 < l ∨ l < 0 := by
            intro l hl
            by_contra hh
            rw [not_or, not_lt, not_lt] at hh
            exact hcon ⟨l, hl, hh.2, hh.1⟩
          rw [other _ _ _ _ hne' (by
            intro l h
            rw [Option.map_eq_some_iff] at h
            obtain ⟨l', h', rfl⟩ := h
            rcases hl l' h' with h | h
            · right; linarith
            · left; linarith), other _ _ _ _ hne hl, Option.map_some, Option.some.injEq] at h1
          have e : 360 - wa j + 360 - (360 - wa i) = wa i + 360 - wa j := by ring
          rw [e, div_eq_iff hne, sub_mul, div_mul_cancel₀ _ hne] at h1
          linarith
        · rintro ⟨l, rfl, h0, h1⟩
          simp only [correct, Option.map_some]
          rw [if_neg (show ¬ (1 < l ∨ l < 0) by rintro (h | h) <;> linarith),
            if_neg (show ¬ (1 < 1 - l ∨ 1 - l < 0) by rintro (h | h) <;> linarith)]
          simp

end

/-- Four courses with the same boat speed. -/
def xWa : Fin 4 → ℝ := ![45, 135, 225, 315]

theorem xMono : StrictMono xWa := by
  intro i j hij
  fin_cases i <;> fin_cases j <;> simp [xWa] at hij ⊢ <;> norm_num

theorem xRange (i : Fin 4) : 0 < xWa i ∧ xWa i < 360 := by
  fin_cases i <;> simp [xWa] <;> norm_num

/-- Dead downwind (course 180 between the neighbouring courses 135 and 225) a single heading is recommended, which is not its own
mirror image. -/
example : convexDirection [3, 2, 1, 0] (mirrorWa xWa) (mirrored fun _ => 1) ((none : Option (Fin 4 → Nat)).map mirrored) (360 - 180) ≠
    (convexDirection [0, 1, 2, 3] xWa (fun _ => 1) (none : Option (Fin 4 → Nat)) 180).map mirrorDirections := by
  intro h
  have hd : ∀ i, xWa i ≠ 180 := by
    intro i
    fin_cases i <;> simp [xWa] <;> norm_num
  obtain ⟨_, _, _, _, _, h', -⟩ := (C122_mirror_exactly (by decide) xMono xRange hd).1 h [⟨135, some 1, none⟩] (by
    unfold convexDirection
    have : ([0, 1, 2, 3] : List (Fin 4)).insertionSort (· ≤ ·) = [0, 1, 2, 3] := by decide
    rw [this]
    have : chooseEdge xWa 180 [0, 1, 2, 3] = .ok (1, 2) := by
      unfold chooseEdge
      simp only [findEdge]
      rw [if_neg (by simp [xWa]; norm_num), if_pos (by simp [xWa]; norm_num)]
    rw [this]
    simp [xWa])
  simp at h'

/-- Against the wind (course 360 between the courses 315 and 45) both courses are recommended, with the same proportion. -/
example : convexDirection [3, 2, 1, 0] (mirrorWa xWa) (mirrored fun _ => 1) ((none : Option (Fin 4 → Nat)).map mirrored) (360 - 360) =
    (convexDirection [0, 1, 2, 3] xWa (fun _ => 1) (none : Option (Fin 4 → Nat)) 360).map mirrorDirections := by
  have hd : ∀ i, xWa i ≠ 360 := by
    intro i
    fin_cases i <;> simp [xWa] <;> norm_num
  refine (C122_mirror_exactly (by decide) xMono xRange hd).2 fun ds hds => ?_
  unfold convexDirection at hds
  have : ([0, 1, 2, 3] : List (Fin 4)).insertionSort (· ≤ ·) = [0, 1, 2, 3] := by decide
  rw [this] at hds
  have : chooseEdge xWa 360 [0, 1, 2, 3] = .ok (0, 3) := by
    unfold chooseEdge
    have : findEdge xWa 360 [0, 1, 2, 3] = none := by
      simp only [findEdge]
      rw [if_neg (by simp [xWa]; norm_num), if_neg (by simp [xWa]; norm_num), if_neg (by simp [xWa]; norm_num)]
    rw [this]
    simp only [List.head?_cons, List.getLast?_cons_cons, List.getLast?_singleton]
    rw [if_neg (by simp [xWa]; norm_num)]
  rw [this] at hds
  have h45 : xWa 0 = 45 := rfl
  have h315 : xWa 3 = 360 - 45 := by simp [xWa]; norm_num
  have hc : Real.cos (Curve.deg2rad 45) = Real.sqrt 2 / 2 := by
    rw [show Curve.deg2rad 45 = Real.pi / 4 by unfold Curve.deg2rad; ring, Real.cos_pi_div_four]
  have hs : Real.sin (Curve.deg2rad 45) = Real.sqrt 2 / 2 := by
    rw [show Curve.deg2rad 45 = Real.pi / 4 by unfold Curve.deg2rad; ring, Real.sin_pi_div_four]
  have hu : unit 360 = (1, 0) := by
    unfold unit
    rw [show Curve.deg2rad 360 = 2 * Real.pi by unfold Curve.deg2rad; ring]
    simp
  have h2 : (0 : ℝ) < Real.sqrt 2 := Real.sqrt_pos.mpr (by norm_num)
  have hf : firstProportion (polarPoint (xWa 0) 1) (polarPoint (xWa 3) 1) 360 = .ok (some (1 / 2)) := by
    unfold firstProportion solve2 polarPoint
    rw [hu, h45, h315]
    simp only [(trig_mirror _).1, (trig_mirror _).2, hc, hs, one_mul]
    have hm : Real.sqrt 2 * Real.sqrt 2 = 2 := Real.mul_self_sqrt (by norm_num)
    have e : Real.sqrt 2 / 2 * -(Real.sqrt 2 / 2) - Real.sqrt 2 / 2 * (Real.sqrt 2 / 2) = -1 := by nlinarith
    rw [e, if_neg (by norm_num)]
    simp only [mul_zero, sub_zero, zero_sub]
    norm_num
    field_simp
  simp only [hf] at hds
  rw [if_neg (by simp), Except.ok.injEq] at hds
  refine ⟨0, 3, 1 / 2, none, none, ?_, by norm_num, by norm_num, ?_⟩
  · rw [← hds]
    simp only [correct, Option.map_none, Option.map_some]
    rw [if_neg (by norm_num)]
    rfl
  · exact (proportion_line hf (1 / 2)).1 rfl

end Verif.Convex
