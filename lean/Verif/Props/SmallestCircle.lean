import Mathlib.Data.List.Nodup
import Verif.Props.Sampler

/-!
# Property C135: the enclosing circle is the smallest one

`_make_circle` walks along the points, and whenever a point lies outside of the circle it starts again with this point
on the boundary. The proof that this ends, and ends with the smallest circle, follows Welzl: if a point lies outside of
the smallest circle around `P` through `R`, then the smallest circle around `P` and this point through `R` goes through
the point.
-/

namespace Verif.Sampler

/-- The square of the distance of a point from the midpoint of a circle. -/
def sqDist (c : Circle) (p : ℝ × ℝ) : ℝ := (p.1 - c.1.1) ^ 2 + (p.2 - c.1.2) ^ 2

/-- The disc contains the points `P`, and the points `R` lie on its boundary. -/
structure Around (P R : List (ℝ × ℝ)) (c : Circle) : Prop where
  nonneg : 0 ≤ c.2
  inside : ∀ p ∈ P, sqDist c p ≤ c.2 ^ 2
  boundary : ∀ p ∈ R, sqDist c p = c.2 ^ 2

/-- A smallest disc around `P` with `R` on its boundary. -/
structure Least (P R : List (ℝ × ℝ)) (c : Circle) : Prop where
  around : Around P R c
  least : ∀ e, Around P R e → c.2 ≤ e.2

theorem Around.mono {P P' R R' : List (ℝ × ℝ)} {c : Circle} (h : Around P R c) (hP : ∀ p ∈ P', p ∈ P ∨ p ∈ R)
    (hR : ∀ p ∈ R', p ∈ R) : Around P' R' c :=
  ⟨h.nonneg, fun p hp => (hP p hp).elim (h.inside p) fun hr => (h.boundary p hr).le, fun p hp => h.boundary p (hR p hp)⟩

/-- Between a disc without `p` and a disc with `p` there is one with `p` on the boundary. -/
theorem between {P R : List (ℝ × ℝ)} {c e : Circle} {p : ℝ × ℝ} (hc : Around P R c) (he : Around P R e)
    (hp : c.2 ^ 2 < sqDist c p) (hq : sqDist e p ≤ e.2 ^ 2) :
    ∃ d, Around P (R ++ [p]) d ∧ (c.2 ≤ e.2 → d.2 ≤ e.2) := by
  set a := sqDist c p - c.2 ^ 2 with ha
  set b := e.2 ^ 2 - sqDist e p with hb
  have a0 : 0 < a := by linarith
  have b0 : 0 ≤ b := by linarith
  obtain ⟨l, hl0, hl1, hl⟩ : ∃ l : ℝ, 0 ≤ l ∧ l ≤ 1 ∧ (1 - l) * a = l * b := by
    refine ⟨a / (a + b), by positivity, ?_, ?_⟩
    · rw [div_le_one (by linarith)]; linarith
    · field_simp; ring
  set m : ℝ × ℝ := ((1 - l) * c.1.1 + l * e.1.1, (1 - l) * c.1.2 + l * e.1.2) with hm
  have h0 : 0 ≤ (p.1 - m.1) ^ 2 + (p.2 - m.2) ^ 2 := by positivity
  set r := Real.sqrt ((p.1 - m.1) ^ 2 + (p.2 - m.2) ^ 2) with hr
  have hr2 : r ^ 2 = (p.1 - m.1) ^ 2 + (p.2 - m.2) ^ 2 := Real.sq_sqrt h0
  have key : ∀ x : ℝ × ℝ, sqDist (m, r) x - r ^ 2 =
      (1 - l) * (sqDist c x - c.2 ^ 2) + l * (sqDist e x - e.2 ^ 2) := by
    intro x
    have e1 : (1 - l) * (sqDist c p - c.2 ^ 2) + l * (sqDist e p - e.2 ^ 2) = 0 := by
      rw [← ha, show sqDist e p - e.2 ^ 2 = -b by rw [hb]; ring]; linarith
    rw [hr2]
    simp only [sqDist, hm] at e1 ⊢
    linear_combination (-1 : ℝ) * e1
  refine ⟨(m, r), ⟨Real.sqrt_nonneg _, ?_, ?_⟩, ?_⟩
  · intro x hx
    have h1 := mul_nonneg (sub_nonneg.2 hl1) (sub_nonneg.2 (hc.inside x hx))
    have h2 := mul_nonneg hl0 (sub_nonneg.2 (he.inside x hx))
    have := key x
    simp only at this ⊢
    linarith
  · intro x hx
    have hk := key x
    rcases List.mem_append.1 hx with hx | hx
    · rw [hc.boundary x hx, he.boundary x hx] at hk
      simp only at hk ⊢
      linarith
    · rw [List.mem_singleton.1 hx]
      simp only [sqDist]
      exact hr2.symm
  · intro hce
    have e0 := he.nonneg
    have c0 := hc.nonneg
    refine le_of_sq_le_sq ?_ e0
    have h2 : r ^ 2 = (1 - l) * c.2 ^ 2 + l * e.2 ^ 2 - l * (1 - l) * ((c.1.1 - e.1.1) ^ 2 + (c.1.2 - e.1.2) ^ 2) := by
      have e1 : (1 - l) * (sqDist c p - c.2 ^ 2) + l * (sqDist e p - e.2 ^ 2) = 0 := by
        rw [← ha, show sqDist e p - e.2 ^ 2 = -b by rw [hb]; ring]; linarith
      rw [hr2]
      simp only [sqDist, hm] at e1 ⊢
      linear_combination e1
    have h3 : 0 ≤ l * (1 - l) * ((c.1.1 - e.1.1) ^ 2 + (c.1.2 - e.1.2) ^ 2) :=
      mul_nonneg (mul_nonneg hl0 (by linarith)) (by positivity)
    have h4 : c.2 ^ 2 ≤ e.2 ^ 2 := pow_le_pow_left₀ c0 hce 2
    have h5 := mul_le_mul_of_nonneg_left h4 (sub_nonneg.2 hl1)
    simp only
    nlinarith
where
  le_of_sq_le_sq {x y : ℝ} (h : x ^ 2 ≤ y ^ 2) (hy : 0 ≤ y) : x ≤ y := by
    by_contra hlt
    push Not at hlt
    nlinarith

/-- Three different points of a circle are not on a line. -/
theorem not_collinear {c : Circle} {p q r : ℝ × ℝ} (hp : sqDist c p = c.2 ^ 2) (hq : sqDist c q = c.2 ^ 2)
    (hr : sqDist c r = c.2 ^ 2) (pq : p ≠ q) (pr : p ≠ r) (qr : q ≠ r) :
    (q.1 - p.1) * (r.2 - p.2) ≠ (r.1 - p.1) * (q.2 - p.2) := by
  obtain ⟨⟨mx, my⟩, s⟩ := c
  obtain ⟨px, py⟩ := p
  obtain ⟨qx, qy⟩ := q
  obtain ⟨rx, ry⟩ := r
  simp only [sqDist, ne_eq, Prod.mk.injEq, not_and_or] at *
  intro hdet
  -- coordinates relative to `p`
  set u := qx - px with hu
  set v := qy - py with hv
  set w := rx - px with hw
  set z := ry - py with hz
  set a := mx - px with ha
  set b := my - py with hb
  have h1 : u * u + v * v = 2 * (a * u + b * v) := by
    simp only [hu, hv, ha, hb]; linear_combination hq - hp
  have h2 : w * w + z * z = 2 * (a * w + b * z) := by
    simp only [hw, hz, ha, hb]; linear_combination hr - hp
  have n1 : 0 < u * u + v * v := by
    by_contra hn
    have hu0 : u = 0 := by nlinarith [mul_self_nonneg u, mul_self_nonneg v]
    have hv0 : v = 0 := by nlinarith [mul_self_nonneg u, mul_self_nonneg v]
    rcases pq with h | h
    · exact h (by linarith)
    · exact h (by linarith)
  have n2 : 0 < w * w + z * z := by
    by_contra hn
    have hu0 : w = 0 := by nlinarith [mul_self_nonneg w, mul_self_nonneg z]
    have hv0 : z = 0 := by nlinarith [mul_self_nonneg w, mul_self_nonneg z]
    rcases pr with h | h
    · exact h (by linarith)
    · exact h (by linarith)
  -- `r - p` is a multiple of `q - p`
  obtain ⟨t, ht1, ht2⟩ : ∃ t, w = t * u ∧ z = t * v := by
    refine ⟨(u * w + v * z) / (u * u + v * v), ?_, ?_⟩
    · rw [div_mul_eq_mul_div, eq_div_iff n1.ne']; linear_combination (-v) * hdet
    · rw [div_mul_eq_mul_div, eq_div_iff n1.ne']; linear_combination u * hdet
  have h3 : t * (t - 1) * (u * u + v * v) = 0 := by
    rw [ht1, ht2] at h2; linear_combination h2 - t * h1
  rcases mul_eq_zero.1 h3 with h3 | h3
  · rcases mul_eq_zero.1 h3 with h3 | h3
    · rw [ht1, ht2, h3] at n2; simp at n2
    · have ht : t = 1 := by linarith
      rw [ht, one_mul] at ht1 ht2
      rcases qr with h | h
      · exact h (by linarith)
      · exact h (by linarith)
  · exact absurd h3 n1.ne'

/-- Circles through the same three different points are equal. -/
theorem three_points {c e : Circle} {p q r : ℝ × ℝ} (hp : sqDist c p = c.2 ^ 2) (hq : sqDist c q = c.2 ^ 2)
    (hr : sqDist c r = c.2 ^ 2) (ep : sqDist e p = e.2 ^ 2) (eq : sqDist e q = e.2 ^ 2)
    (er : sqDist e r = e.2 ^ 2) (pq : p ≠ q) (pr : p ≠ r) (qr : q ≠ r) : c.1 = e.1 ∧ c.2 ^ 2 = e.2 ^ 2 := by
  have hdet := not_collinear hp hq hr pq pr qr
  obtain ⟨⟨mx, my⟩, s⟩ := c
  obtain ⟨⟨nx, ny⟩, t⟩ := e
  obtain ⟨px, py⟩ := p
  obtain ⟨qx, qy⟩ := q
  obtain ⟨rx, ry⟩ := r
  simp only [sqDist] at *
  have hne : (qx - px) * (ry - py) - (rx - px) * (qy - py) ≠ 0 := sub_ne_zero.2 hdet
  have h1 : (nx - mx) * (qx - px) + (ny - my) * (qy - py) = 0 := by
    linear_combination (hq - hp - eq + ep) / 2
  have h2 : (nx - mx) * (rx - px) + (ny - my) * (ry - py) = 0 := by
    linear_combination (hr - hp - er + ep) / 2
  have hx : nx - mx = 0 := by
    have : (nx - mx) * ((qx - px) * (ry - py) - (rx - px) * (qy - py)) = 0 := by
      linear_combination (ry - py) * h1 - (qy - py) * h2
    exact (mul_eq_zero.1 this).resolve_right hne
  have hy : ny - my = 0 := by
    have : (ny - my) * ((qx - px) * (ry - py) - (rx - px) * (qy - py)) = 0 := by
      linear_combination (qx - px) * h2 - (rx - px) * h1
    exact (mul_eq_zero.1 this).resolve_right hne
  have ex : nx = mx := by linarith
  have ey : ny = my := by linarith
  subst ex; subst ey
  exact ⟨rfl, by linarith⟩

theorem onCircle_sq {c : Circle} {p : ℝ × ℝ} (h : OnCircle c p) : 0 ≤ c.2 ∧ sqDist c p = c.2 ^ 2 := by
  have h0 : 0 ≤ (p.1 - c.1.1) ^ 2 + (p.2 - c.1.2) ^ 2 := by positivity
  rw [OnCircle] at h
  refine ⟨h ▸ Real.sqrt_nonneg _, ?_⟩
  rw [← h, Real.sq_sqrt h0, sqDist]

/-- The small circle of at most three points is the smallest circle through these points, if there is one. -/
theorem small_least {R : List (ℝ × ℝ)} (hd : R.Nodup) (hl : R.length ≤ 3) {e : Circle} (he : Around [] R e)
    {c : Circle} (hc : smallCircle R = .ok c) : Least [] R c := by
  match R, hl with
  | [], _ =>
    simp only [smallCircle, Except.ok.injEq] at hc
    subst hc
    exact ⟨⟨le_refl _, by simp, by simp⟩, fun e he => he.nonneg⟩
  | [p], _ =>
    simp only [smallCircle, Except.ok.injEq] at hc
    subst hc
    exact ⟨⟨le_refl _, by simp, by simp [sqDist]⟩, fun e he => he.nonneg⟩
  | [p, q], _ =>
    obtain ⟨c', hc', h1, h2, h3⟩ := C30_small_circle.2.1 p q
    rw [hc'] at hc
    simp only [Except.ok.injEq] at hc
    subst hc
    obtain ⟨c0, h1⟩ := onCircle_sq h1
    obtain ⟨-, h2⟩ := onCircle_sq h2
    refine ⟨⟨c0, by simp, by simp [h1, h2]⟩, fun e he => ?_⟩
    have e1 := he.boundary p (by simp)
    have e2 := he.boundary q (by simp)
    have e0 := he.nonneg
    refine between.le_of_sq_le_sq ?_ e0
    simp only [sqDist, h3] at h1 h2 e1 e2
    nlinarith [sq_nonneg (p.1 + q.1 - 2 * e.1.1), sq_nonneg (p.2 + q.2 - 2 * e.1.2)]
  | [p, q, r], _ =>
    simp only [List.nodup_cons, List.mem_cons, List.not_mem_nil, or_false, not_or] at hd
    obtain ⟨⟨pq, pr⟩, qr, -⟩ := hd
    have hdet := not_collinear (he.boundary p (by simp)) (he.boundary q (by simp)) (he.boundary r (by simp)) pq pr qr
    obtain ⟨c', hc', h1, h2, h3⟩ := C30_small_circle.2.2 p q r hdet
    rw [hc'] at hc
    simp only [Except.ok.injEq] at hc
    subst hc
    obtain ⟨c0, h1⟩ := onCircle_sq h1
    obtain ⟨-, h2⟩ := onCircle_sq h2
    obtain ⟨-, h3⟩ := onCircle_sq h3
    refine ⟨⟨c0, by simp, by simp [h1, h2, h3]⟩, fun e he => ?_⟩
    have := three_points h1 h2 h3 (he.boundary p (by simp)) (he.boundary q (by simp)) (he.boundary r (by simp))
      pq pr qr
    exact between.le_of_sq_le_sq this.2.le he.nonneg

/-- The tolerance is small compared to the data: a point outside of a circle made of at most three of the points is
outside by at least the tolerance. -/
def Separated (pts : List (ℝ × ℝ)) (eps : ℝ) : Prop :=
  ∀ l : List (ℝ × ℝ), (∀ p ∈ l, p ∈ pts) → l.length ≤ 3 → ∀ c, smallCircle l = .ok c →
    ∀ p ∈ pts, isInCircle p c eps → sqDist c p ≤ c.2 ^ 2

/-- The loop comes from one state to another one. -/
def Reaches (pts : List (ℝ × ℝ)) (eps : ℝ) (i j : Nat) (k : List Nat) (c : Circle) (i' j' : Nat) (k' : List Nat)
    (c' : Circle) : Prop :=
  ∃ n, ∀ fuel, circleLoop pts eps (fuel + n) i j k c = circleLoop pts eps fuel i' j' k' c'

theorem Reaches.trans {pts : List (ℝ × ℝ)} {eps : ℝ} {i j : Nat} {k : List Nat} {c : Circle} {i' j' : Nat}
    {k' : List Nat} {c' : Circle} {i'' j'' : Nat} {k'' : List Nat} {c'' : Circle}
    (h : Reaches pts eps i j k c i' j' k' c') (h' : Reaches pts eps i' j' k' c' i'' j'' k'' c'') :
    Reaches pts eps i j k c i'' j'' k'' c'' := by
  obtain ⟨n, hn⟩ := h
  obtain ⟨m, hm⟩ := h'
  refine ⟨m + n, fun fuel => ?_⟩
  rw [← add_assoc, hn, hm]

theorem Reaches.inside {pts : List (ℝ × ℝ)} {eps : ℝ} {i j : Nat} {k : List Nat} {c : Circle} {p : ℝ × ℝ}
    (hp : pts[i]? = some p) (h : isInCircle p c eps) : Reaches pts eps i j k c (i + 1) (max (i + 1) j) k c :=
  ⟨1, fun fuel => by simp only [circleLoop, hp, h, if_true]⟩

theorem Reaches.outside {pts : List (ℝ × ℝ)} {eps : ℝ} {i j : Nat} {k k' : List Nat} {c c' : Circle} {p : ℝ × ℝ}
    (hp : pts[i]? = some p) (h : ¬ isInCircle p c eps)
    (hk : (if i = j then [i] else k.filter (fun t => decide (i < t)) ++ [i]) = k')
    (hc : smallCircle (k'.filterMap fun t => pts[t]?) = .ok c') : Reaches pts eps i j k c 0 j k' c' :=
  ⟨1, fun fuel => by
    rw [circleLoop]
    simp only [hp, h, if_false, hk, hc]⟩

theorem isInCircle_of_le {c : Circle} {p : ℝ × ℝ} {eps : ℝ} (heps : 0 < eps) (hc : 0 ≤ c.2)
    (h : sqDist c p ≤ c.2 ^ 2) : isInCircle p c eps := by
  rw [isInCircle, norm2]
  have : Real.sqrt ((p.1 - c.1.1) ^ 2 + (p.2 - c.1.2) ^ 2) ≤ c.2 := by
    rw [Real.sqrt_le_left hc]; exact h
  linarith

/-- The loop of `_make_circle` finds the smallest circle around the first points through the given ones. -/
theorem reaches_least {pts : List (ℝ × ℝ)} {eps : ℝ} (heps : 0 < eps) (hsep : Separated pts eps) :
    ∀ i, i ≤ pts.length → ∀ (k : List Nat) (j : Nat) (c e : Circle), (∀ t ∈ k, i ≤ t ∧ t < pts.length ∧ t ≤ j) →
      k.length ≤ 3 → (k.filterMap fun t => pts[t]?).Nodup →
      Around (pts.take i) (k.filterMap fun t => pts[t]?) e →
      smallCircle (k.filterMap fun t => pts[t]?) = .ok c →
      ∃ j' k' c', Reaches pts eps 0 j k c i j' k' c' ∧ k'.filter (fun t => decide (i ≤ t)) = k ∧
        (∀ t ∈ k', t ≤ j') ∧ j ≤ j' ∧ i ≤ j' ∧ Least (pts.take i) (k.filterMap fun t => pts[t]?) c' ∧
        ∃ l : List (ℝ × ℝ), (∀ p ∈ l, p ∈ pts) ∧ l.length ≤ 3 ∧ smallCircle l = .ok c' := by
  have mem : ∀ k : List Nat, ∀ p ∈ k.filterMap fun t => pts[t]?, p ∈ pts := by
    intro k p hp
    obtain ⟨t, -, ht⟩ := List.mem_filterMap.1 hp
    exact List.mem_of_getElem? ht
  intro i
  induction i with
  | zero =>
    intro _ k j c e hk hl hd he hc
    refine ⟨j, k, c, ⟨0, fun _ => rfl⟩, by simp, fun t ht => (hk t ht).2.2, le_refl _, Nat.zero_le _, ?_, _, mem k,
      le_trans (List.length_filterMap_le _ _) hl, hc⟩
    simpa using small_least hd (le_trans (List.length_filterMap_le _ _) hl)
      (he.mono (P' := []) (by simp) fun p hp => hp) hc
  | succ i ih =>
    intro hi k j c e hk hl hd he hc
    have hilt : i < pts.length := hi
    obtain ⟨p, hp⟩ : ∃ p, pts[i]? = some p := ⟨_, List.getElem?_eq_getElem hilt⟩
    have htake : pts.take (i + 1) = pts.take i ++ [p] := by
      rw [List.take_add_one, hp]; rfl
    have hpm : p ∈ pts := List.mem_of_getElem? hp
    have heP : Around (pts.take i) (k.filterMap fun t => pts[t]?) e :=
      he.mono (fun q hq => Or.inl (by rw [htake]; exact List.mem_append_left _ hq)) fun q hq => hq
    have hep : sqDist e p ≤ e.2 ^ 2 := he.inside p (by rw [htake]; simp)
    obtain ⟨j1, k1, c1, hr1, hk1, hj1, hjj, hij, hL1, l1, hm1, hl1, hs1⟩ := ih hilt.le k j c e
      (fun t ht => ⟨(Nat.le_succ i).trans (hk t ht).1, (hk t ht).2⟩) hl hd heP hc
    have filt : ∀ (k' k'' : List Nat), k'.filter (fun t => decide (i ≤ t)) = k'' →
        k'.filter (fun t => decide (i + 1 ≤ t)) = k''.filter (fun t => decide (i + 1 ≤ t)) := by
      intro k' k'' h
      rw [← h, List.filter_filter]
      refine List.filter_congr fun t _ => ?_
      by_cases h1 : i + 1 ≤ t
      · simp [h1, (Nat.le_succ i).trans h1]
      · simp [h1]
    have self : k.filter (fun t => decide (i + 1 ≤ t)) = k :=
      List.filter_eq_self.2 fun t ht => by simpa using (hk t ht).1
    by_cases hin : isInCircle p c1 eps
    · -- the point is inside
      have hle := hsep l1 hm1 hl1 c1 hs1 p hpm hin
      refine ⟨max (i + 1) j1, k1, c1, hr1.trans (Reaches.inside hp hin), by rw [filt _ _ hk1, self],
        fun t ht => (hj1 t ht).trans (le_max_right _ _), hjj.trans (le_max_right _ _), le_max_left _ _, ?_,
        l1, hm1, hl1, hs1⟩
      refine ⟨⟨hL1.around.nonneg, ?_, hL1.around.boundary⟩, fun e' he' => hL1.least e' ?_⟩
      · intro q hq
        rw [htake] at hq
        rcases List.mem_append.1 hq with hq | hq
        · exact hL1.around.inside q hq
        · rw [List.mem_singleton.1 hq]; exact hle
      · exact he'.mono (fun q hq => Or.inl (by rw [htake]; exact List.mem_append_left _ hq)) fun q hq => hq
    · -- the point is outside
      have hgt : c1.2 ^ 2 < sqDist c1 p := by
        by_contra hn
        exact hin (isInCircle_of_le heps hL1.around.nonneg (not_lt.1 hn))
      have hk2 : (if i = j1 then [i] else k1.filter (fun t => decide (i < t)) ++ [i]) = k ++ [i] := by
        have h1 : k1.filter (fun t => decide (i < t)) = k := by
          have := filt _ _ hk1
          rw [self] at this
          exact this
        by_cases hj : i = j1
        · rw [if_pos hj]
          have : k = [] := by
            rw [← h1]
            refine List.filter_eq_nil_iff.2 fun t ht => ?_
            have := hj1 t ht
            simp only [decide_eq_true_eq, not_lt]
            omega
          rw [this]; rfl
        · rw [if_neg hj, h1]
      have hpick : ((k ++ [i]).filterMap fun t => pts[t]?) = (k.filterMap fun t => pts[t]?) ++ [p] := by
        rw [List.filterMap_append]
        simp [hp]
      have hnew : p ∉ k.filterMap fun t => pts[t]? := by
        intro hmem
        have := hL1.around.boundary p hmem
        linarith
      have hd2 : ((k ++ [i]).filterMap fun t => pts[t]?).Nodup := by
        rw [hpick]
        refine List.nodup_append.2 ⟨hd, by simp, ?_⟩
        intro a ha b hb hab
        rw [List.mem_singleton.1 hb] at hab
        exact hnew (hab ▸ ha)
      have hlen2 : (k ++ [i]).length ≤ 3 := by
        rw [List.length_append]
        by_contra hlt
        have h3 : k.length = 3 := by
          simp only [List.length_singleton] at hlt; omega
        match k, h3, hd, heP, hL1, hk with
        | [a, b, d], _, hd, heP, hL1, hk =>
          obtain ⟨x, hx⟩ : ∃ x, pts[a]? = some x := ⟨_, List.getElem?_eq_getElem (hk a (by simp)).2.1⟩
          obtain ⟨y, hy⟩ : ∃ y, pts[b]? = some y := ⟨_, List.getElem?_eq_getElem (hk b (by simp)).2.1⟩
          obtain ⟨z, hz⟩ : ∃ z, pts[d]? = some z := ⟨_, List.getElem?_eq_getElem (hk d (by simp)).2.1⟩
          have hxyz : ([a, b, d].filterMap fun t => pts[t]?) = [x, y, z] := by
            simp [hx, hy, hz]
          rw [hxyz] at hd heP hL1
          simp only [List.nodup_cons, List.mem_cons, List.not_mem_nil, or_false, not_or] at hd
          obtain ⟨⟨xy, xz⟩, yz, -⟩ := hd
          have := three_points (hL1.around.boundary x (by simp)) (hL1.around.boundary y (by simp))
            (hL1.around.boundary z (by simp)) (heP.boundary x (by simp)) (heP.boundary y (by simp))
            (heP.boundary z (by simp)) xy xz yz
          have h5 : sqDist c1 p = sqDist e p := by simp only [sqDist, this.1]
          rw [h5, this.2] at hgt
          linarith
      obtain ⟨d, hdA, -⟩ := between hL1.around heP hgt hep
      rw [← hpick] at hdA
      obtain ⟨c2, hc2, -⟩ := C30_small_circle_encloses ((k ++ [i]).filterMap fun t => pts[t]?)
        ((List.length_filterMap_le _ _).trans hlen2)
      obtain ⟨j3, k3, c3, hr3, hk3, hj3, hjj3, hij3, hL3, l3, hm3, hl3, hs3⟩ := ih hilt.le (k ++ [i]) j1 c2 d
        (by
          intro t ht
          rcases List.mem_append.1 ht with ht | ht
          · exact ⟨(Nat.le_succ i).trans (hk t ht).1, (hk t ht).2.1, (hk t ht).2.2.trans hjj⟩
          · rw [List.mem_singleton.1 ht]; exact ⟨le_refl _, hilt, hij⟩)
        hlen2 hd2 hdA hc2
      rw [hpick] at hL3
      have hb3 : sqDist c3 p = c3.2 ^ 2 := hL3.around.boundary p (by simp)
      have hin3 : isInCircle p c3 eps := isInCircle_of_le heps hL3.around.nonneg hb3.le
      refine ⟨max (i + 1) j3, k3, c3,
        hr1.trans ((Reaches.outside hp hin hk2 hc2).trans (hr3.trans (Reaches.inside hp hin3))), ?_,
        fun t ht => (hj3 t ht).trans (le_max_right _ _), (hjj.trans hjj3).trans (le_max_right _ _), le_max_left _ _, ?_,
        l3, hm3, hl3, hs3⟩
      · rw [filt _ _ hk3, List.filter_append, self]
        simp
      · refine ⟨⟨hL3.around.nonneg, ?_, fun q hq => hL3.around.boundary q (List.mem_append_left _ hq)⟩, ?_⟩
        · intro q hq
          rw [htake] at hq
          rcases List.mem_append.1 hq with hq | hq
          · exact hL3.around.inside q hq
          · rw [List.mem_singleton.1 hq]; exact hb3.le
        · intro e' he'
          have heP' : Around (pts.take i) (k.filterMap fun t => pts[t]?) e' :=
            he'.mono (fun q hq => Or.inl (by rw [htake]; exact List.mem_append_left _ hq)) fun q hq => hq
          obtain ⟨d', hd', hle⟩ := between hL1.around heP' hgt (he'.inside p (by rw [htake]; simp))
          exact (hL3.least d' hd').trans (hle (hL1.least e' heP'))

theorem exists_around (pts : List (ℝ × ℝ)) : ∃ e, Around pts [] e := by
  have key : ∃ R : ℝ, 0 ≤ R ∧ ∀ p ∈ pts, p.1 ^ 2 + p.2 ^ 2 ≤ R := by
    induction pts with
    | nil => exact ⟨0, le_refl _, by simp⟩
    | cons q pts ih =>
      obtain ⟨R, hR, h⟩ := ih
      refine ⟨R + (q.1 ^ 2 + q.2 ^ 2), by positivity, ?_⟩
      intro p hp
      rcases List.mem_cons.1 hp with rfl | hp
      · linarith
      · have := h p hp
        nlinarith [sq_nonneg q.1, sq_nonneg q.2]
  obtain ⟨R, hR, h⟩ := key
  refine ⟨((0, 0), R + 1), by simp only; linarith, ?_, by simp⟩
  intro p hp
  have := h p hp
  simp only [sqDist, sub_zero]
  nlinarith

/-- There is only one smallest disc around a nonempty list of points. -/
theorem least_unique {P : List (ℝ × ℝ)} (hP : P ≠ []) {c e : Circle} (hc : Least P [] c) (he : Least P [] e) :
    c = e := by
  have hr : c.2 = e.2 := le_antisymm (hc.least e he.around) (he.least c hc.around)
  set m : ℝ × ℝ := ((c.1.1 + e.1.1) / 2, (c.1.2 + e.1.2) / 2) with hm
  set s : ℝ := c.2 ^ 2 - ((c.1.1 - e.1.1) ^ 2 + (c.1.2 - e.1.2) ^ 2) / 4 with hs
  have key : ∀ p ∈ P, (p.1 - m.1) ^ 2 + (p.2 - m.2) ^ 2 ≤ s := by
    intro p hp
    have h1 := hc.around.inside p hp
    have h2 := he.around.inside p hp
    rw [← hr] at h2
    simp only [sqDist] at h1 h2
    simp only [hm, hs]
    nlinarith
  obtain ⟨p, hp⟩ := List.exists_mem_of_ne_nil P hP
  have s0 : 0 ≤ s := le_trans (by positivity) (key p hp)
  have hle := hc.least (m, Real.sqrt s)
    ⟨Real.sqrt_nonneg _, fun p hp => by simpa only [sqDist, Real.sq_sqrt s0] using key p hp, by simp⟩
  have h2 : c.2 ^ 2 ≤ s := by
    have := pow_le_pow_left₀ hc.around.nonneg hle 2
    simpa only [Real.sq_sqrt s0] using this
  have h3 : (c.1.1 - e.1.1) ^ 2 + (c.1.2 - e.1.2) ^ 2 ≤ 0 := by rw [hs] at h2; linarith
  have hx : c.1.1 = e.1.1 := by nlinarith [sq_nonneg (c.1.1 - e.1.1), sq_nonneg (c.1.2 - e.1.2)]
  have hy : c.1.2 = e.1.2 := by nlinarith [sq_nonneg (c.1.1 - e.1.1), sq_nonneg (c.1.2 - e.1.2)]
  exact Prod.ext (Prod.ext hx hy) hr

theorem makeCircle_least {pts : List (ℝ × ℝ)} {eps : ℝ} (heps : 0 < eps) (hsep : Separated pts eps) :
    ∃ c, Least pts [] c ∧ ∃ n, ∀ fuel, n ≤ fuel → makeCircle pts eps fuel = some (.ok c) := by
  obtain ⟨e, he⟩ := exists_around pts
  obtain ⟨j, k, c, ⟨n, hn⟩, -, -, -, -, hL, -⟩ := reaches_least heps hsep pts.length le_rfl [] 0 ((0, 0), 0) e
    (by simp) (by simp) (by simp) (by simpa using he) rfl
  rw [List.take_length] at hL
  refine ⟨c, by simpa using hL, n + 1, fun fuel hf => ?_⟩
  obtain ⟨m, rfl⟩ : ∃ m, fuel = (m + 1) + n := ⟨fuel - n - 1, by omega⟩
  have : makeCircle pts eps (m + 1 + n) = circleLoop pts eps (m + 1 + n) 0 0 [] ((0, 0), 0) := rfl
  rw [this, hn, circleLoop]
  simp

/-- **C135.** If the tolerance is small compared to the data, then the search for the enclosing circle returns, the
disc contains all points, and no disc which contains all points is smaller. -/
theorem C135_smallest {pts : List (ℝ × ℝ)} {eps : ℝ} (heps : 0 < eps) (hsep : Separated pts eps) :
    ∃ mx my r n, (∀ fuel, n ≤ fuel → makeCircle pts eps fuel = some (.ok ((mx, my), r))) ∧
      (∀ x y, (x, y) ∈ pts → Real.sqrt ((x - mx) ^ 2 + (y - my) ^ 2) ≤ r) ∧
      ∀ (m : ℝ × ℝ) (s : ℝ), (∀ p ∈ pts, Real.sqrt ((p.1 - m.1) ^ 2 + (p.2 - m.2) ^ 2) ≤ s) → 0 ≤ s → r ≤ s := by
  obtain ⟨⟨⟨mx, my⟩, r⟩, hL, n, hn⟩ := makeCircle_least heps hsep
  refine ⟨mx, my, r, n, hn, fun x y hp => ?_, fun m s h hs => hL.least (m, s) ⟨hs, fun p hp => ?_, by simp⟩⟩
  · rw [Real.sqrt_le_left hL.around.nonneg]
    exact hL.around.inside (x, y) hp
  · have := h p hp
    rw [Real.sqrt_le_left hs] at this
    exact this

/-- **C135.** The circle does not depend on the order into which the points are shuffled. -/
theorem C135_shuffle {pts pts' : List (ℝ × ℝ)} (hp : pts.Perm pts') {eps eps' : ℝ} (heps : 0 < eps) (heps' : 0 < eps')
    (hsep : Separated pts eps) (hsep' : Separated pts eps') :
    ∃ n, ∀ fuel fuel', n ≤ fuel → n ≤ fuel' → makeCircle pts eps fuel = makeCircle pts' eps' fuel' := by
  have hsep2 : Separated pts' eps' := by
    intro l hl h3 c hc p hpm
    exact hsep' l (fun q hq => hp.mem_iff.2 (hl q hq)) h3 c hc p (hp.mem_iff.2 hpm)
  obtain ⟨c, hL, n, hn⟩ := makeCircle_least heps hsep
  obtain ⟨c', hL', n', hn'⟩ := makeCircle_least heps' hsep2
  by_cases h0 : pts = []
  · subst h0
    obtain rfl := hp.nil_eq
    refine ⟨1, fun fuel fuel' hf hf' => ?_⟩
    obtain ⟨m, rfl⟩ : ∃ m, fuel = m + 1 := ⟨fuel - 1, by omega⟩
    obtain ⟨m', rfl⟩ : ∃ m, fuel' = m + 1 := ⟨fuel' - 1, by omega⟩
    rfl
  · refine ⟨max n n', fun fuel fuel' hf hf' => ?_⟩
    have hL2 : Least pts [] c' :=
      ⟨hL'.around.mono (fun p hpm => Or.inl (hp.mem_iff.1 hpm)) (by simp),
        fun e he => hL'.least e (he.mono (fun p hpm => Or.inl (hp.mem_iff.2 hpm)) (by simp))⟩
    rw [hn fuel ((le_max_left _ _).trans hf), hn' fuel' ((le_max_right _ _).trans hf'), least_unique h0 hL hL2]

theorem eventually_all {α : Type} (l : List α) {Q : α → ℝ → Prop}
    (h : ∀ a ∈ l, ∃ e, 0 < e ∧ ∀ eps, eps ≤ e → Q a eps) : ∃ e, 0 < e ∧ ∀ eps, eps ≤ e → ∀ a ∈ l, Q a eps := by
  induction l with
  | nil => exact ⟨1, one_pos, by simp⟩
  | cons a l ih =>
    obtain ⟨e1, h1, hQ1⟩ := h a (by simp)
    obtain ⟨e2, h2, hQ2⟩ := ih fun b hb => h b (List.mem_cons_of_mem _ hb)
    refine ⟨min e1 e2, lt_min h1 h2, fun eps he b hb => ?_⟩
    rcases List.mem_cons.1 hb with rfl | hb
    · exact hQ1 eps (he.trans (min_le_left _ _))
    · exact hQ2 eps (he.trans (min_le_right _ _)) b hb

/-- **C135.** Every tolerance that is small enough is small compared to the data. -/
theorem C135_tolerance (pts : List (ℝ × ℝ)) : ∃ e, 0 < e ∧ ∀ eps, eps ≤ e → Separated pts eps := by
  have one : ∀ l : List (ℝ × ℝ), l.length ≤ 3 → ∃ e, 0 < e ∧ ∀ eps, eps ≤ e → ∀ p ∈ pts, ∀ c,
      smallCircle l = .ok c → isInCircle p c eps → sqDist c p ≤ c.2 ^ 2 := by
    intro l hl
    refine eventually_all pts fun p _ => ?_
    obtain ⟨c, hc, -⟩ := C30_small_circle_encloses l hl
    by_cases hin : sqDist c p ≤ c.2 ^ 2
    · exact ⟨1, one_pos, fun _ _ c' hc' _ => by
        rw [hc, Except.ok.injEq] at hc'
        exact hc' ▸ hin⟩
    · push Not at hin
      have hlt : c.2 < Real.sqrt (sqDist c p) := by
        refine lt_of_le_of_lt (le_abs_self _) ?_
        rw [← Real.sqrt_sq_eq_abs]
        exact Real.sqrt_lt_sqrt (sq_nonneg _) hin
      refine ⟨Real.sqrt (sqDist c p) - c.2, sub_pos.2 hlt, fun eps he c' hc' h => ?_⟩
      rw [hc, Except.ok.injEq] at hc'
      subst hc'
      simp only [isInCircle, norm2] at h
      rw [sqDist] at he
      linarith
  obtain ⟨e0, p0, h0⟩ := one [] (by simp)
  obtain ⟨e1, p1, h1⟩ := eventually_all pts fun a _ => one [a] (by simp)
  obtain ⟨e2, p2, h2⟩ := eventually_all pts fun a _ => eventually_all pts fun b _ => one [a, b] (by simp)
  obtain ⟨e3, p3, h3⟩ := eventually_all pts fun a _ => eventually_all pts fun b _ => eventually_all pts fun d _ =>
    one [a, b, d] (by simp)
  refine ⟨min (min e0 e1) (min e2 e3), lt_min (lt_min p0 p1) (lt_min p2 p3), fun eps he => ?_⟩
  have l0 : eps ≤ e0 := he.trans ((min_le_left _ _).trans (min_le_left _ _))
  have l1 : eps ≤ e1 := he.trans ((min_le_left _ _).trans (min_le_right _ _))
  have l2 : eps ≤ e2 := he.trans ((min_le_right _ _).trans (min_le_left _ _))
  have l3 : eps ≤ e3 := he.trans ((min_le_right _ _).trans (min_le_right _ _))
  intro l hl hlen c hc p hp
  match l, hlen with
  | [], _ => exact h0 eps l0 p hp c hc
  | [a], _ => exact h1 eps l1 a (hl a (by simp)) p hp c hc
  | [a, b], _ => exact h2 eps l2 a (hl a (by simp)) b (hl b (by simp)) p hp c hc
  | [a, b, d], _ => exact h3 eps l3 a (hl a (by simp)) b (hl b (by simp)) d (hl d (by simp)) p hp c hc

/-- Three points, one of which lies inside of the circle given by the other two: the search ends with this circle. -/
example : ∃ eps n, 0 < eps ∧ ∀ fuel, n ≤ fuel →
    makeCircle [(0, 0), (1, 1 / 2), (2, 0)] eps fuel = some (.ok ((1, 0), 1)) := by
  obtain ⟨eps, heps, hsep⟩ := C135_tolerance [(0, 0), (1, 1 / 2), (2, 0)]
  obtain ⟨c, hL, n, hn⟩ := makeCircle_least heps (hsep eps le_rfl)
  have h : Least [(0, 0), (1, 1 / 2), (2, 0)] [] ((1, 0), 1) := by
    refine ⟨⟨by norm_num, ?_, by simp⟩, fun e he => ?_⟩
    · intro p hp
      simp only [List.mem_cons, List.not_mem_nil, or_false] at hp
      rcases hp with rfl | rfl | rfl <;> norm_num [sqDist]
    · have h1 := he.inside (0, 0) (by simp)
      have h2 := he.inside (2, 0) (by simp)
      have h0 := he.nonneg
      simp only [sqDist] at h1 h2
      nlinarith [sq_nonneg (e.1.1 - 1), sq_nonneg e.1.2]
  rw [least_unique (by simp) hL h] at hn
  exact ⟨eps, n, heps, hn⟩

end Verif.Sampler
