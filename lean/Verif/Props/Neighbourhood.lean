import Verif.Lemmas.Neighbourhood

/-!
# Properties C18 and C19: neighbourhoods
-/

namespace Verif.Nbh

variable {K : Type} [Field K] [LinearOrder K] [IsStrictOrderedRing K]

/-! ## C18 -/

/-- **C18.** With at least `m ≥ 1` given points, `ScalingBall(m)` returns a mask with one entry per point such
that at least `m` points are marked, every marked point is closer than every unmarked one, and fewer than `m`
points are strictly closer than any marked point. -/
theorem C18_scaling_ball (norm : K × K → K) {m : Nat} (hm : 0 < m) {pts : List (K × K)} (hn : m ≤ pts.length) :
    ∃ mask, scalingBall norm m pts = .ok (.arr mask) ∧ mask.length = pts.length ∧
      m ≤ mask.count true ∧
      (∀ (i j : Nat) (p q : K × K), pts[i]? = some p → pts[j]? = some q → mask[i]? = some true →
        mask[j]? = some false → norm p < norm q) ∧
      (∀ (i : Nat) (p : K × K), pts[i]? = some p → mask[i]? = some true →
        pts.countP (fun q => decide (norm q < norm p)) < m) := by
  have hl : ¬ pts.length = 0 := by omega
  set s := (pts.map norm).insertionSort (· ≤ ·) with hs
  have hlen : s.length = pts.length := by simp [hs]
  have hi : s[m - 1]? = some (s[m - 1]'(by omega)) := List.getElem?_eq_getElem _
  have hpy : pyIndex s ((m : Int) - 1) = some (s[m - 1]'(by omega)) := by
    have h0 : (0 : Int) ≤ (m : Int) - 1 := by omega
    have h1 : ((m : Int) - 1).toNat = m - 1 := by omega
    simp only [pyIndex, h0, if_true, h1, hi]
  obtain ⟨h1, h2⟩ := orderStat hm hi
  refine ⟨(pts.map norm).map fun d => decide (d ≤ s[m - 1]'(by omega)), ?_, by simp, ?_, ?_, ?_⟩
  · simp only [scalingBall, hl, if_false, ← hs, hpy]
  · simp only [List.count_eq_countP, List.countP_map] at h1 ⊢
    refine le_trans h1 (le_of_eq (List.countP_congr ?_))
    intro x _
    simp [Function.comp]
  · intro i j p q hp hq hmi hmj
    simp only [List.getElem?_map, hp, hq, Option.map_some, Option.some.injEq, decide_eq_true_eq,
      decide_eq_false_iff_not, not_le] at hmi hmj
    exact lt_of_le_of_lt hmi hmj
  · intro i p hp hmi
    simp only [List.getElem?_map, hp, Option.map_some, Option.some.injEq, decide_eq_true_eq] at hmi
    refine lt_of_le_of_lt ?_ h2
    rw [List.countP_map]
    apply List.countP_mono_left
    intro x _ hx
    simp only [Function.comp, decide_eq_true_eq] at hx ⊢
    exact lt_of_lt_of_le hx hmi

example : scalingBall (K := Rat) (fun p => |p.1| + |p.2|) (2 : Nat) [(1, 0), (3, 3), (0, 1), (0, 0)] =
    .ok (.arr [true, false, true, true]) := by decide +kernel

/-- **C18.** With fewer than `m` (but some) points the call raises, so no mask with too few points is returned;
without any point the constant `True` is returned. -/
theorem C18_too_few (norm : K × K → K) {m : Nat} {pts : List (K × K)} (hn : pts.length < m) :
    (pts ≠ [] → scalingBall norm m pts = .error .indexError) ∧ (pts = [] → scalingBall norm m pts = .ok .all) := by
  constructor
  · intro h
    have hl : ¬ pts.length = 0 := by simpa using h
    have h0 : (0 : Int) ≤ (m : Int) - 1 := by omega
    have h1 : ((m : Int) - 1).toNat = m - 1 := by omega
    simp only [scalingBall, hl, if_false, pyIndex, h0, if_true, h1]
    rw [List.getElem?_eq_none (by simp; omega)]
  · rintro rfl
    simp [scalingBall]

example : ([(1, 1)] : List (Rat × Rat)).length < 2 ∧ ([(1, 1)] : List (Rat × Rat)) ≠ [] := by decide

/-- **C18.** Only positive numbers are accepted. -/
theorem C18_init (m : Int) : scalingInit m = (if 0 < m then .ok m else .error .valueError) := by
  by_cases h : 0 < m
  · have : ¬ m ≤ 0 := by omega
    simp [scalingInit, h, this]
  · have : m ≤ 0 := by omega
    simp [scalingInit, h, this]

/-! ## C19 -/

/-- The mask describing the points which satisfy `S`: one entry per point, `True` exactly for the members. The
constant `True` describes every member of an empty array of points. -/
def Describes (mask : Mask) (pts : List (K × K)) (S : K × K → Prop) : Prop :=
  match mask with
  | .all => pts = []
  | .arr l => l.length = pts.length ∧ ∀ (i : Nat) (p : K × K), pts[i]? = some p → (l[i]? = some true ↔ S p)

omit [Field K] [LinearOrder K] [IsStrictOrderedRing K] in
theorem describes_map {pts : List (K × K)} {S : K × K → Prop} {f : K × K → Bool} (h : ∀ p, f p = true ↔ S p) :
    Describes (.arr (pts.map f)) pts S := by
  refine ⟨by simp, fun i p hp => ?_⟩
  simp [hp, h]

theorem ballPointwise_ok {norm : Norm K} {n : K × K → K} (hp : ∀ p, norm.point p = .ok (n p)) (radius : K)
    (pts : List (K × K)) : ballPointwise norm radius pts = .ok (pts.map fun p => decide (n p ≤ radius)) := by
  induction pts with
  | nil => rfl
  | cons p ps ih => simp [ballPointwise, hp, ih]

/-- **C19.** `Ball` marks exactly the points of norm at most `radius`, for a norm `n` that can be applied to
arrays, and for one that can only be applied to single points and rejects arrays by `ValueError` or
`IndexError`. -/
theorem C19_ball {norm : Norm K} {n : K × K → K}
    (h : (∀ pts, norm.array pts = .ok (pts.map n)) ∨
      ((∀ pts, norm.array pts = .error .valueError ∨ norm.array pts = .error .indexError) ∧
        ∀ p, norm.point p = .ok (n p))) (radius : K) (pts : List (K × K)) :
    ∃ mask, ball norm radius pts = .ok mask ∧ Describes mask pts fun p => n p ≤ radius := by
  refine ⟨.arr (pts.map fun p => decide (n p ≤ radius)), ?_, describes_map (by simp)⟩
  rcases h with h | ⟨h, hp⟩
  · simp [ball, h, Function.comp_def]
  · rcases h pts with h | h <;> simp [ball, h, ballPointwise_ok hp]

/-- A vectorised and a pointwise norm. -/
example (n : Rat × Rat → Rat) : (∃ norm : Norm Rat, ∀ pts, norm.array pts = .ok (pts.map n)) ∧
    ∃ norm : Norm Rat, (∀ pts, norm.array pts = .error .valueError ∨ norm.array pts = .error .indexError) ∧
        ∀ p, norm.point p = .ok (n p) :=
  ⟨⟨⟨fun pts => .ok (pts.map n), fun _ => .error .indexError⟩, fun _ => rfl⟩,
    ⟨⟨fun _ => .error .valueError, fun p => .ok (n p)⟩, fun _ => .inl rfl, fun _ => rfl⟩⟩

/-- **C19.** An `Ellipsoid` with transformation `T` marks exactly the points of `T(B)`, where `B` is the ball of the
given norm and radius. -/
theorem C19_ellipsoid {m : Mat K} {radius : K} {e : Ellipsoid K} (h : ellipsoidInit (some m) radius = .ok e)
    (norm : K × K → K) (pts : List (K × K)) :
    Describes (ellipsoid norm e pts) pts fun p => ∃ x, norm x ≤ radius ∧ m.mulVec x = p := by
  simp only [ellipsoidInit, Option.getD_some] at h
  by_cases hd : m.det = 0
  · simp [hd] at h
  by_cases hr : radius ≤ 0
  · simp [hd, hr] at h
  simp only [hd, hr, if_false, Except.ok.injEq] at h
  subst h
  by_cases hl : pts.length = 0
  · simp only [ellipsoid, hl, if_true, Describes]
    exact List.length_eq_zero_iff.1 hl
  · simp only [ellipsoid, hl, if_false, List.map_map]
    apply describes_map
    intro p
    simp only [Function.comp, decide_eq_true_eq]
    constructor
    · intro h
      exact ⟨_, h, mulVec_inv hd p⟩
    · rintro ⟨x, hx, rfl⟩
      rwa [inv_mulVec hd]

example : ∃ e, ellipsoidInit (some ⟨2, 1, 0, 3⟩ : Option (Mat Rat)) 1 = .ok e ∧
    ellipsoid (fun p => max |p.1| |p.2|) e [(3, 3), (4, 0)] = .arr [true, false] :=
  ⟨⟨⟨1 / 2, -1 / 6, 0, 1 / 3⟩, 1⟩, by decide +kernel, by decide +kernel⟩

/-- **C19.** A singular transformation or a radius which is not positive is rejected, everything else is
accepted. -/
theorem C19_init (m : Mat K) (radius : K) :
    ((∃ e, ellipsoidInit (some m) radius = .ok e) ↔ (Function.Injective m.mulVec ∧ 0 < radius)) ∧
    ((∃ e, ballInit radius = .ok e) ↔ 0 < radius) := by
  constructor
  · simp only [ellipsoidInit, Option.getD_some]
    by_cases hd : m.det = 0
    · have : ¬ Function.Injective m.mulVec := by
        intro hinj
        have h0 : m.mulVec (0, 0) = (0, 0) := by simp [Mat.mulVec]
        have hd' : m.a * m.d = m.b * m.c := by simpa [Mat.det, sub_eq_zero] using hd
        have h1 : m.mulVec (m.d, -m.c) = (0, 0) := by
          apply Prod.ext <;> simp only [Mat.mulVec]
          · rw [hd']; ring
          · ring
        have h2 : m.mulVec (-m.b, m.a) = (0, 0) := by
          apply Prod.ext <;> simp only [Mat.mulVec]
          · ring
          · have : m.c * -m.b + m.d * m.a = m.a * m.d - m.b * m.c := by ring
            rw [this, hd', sub_self]
        have e1 := hinj (h1.trans h0.symm)
        have e2 := hinj (h2.trans h0.symm)
        simp only [Prod.mk.injEq, neg_eq_zero] at e1 e2
        have h3 : m.mulVec (1, 1) = (0, 0) := by simp [Mat.mulVec, e1, e2]
        have e3 := hinj (h3.trans h0.symm)
        simp at e3
      simp [hd, this]
    · have : Function.Injective m.mulVec := fun x y h => by
        rw [← inv_mulVec hd x, h, inv_mulVec hd]
      by_cases hr : radius ≤ 0
      · simp [hd, hr]
      · simp [hd, hr, this, not_le.1 hr]
  · by_cases hr : radius ≤ 0
    · simp [ballInit, hr]
    · simp [ballInit, hr, not_le.1 hr]

/-- **C19.** An ellipsoid without transformation marks the same points as the ball. -/
theorem C19_identity_ellipsoid {radius : K} {e : Ellipsoid K} (h : ellipsoidInit none radius = .ok e)
    {norm : Norm K} {n : K × K → K} (hn : ∀ pts, norm.array pts = .ok (pts.map n)) {pts : List (K × K)}
    (hp : pts ≠ []) : ball norm radius pts = .ok (ellipsoid n e pts) := by
  have hl : ¬ pts.length = 0 := by simpa using hp
  have hdet : (Mat.eye : Mat K).det = 1 := by simp [Mat.eye, Mat.det]
  simp only [ellipsoidInit, Option.getD_none, hdet, one_ne_zero, if_false] at h
  by_cases hr : radius ≤ 0
  · simp [hr] at h
  simp only [hr, if_false, Except.ok.injEq] at h
  subst h
  have hinv : (Mat.eye : Mat K).inv = Mat.eye := by simp [Mat.eye, Mat.inv, Mat.det]
  simp only [ball, hn, ellipsoid, hl, hinv, if_false]
  simp [Mat.mulVec, Mat.eye, Function.comp_def]

example : ∃ e, ellipsoidInit (none : Option (Mat Rat)) (5 / 100) = .ok e :=
  ⟨⟨⟨1, 0, 0, 1⟩, 5 / 100⟩, by decide +kernel⟩

/-- **C19.** `Cuboid` marks exactly the points whose components are at most as long as the given sides. -/
theorem C19_cuboid (norm : K → K) (b : K × K) (pts : List (K × K)) :
    Describes (cuboid norm b pts) pts fun p => norm p.1 ≤ b.1 ∧ norm p.2 ≤ b.2 := by
  have : cuboid norm b pts = .arr (pts.map fun p => decide (norm p.1 ≤ b.1) && decide (norm p.2 ≤ b.2)) := by
    simp only [cuboid, replicate_true, List.zipWith_map, List.zipWith_self, Bool.true_and]
  rw [this]
  exact describes_map (by simp)

/-- **C19.** `Polytope` marks exactly the points in all half spaces; it accepts as many bounds as rows only. -/
theorem C19_polytope {mat : List (K × K)} {b : List K} {ineqs : List ((K × K) × K)}
    (h : polytopeInit mat b = .ok ineqs) (pts : List (K × K)) :
    b.length = mat.length ∧
    Describes (polytope ineqs pts) pts fun p =>
      ∀ (i : Nat) (a : K × K) (c : K), mat[i]? = some a → b[i]? = some c → a.1 * p.1 + a.2 * p.2 ≤ c := by
  simp only [polytopeInit] at h
  by_cases hb : b.length = mat.length
  · simp only [hb, ne_eq, not_true_eq_false, if_false, Except.ok.injEq] at h
    subst h
    refine ⟨hb, ?_⟩
    by_cases hl : pts.length = 0
    · simp only [polytope, hl, if_true, Describes]
      exact List.length_eq_zero_iff.1 hl
    · simp only [polytope, hl, if_false, replicate_true, polytopeLoop_eq, Bool.true_and]
      apply describes_map
      intro p
      simp only [List.all_eq_true, decide_eq_true_eq]
      constructor
      · intro h i a c ha hc
        exact h (a, c) (List.mem_of_getElem? (i := i) (by simp [List.getElem?_zip_eq_some, ha, hc]))
      · rintro h ⟨a, c⟩ hac
        obtain ⟨i, hi⟩ := List.mem_iff_getElem?.1 hac
        rw [List.getElem?_zip_eq_some] at hi
        exact h i a c hi.1 hi.2
  · simp [hb] at h

example : polytope (K := Rat) [((1, 1), 1), ((-1, 2), 0)] [(1 / 2, 1 / 4), (1, 1)] = .arr [true, false] ∧
    polytopeInit (K := Rat) [(1, 1), (-1, 2)] [1, 0] = .ok [((1, 1), 1), ((-1, 2), 0)] := by decide +kernel

/-- **C19.** The default `Polytope` and the default `Cuboid` mark the same points. -/
theorem C19_default_polytope {pts : List (K × K)} (hp : pts ≠ []) :
    ∃ ineqs, polytopeInit (K := K) polytopeDefault.1 polytopeDefault.2 = .ok ineqs ∧
      polytope ineqs pts = cuboid (fun x => |x|) (5 / 100, 5 / 100) pts := by
  refine ⟨_, by simp [polytopeInit, polytopeDefault]; rfl, ?_⟩
  have hl : ¬ pts.length = 0 := by simpa using hp
  have : cuboid (fun x => |x|) (5 / 100, 5 / 100) pts =
      .arr (pts.map fun p => decide (|p.1| ≤ (5 / 100 : K)) && decide (|p.2| ≤ (5 / 100 : K))) := by
    simp only [cuboid, replicate_true, List.zipWith_map, List.zipWith_self, Bool.true_and]
  rw [this]
  simp only [polytope, hl, if_false, replicate_true, polytopeLoop_eq, Bool.true_and]
  congr 1
  apply List.map_congr_left
  intro p _
  rw [Bool.eq_iff_iff]
  simp only [List.all_cons, List.all_nil, Bool.and_true, Bool.and_eq_true, decide_eq_true_eq, abs_le, one_mul,
    zero_mul, add_zero, zero_add, neg_mul, neg_le (b := (5 / 100 : K))]
  tauto

example : ([(0, 1 / 100)] : List (Rat × Rat)) ≠ [] := by decide

/-- **C19.** For a symmetric norm `Ball`, `Ellipsoid` and `Cuboid` mark `-x` exactly if they mark `x`. -/
theorem C19_symmetric {norm : Norm K} {n : K × K → K} (hn : ∀ pts, norm.array pts = .ok (pts.map n))
    (hs : ∀ p, n (-p) = n p) {n1 : K → K} (hs1 : ∀ x, n1 (-x) = n1 x) (pts : List (K × K)) (radius : K)
    (e : Ellipsoid K) (b : K × K) :
    ball norm radius (pts.map (- ·)) = ball norm radius pts ∧
    ellipsoid n e (pts.map (- ·)) = ellipsoid n e pts ∧
    cuboid n1 b (pts.map (- ·)) = cuboid n1 b pts := by
  have hT : ∀ (m : Mat K) (x : K × K), m.mulVec (-x) = -(m.mulVec x) := by
    intro m x
    apply Prod.ext <;> simp only [Mat.mulVec, Prod.fst_neg, Prod.snd_neg] <;> ring
  refine ⟨?_, ?_, ?_⟩
  · simp [ball, hn, Function.comp_def, hs]
  · simp [ellipsoid, Function.comp_def, hT, hs]
  · simp [cuboid, Function.comp_def, hs1]

/-- The maximum norm is symmetric. -/
example : (∀ p : Rat × Rat, (fun p : Rat × Rat => max |p.1| |p.2|) (-p) = (fun p : Rat × Rat => max |p.1| |p.2|) p) ∧
    ∀ x : Rat, |-x| = |x| := by simp

end Verif.Nbh
