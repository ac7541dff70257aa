import Verif.Props.Globe

/-!
# Property C104: shortest paths on the Mercator map
-/

namespace Verif.Globe

open Verif.Curve (rad2deg deg2rad)

theorem linspace_getElem {a b : ℝ} {n i : Nat} (hn : 2 ≤ n) (hi : i < n) :
    (Injector.linspace a b n)[i]? = some (a + (i : ℝ) * ((b - a) / ((n : ℝ) - 1))) := by
  unfold Injector.linspace
  rw [if_neg (by omega)]
  simp [hi]

theorem projectedPath_getElem {s t : ℝ × ℝ} {n i : Nat} (hn : 2 ≤ n) (hi : i < n) :
    (Flat.projectedPath s t n)[i]? = some (s.1 + (i : ℝ) * ((t.1 - s.1) / ((n : ℝ) - 1)),
      s.2 + (i : ℝ) * ((t.2 - s.2) / ((n : ℝ) - 1))) := by
  unfold Flat.projectedPath
  rw [List.getElem?_zip_eq_some]
  exact ⟨linspace_getElem hn hi, linspace_getElem hn hi⟩

theorem projectedPath_length (s t : ℝ × ℝ) {n : Nat} (hn : 2 ≤ n) : (Flat.projectedPath s t n).length = n := by
  unfold Flat.projectedPath Injector.linspace
  rw [if_neg (by omega), if_neg (by omega)]
  simp

/-- On the default map, a point of the map is the projection of its latitude and longitude. -/
theorem project_latLon {f : Flat} (ho : f.Orthogonal) (hid : ∀ v, f.apply v = v) {q : ℝ × ℝ}
    (h1 : -Real.pi < q.1 / f.radius) (h2 : q.1 / f.radius ≤ Real.pi) : f.project (f.latLon q) = q := by
  have hR := ho.radius
  have hpi := Real.pi_pos
  have hinv : ∀ v, f.applyInv v = v := fun v => by
    have := ho.applyInv_apply v
    rwa [hid] at this
  have t1 : -1 < Real.tanh (q.2 / f.radius) := Real.neg_one_lt_tanh _
  have t2 : Real.tanh (q.2 / f.radius) < 1 := Real.tanh_lt_one _
  have a1 : -(Real.pi / 2) < Real.arcsin (Real.tanh (q.2 / f.radius)) := Real.neg_pi_div_two_lt_arcsin.2 t1
  have a2 : Real.arcsin (Real.tanh (q.2 / f.radius)) < Real.pi / 2 := Real.arcsin_lt_pi_div_two.2 t2
  have hll : f.latLon q = (rad2deg (Real.arcsin (Real.tanh (q.2 / f.radius))), rad2deg (q.1 / f.radius)) := by
    unfold Flat.latLon
    rw [hinv]
    have e : ∀ x : ℝ, rad2deg x = x * (180 / Real.pi) := fun x => by unfold rad2deg; ring
    have hk : 0 < 180 / Real.pi := by positivity
    have e1 : (Real.pi / 2) * (180 / Real.pi) = 90 := by field_simp; norm_num
    have e2 : Real.pi * (180 / Real.pi) = 180 := by field_simp
    apply onLatLon_onBall
    · simp only [e]; nlinarith
    · simp only [e]; nlinarith
    · simp only [e]; nlinarith
    · simp only [e]; nlinarith
  have hsin : Real.sin (Real.arcsin (Real.tanh (q.2 / f.radius))) = Real.tanh (q.2 / f.radius) :=
    Real.sin_arcsin t1.le t2.le
  have hunit : (onBall (f.latLon q)).dot (onBall (f.latLon q)) = 1 := onBall_dot_self _
  have hback : onLatLon (onBall (f.latLon q)) = f.latLon q := by
    rw [hll]
    have e : ∀ x : ℝ, rad2deg x = x * (180 / Real.pi) := fun x => by unfold rad2deg; ring
    have hk : 0 < 180 / Real.pi := by positivity
    have e1 : (Real.pi / 2) * (180 / Real.pi) = 90 := by field_simp; norm_num
    have e2 : Real.pi * (180 / Real.pi) = 180 := by field_simp
    apply onLatLon_onBall
    · simp only [e]; nlinarith
    · simp only [e]; nlinarith
    · simp only [e]; nlinarith
    · simp only [e]; nlinarith
  unfold Flat.project
  simp only
  rw [hid, hback, hll]
  simp only [deg2rad_rad2deg]
  have htan : Real.tan (Real.arcsin (Real.tanh (q.2 / f.radius))) = Real.sinh (q.2 / f.radius) := by
    have hc := Real.cosh_pos (q.2 / f.radius)
    have hcos : Real.cos (Real.arcsin (Real.tanh (q.2 / f.radius))) = 1 / Real.cosh (q.2 / f.radius) := by
      rw [Real.cos_arcsin]
      have : 1 - Real.tanh (q.2 / f.radius) ^ 2 = (1 / Real.cosh (q.2 / f.radius)) ^ 2 := by
        rw [Real.tanh_eq_sinh_div_cosh]
        have := Real.cosh_sq (q.2 / f.radius)
        field_simp
        linarith
      rw [this, Real.sqrt_sq (by positivity)]
    rw [Real.tan_eq_sin_div_cos, hsin, hcos, Real.tanh_eq_sinh_div_cosh]
    field_simp
  rw [htan, Real.arsinh_sinh]
  ext
  · simp only; field_simp
  · simp only; field_simp

/-- The longitude part of the projection with the default arguments. -/
theorem project_fst {f : Flat} (hid : ∀ v, f.apply v = v) {p : ℝ × ℝ} (h1 : -90 < p.1) (h2 : p.1 < 90)
    (h3 : -180 < p.2) (h4 : p.2 ≤ 180) : (f.project p).1 = f.radius * deg2rad p.2 := by
  unfold Flat.project
  simp only
  rw [hid, onLatLon_onBall h1 h2 h3 h4]

/-- **C104** (partial: the map with the default arguments, see `C104_pole_false`; shortest on the map, see
`C104_date_line_false`). `shortest_path` has `res` points, the first is `start` and the last is `end`; on the map they lie on
the straight line between both, with equal distances. -/
theorem C104_path_partial {radius : ℝ} (hr : 0 < radius) {f : Flat} (hf : mkFlat (90, 0) (0, 0) radius = .ok f)
    {p q : ℝ × ℝ} (hp1 : -90 < p.1) (hp2 : p.1 < 90) (hp3 : -180 < p.2) (hp4 : p.2 ≤ 180)
    (hq1 : -90 < q.1) (hq2 : q.1 < 90) (hq3 : -180 < q.2) (hq4 : q.2 ≤ 180) {n : Nat} (hn : 2 ≤ n) :
    (f.shortestPath p q n).length = n ∧ (f.shortestPath p q n)[0]? = some p ∧ (f.shortestPath p q n)[n - 1]? = some q ∧
    (∀ (i : Nat) (a : ℝ × ℝ), (f.shortestPath p q n)[i]? = some a →
      f.project a = ((f.project p).1 + (i : ℝ) * (((f.project q).1 - (f.project p).1) / ((n : ℝ) - 1)),
        (f.project p).2 + (i : ℝ) * (((f.project q).2 - (f.project p).2) / ((n : ℝ) - 1)))) ∧
    ∀ (i j : Nat) (a b : ℝ × ℝ), i ≤ j → (f.shortestPath p q n)[i]? = some a → (f.shortestPath p q n)[j]? = some b →
      f.distance a b = ((j : ℝ) - (i : ℝ)) / ((n : ℝ) - 1) * f.distance p q := by
  obtain ⟨f', e, ho, hid⟩ := C67_default hr
  have hrad : f.radius = radius := by
    unfold mkFlat at hf
    simp only at hf
    split at hf
    · simp at hf
    · simp only [Except.ok.injEq] at hf
      rw [← hf]
  have hff : f = f' := by
    rw [hf] at e
    simpa using e
  subst hff
  have hn1 : (0 : ℝ) < (n : ℝ) - 1 := by
    have : (2 : ℝ) ≤ n := by exact_mod_cast hn
    linarith
  have hlen : (f.shortestPath p q n).length = n := by
    unfold Flat.shortestPath
    rw [List.length_map, projectedPath_length _ _ hn]
  have hget : ∀ i, i < n → (f.shortestPath p q n)[i]? =
      some (f.latLon ((f.project p).1 + (i : ℝ) * (((f.project q).1 - (f.project p).1) / ((n : ℝ) - 1)),
        (f.project p).2 + (i : ℝ) * (((f.project q).2 - (f.project p).2) / ((n : ℝ) - 1)))) := by
    intro i hi
    unfold Flat.shortestPath
    rw [List.getElem?_map, projectedPath_getElem hn hi]
    rfl
  have hproj : ∀ (i : Nat) (a : ℝ × ℝ), (f.shortestPath p q n)[i]? = some a →
      f.project a = ((f.project p).1 + (i : ℝ) * (((f.project q).1 - (f.project p).1) / ((n : ℝ) - 1)),
        (f.project p).2 + (i : ℝ) * (((f.project q).2 - (f.project p).2) / ((n : ℝ) - 1))) := by
    intro i a h
    have hi : i < n := by
      rw [← hlen]
      exact (List.getElem?_eq_some_iff.1 h).1
    rw [hget i hi] at h
    simp only [Option.some.injEq] at h
    subst h
    have hi' : (i : ℝ) ≤ (n : ℝ) - 1 := by
      have : i + 1 ≤ n := hi
      have : ((i : ℝ) + 1) ≤ n := by exact_mod_cast this
      linarith
    have hi0 : (0 : ℝ) ≤ i := Nat.cast_nonneg i
    have hR : 0 < f.radius := ho.radius
    have hpi := Real.pi_pos
    have x1 := project_fst hid hp1 hp2 hp3 hp4
    have x2 := project_fst hid hq1 hq2 hq3 hq4
    have key : ((f.project p).1 + (i : ℝ) * (((f.project q).1 - (f.project p).1) / ((n : ℝ) - 1))) / f.radius =
        (1 - (i : ℝ) / ((n : ℝ) - 1)) * deg2rad p.2 + (i : ℝ) / ((n : ℝ) - 1) * deg2rad q.2 := by
      rw [x1, x2]
      field_simp
      ring
    have t0 : 0 ≤ (i : ℝ) / ((n : ℝ) - 1) := by positivity
    have t1 : (i : ℝ) / ((n : ℝ) - 1) ≤ 1 := by rw [div_le_one hn1]; exact hi'
    have b1 : -Real.pi < deg2rad p.2 := by unfold deg2rad; rw [lt_div_iff₀ (by norm_num)]; nlinarith
    have b2 : deg2rad p.2 ≤ Real.pi := by unfold deg2rad; rw [div_le_iff₀ (by norm_num)]; nlinarith
    have b3 : -Real.pi < deg2rad q.2 := by unfold deg2rad; rw [lt_div_iff₀ (by norm_num)]; nlinarith
    have b4 : deg2rad q.2 ≤ Real.pi := by unfold deg2rad; rw [div_le_iff₀ (by norm_num)]; nlinarith
    apply project_latLon ho hid
    · simp only
      rw [key]
      rcases t0.eq_or_lt with h | h
      · rw [← h]; linarith
      · nlinarith
    · simp only
      rw [key]
      nlinarith
  refine ⟨hlen, ?_, ?_, hproj, ?_⟩
  · rw [hget 0 (by omega)]
    simp only [Nat.cast_zero, zero_mul, add_zero, Prod.mk.eta]
    rw [C67_default_round_trip hr hf hp1 hp2 hp3 hp4]
  · rw [hget (n - 1) (by omega), Nat.cast_sub (by omega), Nat.cast_one]
    have e1 : ∀ a b : ℝ, a + ((n : ℝ) - 1) * ((b - a) / ((n : ℝ) - 1)) = b := by
      intro a b
      field_simp
      ring
    rw [e1, e1, Prod.mk.eta, C67_default_round_trip hr hf hq1 hq2 hq3 hq4]
  · intro i j a b hij ha hb
    have hij' : (0 : ℝ) ≤ (j : ℝ) - i := by
      have : (i : ℝ) ≤ j := by exact_mod_cast hij
      linarith
    unfold Flat.distance
    rw [hproj i a ha, hproj j b hb]
    simp only
    have : (((f.project p).1 + (i : ℝ) * (((f.project q).1 - (f.project p).1) / ((n : ℝ) - 1))) -
        ((f.project p).1 + (j : ℝ) * (((f.project q).1 - (f.project p).1) / ((n : ℝ) - 1)))) ^ 2 +
        (((f.project p).2 + (i : ℝ) * (((f.project q).2 - (f.project p).2) / ((n : ℝ) - 1))) -
        ((f.project p).2 + (j : ℝ) * (((f.project q).2 - (f.project p).2) / ((n : ℝ) - 1)))) ^ 2 =
        (((j : ℝ) - i) / ((n : ℝ) - 1)) ^ 2 * (((f.project p).1 - (f.project q).1) ^ 2 +
          ((f.project p).2 - (f.project q).2) ^ 2) := by
      field_simp
      ring
    rw [this, Real.sqrt_mul (by positivity), Real.sqrt_sq (by positivity)]

example : ∃ f, mkFlat (90, 0) (0, 0) 3440 = .ok f ∧ (f.shortestPath (54, 10) (60, 20) 1000).length = 1000 ∧
    (f.shortestPath (54, 10) (60, 20) 1000)[0]? = some (54, 10) ∧
    (f.shortestPath (54, 10) (60, 20) 1000)[999]? = some (60, 20) := by
  obtain ⟨f, hf, -, -⟩ := C67_default (radius := 3440) (by norm_num)
  obtain ⟨h1, h2, h3, -⟩ := C104_path_partial (radius := 3440) (p := (54, 10)) (q := (60, 20)) (n := 1000) (by norm_num) hf
    (by norm_num) (by norm_num) (by norm_num) (by norm_num) (by norm_num) (by norm_num) (by norm_num) (by norm_num) (by norm_num)
  exact ⟨f, hf, h1, h2, h3⟩

/-- The length of a way over several places, `nan` and infinity left aside. -/
noncomputable def Flat.wayLength (f : Flat) : List (ℝ × ℝ) → ℝ
  | a :: b :: l => f.distance a b + f.wayLength (b :: l)
  | _ => 0

/-- See `C104_shortest`. -/
theorem wayLength_ge (f : Flat) (way : List (ℝ × ℝ)) {p q : ℝ × ℝ} (hp : way.head? = some p) (hq : way.getLast? = some q) :
    f.distance p q ≤ f.wayLength way := by
  induction way generalizing p with
  | nil => simp at hp
  | cons a l ih =>
    simp only [List.head?_cons, Option.some.injEq] at hp
    subst hp
    cases l with
    | nil =>
      simp only [List.getLast?_singleton, Option.some.injEq] at hq
      subst hq
      rw [(distance_metric f a a a).2.2.1]
      exact le_of_eq rfl
    | cons b l =>
      have := ih (p := b) rfl (by rwa [List.getLast?_cons_cons] at hq)
      have h3 := (distance_metric f a b q).2.2.2
      simp only [Flat.wayLength]
      linarith

theorem project_equator {radius : ℝ} (hr : 0 < radius) {f : Flat} (hf : mkFlat (90, 0) (0, 0) radius = .ok f) {x : ℝ}
    (h1 : -180 < x) (h2 : x ≤ 180) : f.project (0, x) = (radius * deg2rad x, 0) := by
  obtain ⟨f', e, ho, hid⟩ := C67_default hr
  have hrad : f.radius = radius := by
    unfold mkFlat at hf
    simp only at hf
    split at hf
    · simp at hf
    · simp only [Except.ok.injEq] at hf
      rw [← hf]
  have hff : f = f' := by
    rw [hf] at e
    simpa using e
  subst hff
  unfold Flat.project
  simp only
  rw [hid, onLatLon_onBall (by norm_num) (by norm_num) h1 h2, hrad]
  simp [deg2rad]

/-- **C104 is false** across the 180th meridian: the path between two places on the equator, 20 degrees apart, passes the
meridian of Greenwich, and its length is 17 times the distance on the globe. -/
theorem C104_date_line_false {radius : ℝ} (hr : 0 < radius) :
    ∃ f, mkFlat (90, 0) (0, 0) radius = .ok f ∧ (0, 0) ∈ f.shortestPath (0, 170) (0, -170) 3 ∧
      f.distance (0, 170) (0, -170) = 17 * distance radius (0, 170) (0, -170) := by
  obtain ⟨f, hf, -, -⟩ := C67_default hr
  have e1 := project_equator hr hf (x := 170) (by norm_num) (by norm_num)
  have e2 := project_equator hr hf (x := -170) (by norm_num) (by norm_num)
  have e0 := project_equator hr hf (x := 0) (by norm_num) (by norm_num)
  have hpi := Real.pi_pos
  refine ⟨f, hf, ?_, ?_⟩
  · have : (f.shortestPath (0, 170) (0, -170) 3)[1]? = some (0, 0) := by
      unfold Flat.shortestPath
      rw [List.getElem?_map, projectedPath_getElem (by norm_num) (by norm_num), e1, e2]
      have h0 := C67_default_round_trip hr hf (p := (0, 0)) (by norm_num) (by norm_num) (by norm_num) (by norm_num)
      rw [e0] at h0
      rw [Option.map_some, Option.some.injEq]
      convert h0 using 3
      · unfold deg2rad; push_cast; ring
      · push_cast; ring
    exact List.mem_of_getElem? this
  · have hl : f.distance (0, 170) (0, -170) = radius * (340 * Real.pi / 180) := by
      unfold Flat.distance
      rw [e1, e2]
      simp only
      have : (radius * deg2rad 170 - radius * deg2rad (-170)) ^ 2 + ((0 : ℝ) - 0) ^ 2 = (radius * (340 * Real.pi / 180)) ^ 2 := by
        unfold deg2rad; ring
      rw [this, Real.sqrt_sq (by positivity)]
    have hdot : (onBall (0, 170)).dot (onBall (0, -170)) = Real.cos (20 * Real.pi / 180) := by
      unfold onBall Vec.dot deg2rad
      simp only
      have e : (20 * Real.pi / 180 : ℝ) = -(170 * Real.pi / 180 - -170 * Real.pi / 180) + 2 * Real.pi := by ring
      rw [e, Real.cos_add_two_pi, Real.cos_neg, Real.cos_sub]
      simp
    have hn : ∀ p, (onBall p).norm = 1 := fun p => by unfold Vec.norm; rw [onBall_dot_self]; simp
    have hs : distance radius (0, 170) (0, -170) = radius * (20 * Real.pi / 180) := by
      unfold distance angle
      rw [hn, hn, hdot, div_one, div_one, Real.arccos_cos (by positivity) (by nlinarith)]
    rw [hl, hs]
    ring

example : ∃ f, mkFlat (90, 0) (0, 0) 3440 = .ok f ∧ (0, 0) ∈ f.shortestPath (0, 170) (0, -170) 3 ∧
    f.distance (0, 170) (0, -170) = 17 * distance 3440 (0, 170) (0, -170) := C104_date_line_false (by norm_num)

/-- **C104 is false** for other virtual north poles: with the virtual north pole at 0N 0E and the virtual zero point at
0N 90E, the virtual north pole is a finite point on the equator of the map; what is at the (infinite) north pole of the map
is the virtual zero point. -/
theorem C104_pole_false {radius : ℝ} :
    ∃ f, mkFlat (0, 0) (0, 90) radius = .ok f ∧ f.project (0, 0) = (radius * (Real.pi / 2), 0) ∧
      f.apply (onBall (0, 90)) = ⟨0, 0, 1⟩ := by
  have e90 : (90 : ℝ) * Real.pi / 180 = Real.pi / 2 := by ring
  have hz : onBall (0, 0) = ⟨1, 0, 0⟩ := by simp [onBall, deg2rad]
  have hq : onBall (0, 90) = ⟨0, 1, 0⟩ := by simp [onBall, deg2rad, e90]
  have hf : mkFlat (0, 0) (0, 90) radius = .ok ⟨⟨0, 1, 0⟩, ⟨0, 0, 1⟩, ⟨1, 0, 0⟩, radius⟩ := by
    unfold mkFlat
    rw [hz, hq]
    simp [Vec.dot, Vec.cross]
  refine ⟨_, hf, ?_, ?_⟩
  · unfold Flat.project
    simp only
    rw [hz]
    have ha : Flat.apply ⟨⟨0, 1, 0⟩, ⟨0, 0, 1⟩, ⟨1, 0, 0⟩, radius⟩ ⟨1, 0, 0⟩ = ⟨0, 1, 0⟩ := by
      simp [Flat.apply, Vec.smul, Vec.add]
    rw [ha]
    unfold onLatLon
    simp only [deg2rad_rad2deg]
    have : (⟨0, 1⟩ : ℂ) = Complex.I := rfl
    rw [this, Complex.arg_I]
    simp
  · rw [hq]
    simp [Flat.apply, Vec.smul, Vec.add]

end Verif.Globe
