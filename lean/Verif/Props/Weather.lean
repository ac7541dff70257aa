import Mathlib.Algebra.Order.Ring.Rat
import Mathlib.Algebra.Field.Rat
import Verif.Lemmas.Weather

/-!
# Property C43: gridded weather
-/

set_option linter.unusedSectionVars false

namespace Verif.Weather

variable {K : Type} [Field K] [LinearOrder K] [IsStrictOrderedRing K] {κ : Type}

theorem outside_spec {g : List K} (hg : g.Pairwise (· < ·)) (hne : g ≠ []) (x : K) :
    ∃ b, outside g x = .ok b ∧ (b = false ↔ Inside g x) := by
  obtain ⟨l, hl⟩ : ∃ l, g.head? = some l := ⟨_, List.head?_eq_some_head hne⟩
  obtain ⟨r, hr⟩ : ∃ r, g.getLast? = some r := ⟨_, List.getLast?_eq_some_getLast hne⟩
  refine ⟨decide (x < l) || decide (r < x), by simp [outside, hl, hr], ?_⟩
  simp only [Bool.or_eq_false_iff, decide_eq_false_iff_not, not_lt, Inside]
  have hlm : l ∈ g := List.mem_of_mem_head? hl
  have hrm : r ∈ g := List.mem_of_mem_getLast? hr
  have h1 : ∀ y ∈ g, l ≤ y := by
    cases g with
    | nil => exact absurd rfl hne
    | cons a g =>
      simp only [List.head?_cons, Option.some.injEq] at hl
      subst hl
      intro y hy
      rcases List.mem_cons.1 hy with rfl | hy
      · exact le_rfl
      · exact ((List.pairwise_cons.1 hg).1 y hy).le
  have h2 : ∀ y ∈ g, y ≤ r := by
    intro y hy
    obtain ⟨g', rfl⟩ : ∃ g', g = g' ++ [r] := by
      refine ⟨g.dropLast, ?_⟩
      rw [List.getLast?_eq_some_getLast hne, Option.some.injEq] at hr
      rw [← hr, List.dropLast_append_getLast]
    rcases List.mem_append.1 hy with hy | hy
    · exact ((List.pairwise_append.1 hg).2.2 y hy r (by simp)).le
    · simp only [List.mem_singleton] at hy; exact hy.le
  exact ⟨fun h => ⟨⟨l, hlm, h.1⟩, r, hrm, h.2⟩,
    fun ⟨⟨a, ha, hax⟩, b, hb, hxb⟩ => ⟨(h1 a ha).trans hax, hxb.trans (h2 b hb)⟩⟩

/-- **C43.** Outside of the grid `get_weather` raises `ValueError`. -/
theorem C43_outside {G : Gridded κ K} (hG : G.Valid) {t la lo : K}
    (h : ¬ (Inside G.times t ∧ Inside G.lats la ∧ Inside G.lons lo)) :
    getWeather G t la lo = .error .valueError := by
  obtain ⟨a, a1, a2⟩ := outside_spec hG.times hG.times_ne t
  obtain ⟨b, b1, b2⟩ := outside_spec hG.lats hG.lats_ne la
  obtain ⟨c, c1, c2⟩ := outside_spec hG.lons hG.lons_ne lo
  have : anyOutside G t la lo = .ok true := by
    simp only [anyOutside, a1, b1, c1, Except.ok.injEq]
    rw [← a2, ← b2, ← c2] at h
    revert h
    cases a <;> cases b <;> cases c <;> simp
  simp [getWeather, interpolate, this]

/-- **C43.** A grid without times, latitudes or longitudes raises `IndexError` at every point. -/
theorem C43_empty {G : Gridded κ K} (h : G.times = [] ∨ G.lats = [] ∨ G.lons = []) (t la lo : K) :
    getWeather G t la lo = .error .indexError := by
  have e : ∀ x : K, outside [] x = .error .indexError := fun x => rfl
  have : anyOutside G t la lo = .error .indexError := by
    unfold anyOutside
    rcases h with h | h | h <;> rw [h, e] <;> split <;> simp_all
  simp [getWeather, interpolate, this]

example : getWeather (⟨[0, 3600], [], [1, 3], ["TWS"], []⟩ : Gridded String ℚ) 1800 51 2 = .error .indexError :=
  C43_empty (Or.inr (Or.inl rfl)) _ _ _

/-- What `get_weather` computes inside of the grid: interpolation in each dimension, where on a grid value the first
stored value is taken. -/
theorem getWeather_inside {G : Gridded κ K} (hG : G.Valid) {t la lo : K}
    (h1 : Inside G.times t) (h2 : Inside G.lats la) (h3 : Inside G.lons lo) :
    ∃ vals, getWeather G t la lo = .ok (G.attrs.zip vals) ∧ vals.length = G.attrs.length ∧ ∀ a,
      vals.getD a 0 = affine0 G.times (fun i => affine0 G.lats (fun j => affine0 G.lons
        (fun k => G.stored i j k a) lo) la) t := by
  obtain ⟨a, a1, a2⟩ := outside_spec hG.times hG.times_ne t
  obtain ⟨b, b1, b2⟩ := outside_spec hG.lats hG.lats_ne la
  obtain ⟨c, c1, c2⟩ := outside_spec hG.lons hG.lons_ne lo
  have hout : anyOutside G t la lo = .ok false := by
    simp only [anyOutside, a1, b1, c1, Except.ok.injEq]
    simp [a2.2 h1, b2.2 h2, c2.2 h3]
  have hmk : ∀ {g : List K} (_ : g.Pairwise (· < ·)) {x : K} (_ : Inside g x), ∃ d, mkDim g x = .ok d := by
    intro g hg x hx
    rcases mkDim_spec hg hx with ⟨_, _, h⟩ | ⟨_, _, _, _, _, _, _, _, h⟩ <;> exact ⟨_, h⟩
  obtain ⟨d0, e0⟩ := hmk hG.times h1
  obtain ⟨d1, e1⟩ := hmk hG.lats h2
  obtain ⟨d2, e2⟩ := hmk hG.lons h3
  have hget : ∀ i j k, i < G.times.length → j < G.lats.length → k < G.lons.length →
      ∃ v, G.getData [i, j, k] = .ok v ∧ v.length = G.attrs.length ∧ ∀ a, v.getD a 0 = G.stored i j k a := by
    intro i j k hi hj hk
    have hi' : i < G.data.length := by rw [hG.shape0]; exact hi
    have hj' : j < G.data[i].length := by rw [hG.shape1 _ (List.getElem_mem hi')]; exact hj
    have hk' : k < G.data[i][j].length := by
      rw [hG.shape2 _ (List.getElem_mem hi') _ (List.getElem_mem hj')]; exact hk
    refine ⟨G.data[i][j][k], ?_, ?_, fun a => ?_⟩
    · simp only [Gridded.getData, List.getElem?_eq_getElem hi', List.getElem?_eq_getElem hj',
        List.getElem?_eq_getElem hk']
    · exact hG.shape3 _ (List.getElem_mem hi') _ (List.getElem_mem hj') _ (List.getElem_mem hk')
    · simp [Gridded.stored, hi', hj', hk']
  have hrec2 : ∀ i j, i < G.times.length → j < G.lats.length → ∃ R, recursion G.getData [d2] [i, j] = .ok R ∧
      R.length = G.attrs.length ∧ ∀ a, R.getD a 0 = affine0 G.lons (fun k => G.stored i j k a) lo := by
    intro i j hi hj
    have : ∀ k, ∃ v : List K, k < G.lons.length → (G.getData [i, j, k] = .ok v ∧ v.length = G.attrs.length ∧
        ∀ a, v.getD a 0 = G.stored i j k a) := by
      intro k
      by_cases hk : k < G.lons.length
      · obtain ⟨v, hv⟩ := hget i j k hi hj hk; exact ⟨v, fun _ => hv⟩
      · exact ⟨[], fun h => absurd h hk⟩
    choose T hT using this
    obtain ⟨R, r1, r2, r3⟩ := recursion_step (get := G.getData) hG.lons h3 e2 (ds := []) (c := [i, j]) (T := T)
      (fun k hk => ⟨(hT k hk).1, (hT k hk).2.1⟩)
    refine ⟨R, r1, r2, fun a => ?_⟩
    rw [r3]
    exact affine0_congr hG.lons_ne (fun k hk => (hT k hk).2.2 a) lo
  have hrec1 : ∀ i, i < G.times.length → ∃ R, recursion G.getData [d1, d2] [i] = .ok R ∧
      R.length = G.attrs.length ∧ ∀ a, R.getD a 0 = affine0 G.lats (fun j => affine0 G.lons
        (fun k => G.stored i j k a) lo) la := by
    intro i hi
    have : ∀ j, ∃ v : List K, j < G.lats.length → (recursion G.getData [d2] [i, j] = .ok v ∧
        v.length = G.attrs.length ∧ ∀ a, v.getD a 0 = affine0 G.lons (fun k => G.stored i j k a) lo) := by
      intro j
      by_cases hj : j < G.lats.length
      · obtain ⟨v, hv⟩ := hrec2 i j hi hj; exact ⟨v, fun _ => hv⟩
      · exact ⟨[], fun h => absurd h hj⟩
    choose T hT using this
    obtain ⟨R, r1, r2, r3⟩ := recursion_step (get := G.getData) hG.lats h2 e1 (ds := [d2]) (c := [i]) (T := T)
      (fun j hj => ⟨(hT j hj).1, (hT j hj).2.1⟩)
    refine ⟨R, r1, r2, fun a => ?_⟩
    rw [r3]
    exact affine0_congr hG.lats_ne (fun j hj => (hT j hj).2.2 a) la
  have : ∀ i, ∃ v : List K, i < G.times.length → (recursion G.getData [d1, d2] [i] = .ok v ∧
      v.length = G.attrs.length ∧ ∀ a, v.getD a 0 = affine0 G.lats (fun j => affine0 G.lons
        (fun k => G.stored i j k a) lo) la) := by
    intro i
    by_cases hi : i < G.times.length
    · obtain ⟨v, hv⟩ := hrec1 i hi; exact ⟨v, fun _ => hv⟩
    · exact ⟨[], fun h => absurd h hi⟩
  choose T hT using this
  obtain ⟨R, r1, r2, r3⟩ := recursion_step (get := G.getData) hG.times h1 e0 (ds := [d1, d2]) (c := []) (T := T)
    (fun i hi => ⟨(hT i hi).1, (hT i hi).2.1⟩)
  refine ⟨R, ?_, r2, fun a => ?_⟩
  · simp only [getWeather, interpolate, hout, e0, e1, e2, r1]
  · rw [r3]
    exact affine0_congr hG.times_ne (fun i hi => (hT i hi).2.2 a) t

/-- **C43** (partial: no coordinate is a grid value other than the first one; otherwise see
`C43_grid_point_false`). Inside of the grid, `get_weather` gives for each attribute the value of the multilinear
interpolation of the stored values. -/
theorem C43_interpolation_partial {G : Gridded κ K} (hG : G.Valid) {t la lo : K}
    (h1 : Inside G.times t) (h2 : Inside G.lats la) (h3 : Inside G.lons lo)
    (g1 : ∀ i : Nat, G.times[i]? = some t → i = 0) (g2 : ∀ i : Nat, G.lats[i]? = some la → i = 0)
    (g3 : ∀ i : Nat, G.lons[i]? = some lo → i = 0) :
    ∃ vals, getWeather G t la lo = .ok (G.attrs.zip vals) ∧ vals.length = G.attrs.length ∧ ∀ a,
      vals.getD a 0 = affine G.times (fun i => affine G.lats (fun j => affine G.lons
        (fun k => G.stored i j k a) lo) la) t := by
  obtain ⟨vals, v1, v2, v3⟩ := getWeather_inside hG h1 h2 h3
  have key : ∀ {g : List K} (_ : g.Pairwise (· < ·)) {x : K} (_ : ∀ i : Nat, g[i]? = some x → i = 0) (f : Nat → K),
      affine0 g f x = affine g f x := by
    intro g hg x hx f
    unfold affine0
    split
    · rename_i hm
      obtain ⟨i, hi⟩ := List.mem_iff_getElem?.1 hm
      rw [affine_grid hg f hi, hx i hi]
    · rfl
  refine ⟨vals, v1, v2, fun a => ?_⟩
  rw [v3, key hG.times g1]
  congr 1; funext i
  rw [key hG.lats g2]
  congr 1; funext j
  rw [key hG.lons g3]

/-- The reference interpolation of C43 takes the stored value at each grid point. -/
theorem C43_reference {G : Gridded κ K} (hG : G.Valid) {t la lo : K} {i j k : Nat} (hi : G.times[i]? = some t)
    (hj : G.lats[j]? = some la) (hk : G.lons[k]? = some lo) (a : Nat) :
    affine G.times (fun i => affine G.lats (fun j => affine G.lons (fun k => G.stored i j k a) lo) la) t =
      G.stored i j k a := by
  rw [affine_grid hG.times _ hi, affine_grid hG.lats _ hj, affine_grid hG.lons _ hk]

/-- A model with two points in each dimension, the value of the attribute being `100 i + 10 j + k`. -/
def exG : Gridded String Rat where
  times := [0, 10]
  lats := [50, 52]
  lons := [1, 3]
  attrs := ["TWS"]
  data := [[[[0], [1]], [[10], [11]]], [[[100], [101]], [[110], [111]]]]

theorem exG_valid : exG.Valid :=
  ⟨by decide +kernel, by decide +kernel, by decide +kernel, by decide, by decide, by decide, by decide, by decide,
    by decide, by decide⟩

example : getWeather exG 5 51 2 = .ok [("TWS", 111 / 2)] := by decide +kernel

example : getWeather exG 5 51 4 = .error .valueError := by decide +kernel

example : ∃ vals, getWeather exG 5 51 2 = .ok (exG.attrs.zip vals) ∧ vals.length = exG.attrs.length ∧ ∀ a,
      vals.getD a 0 = affine exG.times (fun i => affine exG.lats (fun j => affine exG.lons
        (fun k => exG.stored i j k a) 2) 51) 5 := by
  refine C43_interpolation_partial exG_valid ?_ ?_ ?_ ?_ ?_ ?_
  · exact ⟨⟨0, by decide, by decide +kernel⟩, 10, by decide, by decide +kernel⟩
  · exact ⟨⟨50, by decide, by decide +kernel⟩, 52, by decide, by decide +kernel⟩
  · exact ⟨⟨1, by decide, by decide +kernel⟩, 3, by decide, by decide +kernel⟩
  all_goals
    intro i hi
    have hm := List.mem_of_getElem? hi
    exact absurd hm (by decide +kernel)

/-- **C43** is false at grid points: at the last grid point the weather of the first one is returned. -/
theorem C43_grid_point_false : ¬ ∀ (G : Gridded String Rat), G.Valid → ∀ (i j k : Nat) (t la lo : Rat),
    G.times[i]? = some t → G.lats[j]? = some la → G.lons[k]? = some lo →
    ∃ vals, getWeather G t la lo = .ok (G.attrs.zip vals) ∧ vals.length = G.attrs.length ∧
      ∀ a, vals.getD a 0 = G.stored i j k a := by
  intro h
  obtain ⟨vals, h1, h2, h3⟩ := h exG exG_valid 1 1 1 10 52 3 (by decide) (by decide) (by decide)
  have h0 : getWeather exG 10 52 3 = .ok [("TWS", 0)] := by decide +kernel
  rw [h0] at h1
  match vals, h2 with
  | [v], _ =>
    have h4 := h3 0
    simp only [Except.ok.injEq, exG, List.zip_cons_cons, List.zip_nil_right, List.cons.injEq, Prod.mk.injEq,
      true_and, and_true] at h1
    rw [← h1] at h4
    revert h4
    decide +kernel

/-- The weather at every grid point is that of the first grid point. -/
theorem C43_grid_points_false {G : Gridded κ K} (hG : G.Valid) {t la lo : K} (ht : t ∈ G.times) (hla : la ∈ G.lats)
    (hlo : lo ∈ G.lons) :
    ∃ vals, getWeather G t la lo = .ok (G.attrs.zip vals) ∧ vals.length = G.attrs.length ∧
      ∀ a, vals.getD a 0 = G.stored 0 0 0 a := by
  obtain ⟨vals, v1, v2, v3⟩ := getWeather_inside hG ⟨⟨t, ht, le_rfl⟩, t, ht, le_rfl⟩
    ⟨⟨la, hla, le_rfl⟩, la, hla, le_rfl⟩ ⟨⟨lo, hlo, le_rfl⟩, lo, hlo, le_rfl⟩
  exact ⟨vals, v1, v2, fun a => by rw [v3]; simp [affine0, ht, hla, hlo]⟩

/-- At the grid point (10, 52, 3) the value stored for (0, 50, 1) is returned. -/
example : ∃ vals, getWeather exG 10 52 3 = .ok (exG.attrs.zip vals) ∧ vals.length = exG.attrs.length ∧
    ∀ a, vals.getD a 0 = exG.stored 0 0 0 a :=
  C43_grid_points_false exG_valid (by decide) (by decide) (by decide)

end Verif.Weather
