import Verif.Props.Weather
import Mathlib.Tactic.FieldSimp

/-!
# Property C144: the interpolated weather approximates the weather
-/

set_option linter.unusedSectionVars false

namespace Verif.Weather

variable {K : Type} [Field K] [LinearOrder K] [IsStrictOrderedRing K] {κ : Type}

/-- Neighbouring grid values differ by at most `Δ`. -/
def Mesh (g : List K) (Δ : K) : Prop := ∀ (i : Nat) (a b : K), g[i]? = some a → g[i + 1]? = some b → b - a ≤ Δ

/-- The interpolated value is between bounds of the values at the grid values in reach. -/
theorem affine_bounds : ∀ {g : List K} (_ : g.Pairwise (· < ·)) {x Δ : K} (_ : Mesh g Δ) (_ : Inside g x) (_ : 0 ≤ Δ)
    {f : Nat → K} {lo hi : K}
    (_ : ∀ (i : Nat) (y : K), g[i]? = some y → |y - x| ≤ Δ → lo ≤ f i ∧ f i ≤ hi),
    lo ≤ affine g f x ∧ affine g f x ≤ hi
  | [], _, _, _, _, h, _, _, _, _, _ => by
    obtain ⟨⟨_, h, _⟩, _⟩ := h
    simp at h
  | [g0], _, x, Δ, _, h, hΔ, f, lo, hi, hf => by
    have : x = g0 := by
      obtain ⟨⟨l, h1, h2⟩, r, h3, h4⟩ := h
      simp only [List.mem_singleton] at h1 h3
      subst h1; subst h3
      exact le_antisymm h4 h2
    subst this
    exact hf 0 x rfl (by simpa using hΔ)
  | g0 :: g1 :: gs, hg, x, Δ, hm, h, hΔ, f, lo, hi, hf => by
    have h01 : g0 < g1 := (List.pairwise_cons.1 hg).1 g1 List.mem_cons_self
    have h0 : g0 ≤ x := by
      obtain ⟨⟨l, h1, h2⟩, -⟩ := h
      refine le_trans ?_ h2
      rcases List.mem_cons.1 h1 with rfl | h1
      · exact le_rfl
      · exact ((List.pairwise_cons.1 hg).1 l h1).le
    have hd := hm 0 g0 g1 rfl rfl
    rw [affine]
    split
    · rename_i h1
      have a0 := hf 0 g0 rfl (by rw [abs_le]; constructor <;> linarith)
      have a1 := hf 1 g1 rfl (by rw [abs_le]; constructor <;> linarith)
      have hp : 0 < g1 - g0 := by linarith
      constructor
      · rw [le_div_iff₀ hp]
        nlinarith [mul_le_mul_of_nonneg_left a0.1 (by linarith : 0 ≤ g1 - x),
          mul_le_mul_of_nonneg_left a1.1 (by linarith : 0 ≤ x - g0)]
      · rw [div_le_iff₀ hp]
        nlinarith [mul_le_mul_of_nonneg_left a0.2 (by linarith : 0 ≤ g1 - x),
          mul_le_mul_of_nonneg_left a1.2 (by linarith : 0 ≤ x - g0)]
    · rename_i h1
      push Not at h1
      refine affine_bounds (List.pairwise_cons.1 hg).2 (fun i a b ha hb => hm (i + 1) a b ha hb) ?_ hΔ
        fun i y hy hyx => hf (i + 1) y hy hyx
      refine ⟨⟨g1, List.mem_cons_self, h1.le⟩, ?_⟩
      obtain ⟨-, r, h3, h4⟩ := h
      rcases List.mem_cons.1 h3 with rfl | h3
      · exact absurd h4 (not_le.2 (h01.trans h1))
      · exact ⟨r, h3, h4⟩

/-- Affine functions are reproduced. -/
theorem affine_linear : ∀ {g : List K} (_ : g.Pairwise (· < ·)) {x : K} (_ : Inside g x) {f : Nat → K} {p q : K}
    (_ : ∀ (i : Nat) (y : K), g[i]? = some y → f i = p * y + q), affine g f x = p * x + q
  | [], _, _, h, _, _, _, _ => by
    obtain ⟨⟨_, h, _⟩, _⟩ := h
    simp at h
  | [g0], _, x, h, f, p, q, hf => by
    have : x = g0 := by
      obtain ⟨⟨l, h1, h2⟩, r, h3, h4⟩ := h
      simp only [List.mem_singleton] at h1 h3
      subst h1; subst h3
      exact le_antisymm h4 h2
    subst this
    exact hf 0 x rfl
  | g0 :: g1 :: gs, hg, x, h, f, p, q, hf => by
    have h01 : g0 < g1 := (List.pairwise_cons.1 hg).1 g1 List.mem_cons_self
    rw [affine]
    split
    · rw [hf 0 g0 rfl, hf 1 g1 rfl, div_eq_iff (by linarith)]
      ring
    · rename_i h1
      push Not at h1
      refine affine_linear (List.pairwise_cons.1 hg).2 ?_ fun i y hy => hf (i + 1) y hy
      refine ⟨⟨g1, List.mem_cons_self, h1.le⟩, ?_⟩
      obtain ⟨-, r, h3, h4⟩ := h
      rcases List.mem_cons.1 h3 with rfl | h3
      · exact absurd h4 (not_le.2 (h01.trans h1))
      · exact ⟨r, h3, h4⟩

/-- The stored values of attribute number `a` are those of the weather `W` up to errors of at most `δ`. -/
def Gridded.Samples (G : Gridded κ K) (a : Nat) (W : K → K → K → K) (δ : K) : Prop :=
  ∀ (i j k : Nat) (t la lo : K), G.times[i]? = some t → G.lats[j]? = some la → G.lons[k]? = some lo →
    |G.stored i j k a - W t la lo| ≤ δ

/-- The coordinates are inside of the grid, and none of them is a grid value except for the first ones. -/
structure Gridded.OffGrid (G : Gridded κ K) (t la lo : K) : Prop where
  time : Inside G.times t
  lat : Inside G.lats la
  lon : Inside G.lons lo
  time_off : ∀ i : Nat, G.times[i]? = some t → i = 0
  lat_off : ∀ i : Nat, G.lats[i]? = some la → i = 0
  lon_off : ∀ i : Nat, G.lons[i]? = some lo → i = 0

/-- **C144.** Between the grid values the error of the interpolated weather is at most the error of the stored values plus
the variation of the weather over one cell of the grid. -/
theorem C144_cell_partial {G : Gridded κ K} (hG : G.Valid) {a : Nat} {W : K → K → K → K} {δ ω Δt Δla Δlo : K}
    (hs : G.Samples a W δ) (ht : 0 ≤ Δt) (hla : 0 ≤ Δla) (hlo : 0 ≤ Δlo) (mt : Mesh G.times Δt) (mla : Mesh G.lats Δla)
    (mlo : Mesh G.lons Δlo) {t la lo : K} (ho : G.OffGrid t la lo)
    (hω : ∀ t' la' lo', |t' - t| ≤ Δt → |la' - la| ≤ Δla → |lo' - lo| ≤ Δlo → |W t' la' lo' - W t la lo| ≤ ω) :
    ∃ vals, getWeather G t la lo = .ok (G.attrs.zip vals) ∧ vals.length = G.attrs.length ∧
      |vals.getD a 0 - W t la lo| ≤ ω + δ := by
  obtain ⟨vals, h1, h2, h3⟩ := C43_interpolation_partial hG ho.time ho.lat ho.lon ho.time_off ho.lat_off ho.lon_off
  refine ⟨vals, h1, h2, ?_⟩
  have := affine_bounds hG.times mt ho.time ht (lo := W t la lo - (ω + δ)) (hi := W t la lo + (ω + δ))
    (f := fun i => affine G.lats (fun j => affine G.lons (fun k => G.stored i j k a) lo) la) fun i t' hi ht' =>
      affine_bounds hG.lats mla ho.lat hla fun j la' hj hla' =>
        affine_bounds hG.lons mlo ho.lon hlo fun k lo' hk hlo' => by
          have e1 := abs_le.1 (hs i j k t' la' lo' hi hj hk)
          have e2 := abs_le.1 (hω t' la' lo' ht' hla' hlo')
          exact ⟨by linarith [e1.1, e2.1], by linarith [e1.2, e2.2]⟩
  rw [h3, abs_le]
  exact ⟨by linarith [this.1], by linarith [this.2]⟩

/-- **C144.** So for weather changing by at most `Lt`, `Lla` and `Llo` per unit of time, latitude and longitude, the error is
at most `Lt Δt + Lla Δla + Llo Δlo` plus the error of the stored values, and it goes down with the mesh of the grid. -/
theorem C144_lipschitz_partial {G : Gridded κ K} (hG : G.Valid) {a : Nat} {W : K → K → K → K}
    {δ Δt Δla Δlo Lt Lla Llo : K} (hs : G.Samples a W δ) (ht : 0 ≤ Δt) (hla : 0 ≤ Δla) (hlo : 0 ≤ Δlo)
    (mt : Mesh G.times Δt) (mla : Mesh G.lats Δla) (mlo : Mesh G.lons Δlo) (h0 : 0 ≤ Lt) (h1 : 0 ≤ Lla) (h2 : 0 ≤ Llo)
    (hW : ∀ t la lo t' la' lo', |W t' la' lo' - W t la lo| ≤ Lt * |t' - t| + Lla * |la' - la| + Llo * |lo' - lo|)
    {t la lo : K} (ho : G.OffGrid t la lo) :
    ∃ vals, getWeather G t la lo = .ok (G.attrs.zip vals) ∧ vals.length = G.attrs.length ∧
      |vals.getD a 0 - W t la lo| ≤ Lt * Δt + Lla * Δla + Llo * Δlo + δ :=
  C144_cell_partial hG hs ht hla hlo mt mla mlo ho fun t' la' lo' e0 e1 e2 =>
    (hW t la lo t' la' lo').trans (add_le_add (add_le_add (mul_le_mul_of_nonneg_left e0 h0)
      (mul_le_mul_of_nonneg_left e1 h1)) (mul_le_mul_of_nonneg_left e2 h2))

/-- **C144.** Weather which is affine in time and position is reproduced exactly between the grid values. -/
theorem C144_affine_partial {G : Gridded κ K} (hG : G.Valid) {a : Nat} {c0 c1 c2 c3 : K}
    (hs : G.Samples a (fun t la lo => c0 + c1 * t + c2 * la + c3 * lo) 0) {t la lo : K} (ho : G.OffGrid t la lo) :
    ∃ vals, getWeather G t la lo = .ok (G.attrs.zip vals) ∧ vals.length = G.attrs.length ∧
      vals.getD a 0 = c0 + c1 * t + c2 * la + c3 * lo := by
  obtain ⟨vals, h1, h2, h3⟩ := C43_interpolation_partial hG ho.time ho.lat ho.lon ho.time_off ho.lat_off ho.lon_off
  refine ⟨vals, h1, h2, ?_⟩
  rw [h3, affine_linear hG.times ho.time (p := c1) (q := c0 + c2 * la + c3 * lo)]
  · ring
  intro i t' hi
  rw [affine_linear hG.lats ho.lat (p := c2) (q := c0 + c1 * t' + c3 * lo)]
  · ring
  intro j la' hj
  rw [affine_linear hG.lons ho.lon (p := c3) (q := c0 + c1 * t' + c2 * la')]
  · ring
  intro k lo' hk
  have := abs_nonpos_iff.1 (hs i j k t' la' lo' hi hj hk)
  linarith

/-- Exact data for weather which at time `t` has the value `t`, at the times `0, 1/n, 2/n, …, 1` at one place. -/
def clock (n : Nat) : Gridded String Rat where
  times := (List.range (n + 1)).map fun i : Nat => (i : Rat) / n
  lats := [50]
  lons := [1]
  attrs := ["TWS"]
  data := (List.range (n + 1)).map fun i : Nat => [[[(i : Rat) / n]]]

theorem clock_valid {n : Nat} (hn : 0 < n) : (clock n).Valid := by
  have hn' : (0 : Rat) < n := by exact_mod_cast hn
  refine ⟨?_, by simp [clock], by simp [clock], by simp [clock], by simp [clock], by simp [clock], by simp [clock], ?_, ?_, ?_⟩
  · simp only [clock, List.pairwise_map]
    exact List.pairwise_lt_range.imp fun h => div_lt_div_of_pos_right (by exact_mod_cast h) hn'
  all_goals
    intro a ha
    simp only [clock, List.mem_map] at ha
    obtain ⟨i, -, rfl⟩ := ha
    simp [clock]

theorem clock_mesh {n : Nat} (hn : 0 < n) : Mesh (clock n).times (1 / n) := by
  have hn' : (0 : Rat) < n := by exact_mod_cast hn
  intro i a b ha hb
  simp only [clock, List.getElem?_map, Option.map_eq_some_iff, List.getElem?_range'] at ha hb
  obtain ⟨i', hi, rfl⟩ := ha
  obtain ⟨j', hj, rfl⟩ := hb
  have e1 := (List.getElem?_eq_some_iff.1 hi).2
  have e2 := (List.getElem?_eq_some_iff.1 hj).2
  rw [List.getElem_range] at e1 e2
  subst e1; subst e2
  push_cast
  rw [← sub_div]
  apply le_of_eq
  ring

theorem clock_samples (n : Nat) : (clock n).Samples 0 (fun t _ _ => t) 0 := by
  intro i j k t la lo hi hj hk
  have hj0 : j = 0 := by
    have := (List.getElem?_eq_some_iff.1 hj).1
    simpa [clock] using this
  have hk0 : k = 0 := by
    have := (List.getElem?_eq_some_iff.1 hk).1
    simpa [clock] using this
  subst hj0; subst hk0
  simp only [clock, List.getElem?_map, Option.map_eq_some_iff] at hi
  obtain ⟨i', hi, rfl⟩ := hi
  simp [Gridded.stored, clock, List.getD_eq_getElem?_getD, hi]

/-- **C144** is false at grid values, however fine the grid is: the data are exact and change by at most 1 per unit of time,
but at time 1 the model returns 0 instead of 1. -/
theorem C144_grid_false (n : Nat) (hn : 0 < n) : (clock n).Valid ∧ Mesh (clock n).times (1 / n) ∧
    (clock n).Samples 0 (fun t _ _ => t) 0 ∧ getWeather (clock n) 1 50 1 = .ok [("TWS", 0)] := by
  refine ⟨clock_valid hn, clock_mesh hn, clock_samples n, ?_⟩
  have hn' : (n : Rat) ≠ 0 := by exact_mod_cast hn.ne'
  have hmem : (1 : Rat) ∈ (clock n).times := by
    simp only [clock, List.mem_map]
    exact ⟨n, by simp, div_self hn'⟩
  obtain ⟨vals, h1, h2, h3⟩ := C43_grid_points_false (clock_valid hn) hmem (la := 50) (lo := 1) (by simp [clock])
    (by simp [clock])
  rw [h1]
  match vals, h2 with
  | [v], _ =>
    have h4 := h3 0
    have h5 : (clock n).stored 0 0 0 0 = 0 := by
      have := abs_nonpos_iff.1 (clock_samples n 0 0 0 0 50 1 (by simp [clock]) rfl rfl)
      linarith
    rw [h5] at h4
    simp only [List.getD_cons_zero] at h4
    simp [clock, h4]

example : (clock 4).OffGrid (3 / 8) 50 1 := by
  refine ⟨⟨⟨0, ?_, ?_⟩, 1, ?_, ?_⟩, ⟨⟨50, ?_, ?_⟩, 50, ?_, ?_⟩, ⟨⟨1, ?_, ?_⟩, 1, ?_, ?_⟩, ?_, ?_, ?_⟩
  any_goals first | decide +kernel
  · intro i hi
    exact absurd (List.mem_of_getElem? hi) (by decide +kernel)
  · intro i hi
    have := (List.getElem?_eq_some_iff.1 hi).1
    simpa [clock] using this
  · intro i hi
    have := (List.getElem?_eq_some_iff.1 hi).1
    simpa [clock] using this

example : getWeather (clock 4) (3 / 8) 50 1 = .ok [("TWS", 3 / 8)] := by decide +kernel

end Verif.Weather
