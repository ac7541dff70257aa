import Verif.Model.FloatCloudSlices
import Verif.Props.FloatSlices
import Verif.Props.FloatNeighbourhood
import Verif.Props.Pointcloud
import Verif.Props.Slices

/-!
# Property C201: slices of point clouds show the points
-/

namespace Verif.F64

open Verif.Interp

variable {K : Type} [Field K] [LinearOrder K] [IsStrictOrderedRing K] [FloorRing K]

/-- The rounded test, for a wind speed of more than twice the range. -/
theorem range_exactly {a s r : K} (ha : fl a = a) (hs : fl s = s) (h0 : 0 ≤ a) (hr0 : 0 ≤ r) (hr : 2 * r < s) :
    |fl (a - s)| ≤ r ↔ |a - s| ≤ r := by
  by_cases h1 : s ≤ 2 * a
  · by_cases h2 : a ≤ 2 * s
    · rw [sub_exact ha hs h1 h2]
    · have hd : s < |a - s| := by
        rw [abs_of_nonneg (by linarith)]
        linarith
      have hf : s ≤ |fl (a - s)| := by
        rw [← fl_abs, ← hs]
        exact fl_mono (by rw [hs]; exact hd.le)
      constructor <;> intro h <;> linarith
  · have hh : fl (s / 2) = s / 2 := by
      obtain ⟨m, k, hm, e⟩ := exists_dyadic s
      rw [hs] at e
      have : s / 2 = (m : K) * 2 ^ (k - 1) := by
        rw [e, zpow_sub_one₀ (by norm_num)]
        ring
      rw [this]
      exact fl_exact hm
    have hd : s / 2 < |a - s| := by
      rw [abs_of_nonpos (by linarith)]
      linarith
    have hf : s / 2 ≤ |fl (a - s)| := by
      rw [← fl_abs, ← hh]
      exact fl_mono hd.le
    constructor <;> intro h <;> linarith

/-- **C201.** The slices of a point cloud calculated with doubles consist of exactly the points whose wind speed differs by at most
`range_` from that of the slice, if the wind speed of the slice is more than twice `range_`. -/
theorem C201_slices_partial {range : K} (hr : 0 ≤ range) {cloud : List (Pt K)} (hc : ∀ p ∈ cloud, fl p.1.1 = p.1.1 ∧ 0 ≤ p.1.1) {ws : List K}
    (hw : ∀ w ∈ ws, fl w = w ∧ 2 * range < w) :
    (cloudSlices range cloud ws).length = ws.length ∧
    ∀ (i : Nat) (w : K) (s : List (Pt K)), ws[i]? = some w → (cloudSlices range cloud ws)[i]? = some s →
      s.Sublist cloud ∧ (∀ p, p ∈ s ↔ p ∈ cloud ∧ w - range ≤ p.1.1 ∧ p.1.1 ≤ w + range) ∧
      ∀ p, w - range ≤ p.1.1 → p.1.1 ≤ w + range → s.count p = cloud.count p := by
  have e : cloudSlices range cloud ws = Cloud.wsToSlices range cloud ws := by
    unfold cloudSlices Cloud.wsToSlices
    apply List.map_congr_left
    intro w hw'
    apply List.filter_congr
    intro p hp
    exact decide_eq_decide.2 (range_exactly (hc p hp).1 (hw w hw').1 (hc p hp).2 hr (hw w hw').2)
  rw [e]
  exact Cloud.C55_slices range cloud ws

/-- **C201.** For all wind speeds the points in the range are in the slice, and the points in the slice exceed the range by at most
`2^-52` of it. -/
theorem C201_close {range : K} (hr : fl range = range) (cloud : List (Pt K)) (w : K) : ∃ s, cloudSlices range cloud [w] = [s] ∧
    (∀ p ∈ cloud, |p.1.1 - w| ≤ range → p ∈ s) ∧ ∀ p ∈ s, p ∈ cloud ∧ |p.1.1 - w| ≤ range * (1 + 2 ^ (-52 : ℤ)) := by
  refine ⟨_, rfl, fun p hp h => ?_, fun p hp => ?_⟩
  · rw [List.mem_filter, decide_eq_true_eq]
    refine ⟨hp, ?_⟩
    rw [← fl_abs, ← hr]
    exact fl_mono h
  · rw [List.mem_filter, decide_eq_true_eq] at hp
    refine ⟨hp.1, ?_⟩
    have he := fl_error' (p.1.1 - w)
    have h1 : |p.1.1 - w| ≤ |fl (p.1.1 - w)| + |fl (p.1.1 - w) - (p.1.1 - w)| := by
      have := abs_sub (fl (p.1.1 - w)) (fl (p.1.1 - w) - (p.1.1 - w))
      rwa [sub_sub_cancel] at this
    have hu : (2 : K) ^ (-52 : ℤ) = 2 * u K := by
      unfold u
      rw [show (-52 : ℤ) = -53 + 1 by norm_num, zpow_add_one₀ (by norm_num)]
      ring
    have hu0 := u_pos (K := K)
    have hut := u_tiny (K := K)
    have hrange : 0 ≤ range := (abs_nonneg _).trans hp.2
    rw [hu]
    have h2 : (1 - u K) * |p.1.1 - w| ≤ range := by linarith [hp.2]
    have h3 : 1 ≤ (1 - u K) * (1 + 2 * u K) := by nlinarith
    have h4 : 0 ≤ 1 - u K := by linarith
    by_contra hcon
    rw [not_le] at hcon
    have h5 : 0 < 1 - u K := by
      rcases h4.eq_or_lt with h | h
      · rw [← h] at h3
        norm_num at h3
      · exact h
    have h6 := mul_lt_mul_of_pos_left hcon h5
    have h7 : range ≤ (1 - u K) * (range * (1 + 2 * u K)) := by
      have := mul_le_mul_of_nonneg_left h3 hrange
      linarith
    linarith

/-- **C201 is false** for smaller wind speeds: the slice at 2 with the range 1 has a point with a wind speed below 1. -/
theorem C201_range_false : fl (1 - 2 ^ (-53 : ℤ) : ℚ) = 1 - 2 ^ (-53 : ℤ) ∧
    cloudSlices (1 : ℚ) [((1 - 2 ^ (-53 : ℤ), 90), 4)] [2] = [[((1 - 2 ^ (-53 : ℤ), 90), 4)]] ∧
    Cloud.wsToSlices (1 : ℚ) [((1 - 2 ^ (-53 : ℤ), 90), 4)] [2] = [[]] := by
  refine ⟨?_, ?_, ?_⟩ <;> decide +kernel

/-- Twenty evenly spaced wind speeds are near all wind speeds in between. -/
theorem nearest_slice {lo hi x range : K} (b1 : lo ≤ x) (b2 : x ≤ hi) (hs : hi - lo ≤ 38 * range) :
    ∃ i : ℕ, i < 20 ∧ |x - (lo + (i : K) * ((hi - lo) / 19))| ≤ range := by
  rcases (b1.trans b2).eq_or_lt with he | hlt
  · refine ⟨0, by norm_num, ?_⟩
    have : x = lo := le_antisymm (by rw [he]; exact b2) b1
    rw [he, this, he]
    norm_num
    linarith
  · obtain ⟨d, hd⟩ : ∃ d, d = (hi - lo) / 19 := ⟨_, rfl⟩
    have hd0 : 0 < d := by rw [hd]; exact div_pos (by linarith) (by norm_num)
    have hd1 : 19 * d = hi - lo := by rw [hd]; ring
    rw [← hd]
    have hx0 : 0 ≤ (x - lo) / d := div_nonneg (by linarith) hd0.le
    have hx1 : (x - lo) / d ≤ 19 := by
      rw [div_le_iff₀ hd0]
      linarith
    have hx2 : (x - lo) / d * d = x - lo := div_mul_cancel₀ _ hd0.ne'
    generalize (x - lo) / d = y at *
    have hf0 := Nat.floor_le (show 0 ≤ y + 1 / 2 by linarith)
    have hf1 := Nat.lt_floor_add_one (y + 1 / 2)
    refine ⟨⌊y + 1 / 2⌋₊, ?_, ?_⟩
    · rw [Nat.floor_lt (by linarith)]
      norm_num
      linarith
    · generalize ((⌊y + 1 / 2⌋₊ : ℕ) : K) = n at *
      have e : x - (lo + n * d) = (y - n) * d := by
        rw [sub_mul, hx2]
        ring
      rw [e, abs_mul, abs_of_pos hd0]
      have : |y - n| ≤ 1 / 2 := abs_le.2 ⟨by linarith, by linarith⟩
      have := mul_le_mul_of_nonneg_right this hd0.le
      linarith

/-- **C201.** The default slices show every point, if the wind speeds differ by at most 38 times the range (by at most 38 knots for the
default range 1). -/
theorem C201_default_partial {range : K} {cloud : List (Pt K)} {l : List K} (hl : Slices.cloudSlices cloud = .ok l)
    (hspan : ∀ p ∈ cloud, ∀ q ∈ cloud, p.1.1 - q.1.1 ≤ 38 * range) {p : Pt K} (hp : p ∈ cloud) :
    ∃ s ∈ Cloud.wsToSlices range cloud l, p ∈ s := by
  obtain ⟨l', lo, hi, e, ⟨pl, hpl, rfl⟩, ⟨ph, hph, rfl⟩, hb, -, -, -, hi⟩ :=
    Slices.C90_default_cloud (List.ne_nil_of_mem hp)
  rw [hl] at e
  cases e
  have hs := hspan ph hph pl hpl
  obtain ⟨b1, b2⟩ := hb p hp
  obtain ⟨i, h1, h2⟩ := nearest_slice b1 b2 hs
  refine ⟨_, List.mem_map.2 ⟨_, List.mem_of_getElem? (hi i h1), rfl⟩, ?_⟩
  rw [List.mem_filter, decide_eq_true_eq]
  exact ⟨hp, h2⟩

/-- **C201.** The same with rounded wind speeds of slices and rounded differences, if the wind speeds differ by a little less. -/
theorem C201_default_double_partial {range lo hi : K} (hr : fl range = range) {cloud : List (Pt K)} (h0 : 0 ≤ lo)
    (hb : ∀ p ∈ cloud, lo ≤ p.1.1 ∧ p.1.1 ≤ hi) (hspan : hi - lo + 380 * 2 ^ (-53 : ℤ) * hi ≤ 38 * range) {p : Pt K} (hp : p ∈ cloud) :
    ∃ s ∈ cloudSlices range cloud (defaultSlices lo hi), p ∈ s := by
  obtain ⟨b1, b2⟩ := hb p hp
  have hlh := b1.trans b2
  obtain ⟨i, h1, h2⟩ := nearest_slice (range := range - 10 * 2 ^ (-53 : ℤ) * hi) b1 b2 (by linarith)
  obtain ⟨w, hw, he⟩ := C163_error (M := hi) hlh (by rw [abs_of_nonneg h0]; exact hlh)
    (by rw [abs_of_nonneg (h0.trans hlh)]) (n := 19) (i := i) (by norm_num) (by omega)
  refine ⟨_, List.mem_map.2 ⟨w, List.mem_of_getElem? hw, rfl⟩, ?_⟩
  rw [List.mem_filter, decide_eq_true_eq]
  refine ⟨hp, ?_⟩
  rw [← fl_abs, ← hr]
  apply fl_mono
  have e : lo + (i : K) * (hi - lo) / ((19 : ℕ) : K) = lo + (i : K) * ((hi - lo) / 19) := by
    push_cast
    ring
  rw [e] at he
  have := abs_sub_le p.1.1 (lo + (i : K) * ((hi - lo) / 19)) w
  rw [abs_sub_comm (lo + (i : K) * ((hi - lo) / 19)) w] at this
  linarith

/-- **C201 is false** for every larger span: there is a point in no default slice. -/
theorem C201_default_false {range d : K} (hr : 0 ≤ range) (hd : 38 * range < d) : ∃ (cloud : List (Pt K)) (l : List K) (p : Pt K),
    cloud.map (fun q => q.1.1) = [0, d / 38, d] ∧ Slices.cloudSlices cloud = .ok l ∧ p ∈ cloud ∧
      ∀ s ∈ Cloud.wsToSlices range cloud l, p ∉ s := by
  have hd0 : 0 < d := by linarith
  obtain ⟨l, lo, hi, e, ⟨pl, hpl, rfl⟩, ⟨ph, hph, rfl⟩, hb, hlen, -, -, hi⟩ :=
    Slices.C90_default_cloud (cloud := [((0, 90), 1), ((d / 38, 90), 2), ((d, 90), 3)]) (by simp)
  have h0 : pl.1.1 = 0 := by
    have h1 := (hb ((0, 90), 1) (by simp)).1
    simp only [List.mem_cons, List.not_mem_nil, or_false] at hpl
    rcases hpl with rfl | rfl | rfl
    · rfl
    · simp only at h1
      linarith
    · simp only at h1
      linarith
  have h1 : ph.1.1 = d := by
    have h1 := (hb ((d, 90), 3) (by simp)).2
    simp only [List.mem_cons, List.not_mem_nil, or_false] at hph
    rcases hph with rfl | rfl | rfl
    · simp only at h1
      linarith
    · simp only at h1
      linarith
    · rfl
  refine ⟨_, l, ((d / 38, 90), 2), rfl, e, by simp, ?_⟩
  intro s hs hp
  obtain ⟨w, hw, rfl⟩ := List.mem_map.1 hs
  rw [List.mem_filter, decide_eq_true_eq] at hp
  obtain ⟨i, hil, rfl⟩ := List.getElem_of_mem hw
  have hwi := hi i (by omega)
  rw [List.getElem?_eq_getElem hil, Option.some.injEq, h0, h1] at hwi
  have h2 := hp.2
  rw [hwi] at h2
  simp only at h2
  rcases Nat.eq_zero_or_pos i with rfl | hpos
  · have := (abs_le.1 h2).2
    push_cast at this
    linarith
  · have h3 : (1 : K) ≤ i := by exact_mod_cast hpos
    have h4 := (abs_le.1 h2).1
    have h5 : 1 * (d / 19) ≤ (i : K) * (d / 19) := mul_le_mul_of_nonneg_right h3 (by positivity)
    linarith

/-- The hypotheses can be met. -/
example : cloudSlices (1 : ℚ) [((8, 90), 4), ((fl (91 / 10), 90), 5), ((9, 45), 3)] [8, fl (81 / 10)] =
    [[((8, 90), 4), ((9, 45), 3)], [((8, 90), 4), ((fl (91 / 10), 90), 5), ((9, 45), 3)]] ∧
    (∀ w ∈ [8, fl (81 / 10 : ℚ)], fl w = w ∧ 2 * 1 < w) ∧
    Slices.cloudSlices ([((0, 90), 4), ((38, 90), 5)] : List (Pt ℚ)) =
      .ok [0, 2, 4, 6, 8, 10, 12, 14, 16, 18, 20, 22, 24, 26, 28, 30, 32, 34, 36, 38] := by
  refine ⟨?_, ?_, ?_⟩ <;> decide +kernel

end Verif.F64
