import Verif.Props.Imputator
import Verif.Props.Weather
import Verif.Props.Curve
import Verif.Props.Nmea
import Verif.Props.Plot

/-!
# Exact conditions, second part
-/

set_option linter.unusedSectionVars false

namespace Verif.Imputator

/-- **C25.** A missing time stamp between two consecutive present ones is filled exactly if these and all consecutive present ones
before are at most `max_time_diff` apart. -/
theorem C25_exactly {l : List (Option Rat)} (hc : Chronological l) {maxDiff : Rat} {a b : Nat} {s t : Rat} (hg : Gap l a b s t)
    {j : Nat} (h1 : a < j) (h2 : j < b) :
    (∃ v, (interpolateDatetime maxDiff l)[j]? = some (some v)) ↔ Linked l maxDiff b := by
  refine ⟨?_, fun h => ⟨_, C25_filled_partial hc hg h h1 h2⟩⟩
  rintro ⟨v, hv⟩ a' b' s' t' hg' hb'
  by_contra hbig
  rw [not_le] at hbig
  have hj : l[j]? = some none := hg.2.2.2 j h1 h2
  rcases lt_or_ge b' j with hlt | hge
  · rw [C25_after_gap_false hc hg' hbig hlt hj] at hv
    cases hv
  · have present : ∀ {m : Nat} {x : Rat}, l[m]? = some (some x) → ¬ (a < m ∧ m < b) := by
      intro m x hm hin
      rw [hg.2.2.2 m hin.1 hin.2] at hm
      cases hm
    have eb : b' = b := by
      by_contra hne
      exact present hg'.2.2.1 ⟨by omega, by omega⟩
    subst eb
    obtain ⟨c, d, x, y, gg, c1, c2, c3, -⟩ := (C25_nothing_else hc maxDiff).2.2 j v hj hv
    have same : ∀ {a1 b1 a2 b2 : Nat} {x1 y1 x2 y2 : Rat}, Gap l a1 b1 x1 y1 → Gap l a2 b2 x2 y2 → a2 < b1 → a1 < b2 →
        a1 = a2 ∧ b1 = b2 := by
      intro a1 b1 a2 b2 x1 y1 x2 y2 g1 g2 k1 k2
      have n1 : ¬ (a1 < a2 ∧ a2 < b1) := fun h => by have := g1.2.2.2 a2 h.1 h.2; rw [g2.2.1] at this; cases this
      have n2 : ¬ (a2 < a1 ∧ a1 < b2) := fun h => by have := g2.2.2.2 a1 h.1 h.2; rw [g1.2.1] at this; cases this
      have n3 : ¬ (a1 < b2 ∧ b2 < b1) := fun h => by have := g1.2.2.2 b2 h.1 h.2; rw [g2.2.2.1] at this; cases this
      have n4 : ¬ (a2 < b1 ∧ b1 < b2) := fun h => by have := g2.2.2.2 b1 h.1 h.2; rw [g1.2.2.1] at this; cases this
      omega
    obtain ⟨rfl, rfl⟩ := same hg gg (by omega) (by omega)
    obtain ⟨rfl, -⟩ := same hg hg' hg'.1 hg.1
    have e1 := gg.2.1.symm.trans hg'.2.1
    have e2 := gg.2.2.1.symm.trans hg'.2.2.1
    simp only [Option.some.injEq] at e1 e2
    subst e1 e2
    exact absurd c3 (not_le.2 hbig)

example : ∃ v, (interpolateDatetime 10 [some 0, none, some 4, none, some 30])[1]? = some (some v) :=
  ⟨2, by decide +kernel⟩

example : (interpolateDatetime 10 [some 0, none, some 30, none, some 34])[3]? = some none := by decide +kernel

end Verif.Imputator

namespace Verif.Weather

variable {κ K : Type} [Field K] [LinearOrder K] [IsStrictOrderedRing K]

/-! ## C43: what is returned on grid planes -/

/-- A coordinate that is a grid value is replaced by the first grid value. -/
def snap (g : List K) (x : K) : K := if x ∈ g then g.headD x else x

theorem affine0_eq_snap {g : List K} (hg : g.Pairwise (· < ·)) (f : Nat → K) (x : K) :
    affine0 g f x = affine g f (snap g x) := by
  unfold affine0 snap
  split_ifs with h
  · cases g with
    | nil => cases h
    | cons g0 gs => exact (affine_grid hg f (x := g0) (i := 0) rfl).symm
  · rfl

/-- **C43.** What is returned inside of the grid, for all points: the interpolation at the point in which every coordinate that is a
grid value is replaced by the first value of its grid. -/
theorem C43_actual {G : Gridded κ K} (hG : G.Valid) {t la lo : K} (h1 : Inside G.times t) (h2 : Inside G.lats la)
    (h3 : Inside G.lons lo) :
    ∃ vals, getWeather G t la lo = .ok (G.attrs.zip vals) ∧ vals.length = G.attrs.length ∧ ∀ a,
      vals.getD a 0 = affine G.times (fun i => affine G.lats (fun j => affine G.lons (fun k => G.stored i j k a) (snap G.lons lo))
        (snap G.lats la)) (snap G.times t) := by
  obtain ⟨vals, v1, v2, v3⟩ := getWeather_inside hG h1 h2 h3
  refine ⟨vals, v1, v2, fun a => ?_⟩
  rw [v3, affine0_eq_snap hG.times]
  congr 1; funext i
  rw [affine0_eq_snap hG.lats]
  congr 1; funext j
  rw [affine0_eq_snap hG.lons]

/-- The array with the given entries for all attributes. -/
def gridData (n m r s : Nat) (f : Nat → Nat → Nat → K) : List (List (List (List K))) :=
  (List.range n).map fun i => (List.range m).map fun j => (List.range r).map fun k => List.replicate s (f i j k)

theorem gridData_stored {n m r s : Nat} (f : Nat → Nat → Nat → K) (times lats lons : List K) (attrs : List κ) {i j k a : Nat}
    (hi : i < n) (hj : j < m) (hk : k < r) (ha : a < s) :
    Gridded.stored ⟨times, lats, lons, attrs, gridData n m r s f⟩ i j k a = f i j k := by
  simp [Gridded.stored, gridData, List.getD_eq_getElem?_getD, hi, hj, hk, ha]

theorem affine_constant {g : List K} (hg : g.Pairwise (· < ·)) (c x : K) : affine g (fun _ => c) x = c := by
  induction g with
  | nil => rfl
  | cons g0 g ih =>
    cases g with
    | nil => rfl
    | cons g1 gs =>
      have h : g1 - g0 ≠ 0 := by
        have := List.rel_of_pairwise_cons hg (a' := g1) (by simp)
        exact sub_ne_zero.2 this.ne'
      rw [affine]
      split_ifs
      · field_simp; ring
      · exact ih hg.of_cons

/-- A coordinate is a grid value after the first one. -/
def Later (g : List K) (x : K) : Prop := ∃ i : Nat, i ≠ 0 ∧ g[i]? = some x

/-- **C43.** For a grid with at least one attribute and a point inside of it: the interpolated weather is returned for all data exactly
if no coordinate of the point is a grid value other than the first one. -/
theorem C43_exactly {times lats lons : List K} {attrs : List κ} (ht : times.Pairwise (· < ·)) (hla : lats.Pairwise (· < ·))
    (hlo : lons.Pairwise (· < ·)) (ha : attrs ≠ []) {t la lo : K} (h1 : Inside times t) (h2 : Inside lats la) (h3 : Inside lons lo) :
    (∀ data, Gridded.Valid (⟨times, lats, lons, attrs, data⟩ : Gridded κ K) →
      ∃ vals, getWeather ⟨times, lats, lons, attrs, data⟩ t la lo = .ok (attrs.zip vals) ∧ vals.length = attrs.length ∧ ∀ a,
        vals.getD a 0 = affine times (fun i => affine lats (fun j => affine lons
          (fun k => Gridded.stored (⟨times, lats, lons, attrs, data⟩ : Gridded κ K) i j k a) lo) la) t) ↔
      ¬ Later times t ∧ ¬ Later lats la ∧ ¬ Later lons lo := by
  have ne : ∀ {g : List K} {x : K}, Inside g x → g ≠ [] := by
    rintro g x ⟨⟨l, hl, -⟩, -⟩ rfl
    cases hl
  constructor
  · intro h
    have key : ∀ f : Nat → Nat → Nat → K,
        affine0 times (fun i => affine0 lats (fun j => affine0 lons (fun k => f i j k) lo) la) t =
          affine times (fun i => affine lats (fun j => affine lons (fun k => f i j k) lo) la) t := by
      intro f
      have hG : Gridded.Valid (⟨times, lats, lons, attrs, gridData times.length lats.length lons.length attrs.length f⟩ :
          Gridded κ K) := by
        refine ⟨ht, hla, hlo, ne h1, ne h2, ne h3, ?_, ?_, ?_, ?_⟩
        · simp [gridData]
        · simp [gridData]
        · simp [gridData]
        · simp [gridData]
      obtain ⟨vals, v1, v2, v3⟩ := h _ hG
      obtain ⟨vals', w1, w2, w3⟩ := getWeather_inside hG h1 h2 h3
      have e : vals = vals' := by
        rw [v1] at w1
        have := congrArg (List.map Prod.snd) (Except.ok.inj w1)
        simpa [List.map_snd_zip, v2, w2] using this
      have hpos : 0 < attrs.length := List.length_pos_of_ne_nil ha
      have := (v3 0).symm.trans ((congrArg (fun l => List.getD l 0 0) e).trans (w3 0))
      have r1 : affine times (fun i => affine lats (fun j => affine lons (fun k => Gridded.stored (⟨times, lats, lons, attrs,
          gridData times.length lats.length lons.length attrs.length f⟩ : Gridded κ K) i j k 0) lo) la) t =
          affine times (fun i => affine lats (fun j => affine lons (fun k => f i j k) lo) la) t :=
        affine_congr (ne h1) (fun i hi => affine_congr (ne h2) (fun j hj => affine_congr (ne h3)
          (fun k hk => gridData_stored f _ _ _ _ hi hj hk hpos) lo) la) t
      have r2 : affine0 times (fun i => affine0 lats (fun j => affine0 lons (fun k => Gridded.stored (⟨times, lats, lons, attrs,
          gridData times.length lats.length lons.length attrs.length f⟩ : Gridded κ K) i j k 0) lo) la) t =
          affine0 times (fun i => affine0 lats (fun j => affine0 lons (fun k => f i j k) lo) la) t :=
        affine0_congr (ne h1) (fun i hi => affine0_congr (ne h2) (fun j hj => affine0_congr (ne h3)
          (fun k hk => gridData_stored f _ _ _ _ hi hj hk hpos) lo) la) t
      rw [r1, r2] at this
      exact this.symm
    have const0 : ∀ {g : List K} (_ : g.Pairwise (· < ·)) (c x : K), affine0 g (fun _ => c) x = c := by
      intro g hg c x
      unfold affine0
      split_ifs
      · rfl
      · exact affine_constant hg c x
    have bad : ∀ {g : List K} (_ : g.Pairwise (· < ·)) {x : K}, Later g x →
        affine0 g (fun i => (i : K)) x ≠ affine g (fun i => (i : K)) x := by
      rintro g hg x ⟨i, hi, hx⟩
      rw [affine_grid hg _ hx, affine0, if_pos (List.mem_of_getElem? hx)]
      exact fun e => hi (Nat.cast_injective (R := K) e).symm
    refine ⟨fun c => bad ht c ?_, fun c => bad hla c ?_, fun c => bad hlo c ?_⟩
    · simpa only [const0 hla, const0 hlo, affine_constant hla, affine_constant hlo] using key fun i _ _ => (i : K)
    · simpa only [const0 ht, const0 hlo, affine_constant ht, affine_constant hlo] using key fun _ j _ => (j : K)
    · simpa only [const0 ht, const0 hla, affine_constant ht, affine_constant hla] using key fun _ _ k => (k : K)
  · rintro ⟨g1, g2, g3⟩ data hG
    have conv : ∀ {g : List K} {x : K}, ¬ Later g x → ∀ i : Nat, g[i]? = some x → i = 0 := by
      intro g x h i hi
      by_contra c
      exact h ⟨i, c, hi⟩
    exact C43_interpolation_partial hG h1 h2 h3 (conv g1) (conv g2) (conv g3)

example : ¬ Later ([0, 10] : List ℚ) 0 ∧ ¬ Later ([0, 10] : List ℚ) 5 ∧ Later ([0, 10] : List ℚ) 10 := by
  refine ⟨?_, ?_, 1, by decide, by decide⟩
  all_goals
    rintro ⟨i, h, e⟩
    rcases i with _ | _ | i
    · exact h rfl
    · revert e; decide +kernel
    · simp at e

example : snap ([0, 10] : List ℚ) 10 = 0 ∧ snap ([0, 10] : List ℚ) 5 = 5 := by decide +kernel

end Verif.Weather

namespace Verif.Curve

open Verif.Table

variable {K : Type} [Field K] [LinearOrder K] [IsStrictOrderedRing K] [FloorRing K]

/-- **C60.** A curve is recovered from its csv file exactly if its function is one of the model functions and there are enough
parameters for it. -/
theorem C60_exactly {print : K → Text} {parse : Text → Except PyErr K} (h : RoundTrip print parse) {known : Text → Bool}
    {enough : Text → List K → Bool} {c : Named K} (hname : c.name ≠ [] ∧ ':' ∉ c.name ∧ '\n' ∉ c.name) :
    fromCsv parse known enough (toCsv print c) = .ok c ↔ known c.name = true ∧ enough c.name c.params = true := by
  refine ⟨fun h1 => ?_, fun h1 => C60_round_trip_partial h h1.1 h1.2 hname⟩
  unfold fromCsv at h1
  split at h1
  · cases h1
  · split at h1
    · cases h1
    · split at h1
      · split at h1
        · cases h1
        · split at h1
          · cases h1
          · split at h1
            · cases h1
            · split at h1
              · cases h1
              · rename_i h2 h3
                simp only [Except.ok.injEq] at h1
                subst h1
                exact ⟨not_not.1 h2, not_not.1 h3⟩
      · cases h1

example {print : ℚ → Text} {parse : Text → Except PyErr ℚ} (h : RoundTrip print parse) :
    fromCsv parse (fun n => n = "f".toList) (fun _ p => decide (2 ≤ p.length)) (toCsv print ⟨"f".toList, [1, 2], true⟩) =
      .ok ⟨"f".toList, [1, 2], true⟩ ∧
    fromCsv parse (fun n => n = "f".toList) (fun _ p => decide (2 ≤ p.length)) (toCsv print ⟨"f".toList, [1], true⟩) ≠
      .ok ⟨"f".toList, [1], true⟩ :=
  ⟨(C60_exactly h (by decide)).mpr (by decide), fun h' => absurd ((C60_exactly h (by decide)).mp h') (by decide)⟩

end Verif.Curve

namespace Verif.Nmea

/-- **C50.** A time with a fraction of one to six digits is decoded with its fraction exactly if there are six digits or all of them
are zero. -/
theorem C50_exactly {h m s : Nat} (hh : h < 24) (hm : m < 60) (hs : s < 60) {f : List (Fin 10)} (hf : f ≠ []) (hf6 : f.length ≤ 6) :
    (∃ t, timeFromNmea (timeString h m s f) = .ok t ∧ t.hour = h ∧ t.minute = m ∧ t.second = s ∧
      (t.microsecond : Rat) / 10 ^ 6 = (value f : Rat) / 10 ^ f.length) ↔ f.length = 6 ∨ value f = 0 := by
  constructor
  · rintro ⟨t, h1, -, -, -, h2⟩
    by_contra c
    push Not at c
    obtain ⟨t', h3, h4⟩ := C50_fraction_false hh hm hs (lt_of_le_of_ne hf6 c.1) c.2
    rw [h1] at h3
    cases h3
    exact h4 h2
  · rintro (c | c)
    · exact C50_time_partial hh hm hs (Or.inl c)
    · exact C50_time_partial hh hm hs (Or.inr ⟨hf, c⟩)

example : ¬ ∃ t, timeFromNmea (timeString 12 30 5 [2, 5]) = .ok t ∧ t.hour = 12 ∧ t.minute = 30 ∧ t.second = 5 ∧
    (t.microsecond : Rat) / 10 ^ 6 = (value [2, 5] : Rat) / 10 ^ [(2 : Fin 10), 5].length :=
  fun h => absurd ((C50_exactly (by norm_num) (by norm_num) (by norm_num) (by simp) (by simp)).1 h) (by decide)

end Verif.Nmea

namespace Verif.Plot

variable {K : Type} [Field K] [LinearOrder K] [IsStrictOrderedRing K]

/-- **C69.** All coefficients are numbers exactly if two of the values are different. -/
theorem C69_exactly {gradient : List K} (hne : gradient ≠ []) :
    (∀ x ∈ coefficients gradient, ∃ c, x = some c) ↔ ∃ g ∈ gradient, ∃ g' ∈ gradient, g < g' := by
  constructor
  · intro h
    by_contra c
    push Not at c
    obtain ⟨g, gs, rfl⟩ := List.exists_cons_of_ne_nil hne
    have e : g :: gs = List.replicate (gs.length + 1) g := by
      rw [List.eq_replicate_iff]
      exact ⟨rfl, fun b hb => le_antisymm (c g (by simp) b hb) (c b hb g (by simp))⟩
    rw [e, C69_equal_false] at h
    obtain ⟨x, hx⟩ := h none (by simp)
    cases hx
  · rintro ⟨lo, h1, hi, h2, hlt⟩ x hx
    obtain ⟨i, hi'⟩ := List.mem_iff_getElem?.1 hx
    obtain ⟨c, h3, -⟩ := (C69_coefficients_partial h1 h2 hlt).2.1 i x hi'
    exact ⟨c, h3⟩

example : coefficients ([2, 3, 6] : List ℚ) = [some 0, some (1 / 4), some 1] := by decide +kernel

end Verif.Plot
