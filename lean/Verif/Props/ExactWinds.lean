import Verif.Props.Curve
import Verif.Props.DefaultTable
import Verif.Props.GlobePath
import Verif.Props.InfluenceData
import Verif.Props.WeatherSources
import Verif.Props.PlotColors
import Verif.Props.StdFormat
import Verif.Props.WeigherData

/-!
# Exact conditions for properties C51, C61, C80, C91, C103, C104, C109, C114 and C116
-/

set_option linter.unusedSectionVars false

namespace Verif.Curve

/-- **C61**, exactly: `ws_s_wa_gauss` needs eleven parameters instead of the ten of its documentation. -/
theorem C61_gauss_exactly (x y : ℝ) (params : List ℝ) :
    (∃ z, wsSWaGauss x y params = .ok z) ↔ 11 ≤ params.length := by
  by_cases h : 11 ≤ params.length
  · refine ⟨fun _ => h, fun _ => ?_⟩
    match params, h with
    | a0 :: a1 :: a2 :: a3 :: a4 :: a5 :: a6 :: a7 :: a8 :: a9 :: a10 :: l, _ =>
      exact ⟨_, rfl⟩
  · refine ⟨fun hz => ?_, fun h' => absurd h' h⟩
    exfalso
    obtain ⟨z, hz⟩ := hz
    rcases params with _ | ⟨a0, _ | ⟨a1, _ | ⟨a2, _ | ⟨a3, _ | ⟨a4, _ | ⟨a5, _ | ⟨a6, _ | ⟨a7, _ | ⟨a8, _ | ⟨a9, _ | ⟨a10, l⟩⟩⟩⟩⟩⟩⟩⟩⟩⟩⟩ <;>
      first
        | (have hz' : (Except.error PyErr.indexError : Except PyErr ℝ) = Except.ok z := hz
           cases hz')
        | exact h (by simp)

example : (¬ ∃ z, wsSWaGauss 10 90 [1, 1, 1, 1, 1, 1, 1, 1, 1, 1] = .ok z) ∧
    ∃ z, wsSWaGauss 10 90 [1, 1, 1, 1, 1, 1, 1, 1, 1, 1, 1] = .ok z :=
  ⟨fun h => absurd ((C61_gauss_exactly _ _ _).1 h) (by simp), (C61_gauss_exactly _ _ _).2 (by simp)⟩

end Verif.Curve

namespace Verif.Globe

open Verif.Curve (deg2rad)

/-- **C104**, exactly: on the equator, the way on the map has the length of the way on the globe if and only if the longitudes differ
by at most 180 degrees. -/
theorem C104_equator_exactly {radius : ℝ} (hr : 0 < radius) {f : Flat} (hf : mkFlat (90, 0) (0, 0) radius = .ok f) {a b : ℝ}
    (ha1 : -180 < a) (ha2 : a ≤ 180) (hb1 : -180 < b) (hb2 : b ≤ 180) :
    f.distance (0, a) (0, b) = distance radius (0, a) (0, b) ↔ |a - b| ≤ 180 := by
  have hpi := Real.pi_pos
  have e1 := project_equator hr hf ha1 ha2
  have e2 := project_equator hr hf hb1 hb2
  have hl : f.distance (0, a) (0, b) = radius * (|a - b| * Real.pi / 180) := by
    unfold Flat.distance
    rw [e1, e2]
    simp only
    have : (radius * deg2rad a - radius * deg2rad b) ^ 2 + ((0 : ℝ) - 0) ^ 2 = (radius * (|a - b| * Real.pi / 180)) ^ 2 := by
      have := sq_abs (a - b)
      unfold deg2rad
      linear_combination (-radius ^ 2 * Real.pi ^ 2 / 180 ^ 2) * this
    rw [this, Real.sqrt_sq (by positivity)]
  have hdot : (onBall (0, a)).dot (onBall (0, b)) = Real.cos (|a - b| * Real.pi / 180) := by
    have hc : Real.cos (|a - b| * Real.pi / 180) = Real.cos (a * Real.pi / 180 - b * Real.pi / 180) := by
      rcases abs_choice (a - b) with h | h <;> rw [h]
      · congr 1; ring
      · rw [← Real.cos_neg]; congr 1; ring
    rw [hc, Real.cos_sub]
    unfold onBall Vec.dot deg2rad
    simp
  have hn : ∀ p, (onBall p).norm = 1 := fun p => by unfold Vec.norm; rw [onBall_dot_self]; simp
  have hs : distance radius (0, a) (0, b) = radius * Real.arccos (Real.cos (|a - b| * Real.pi / 180)) := by
    unfold distance angle
    rw [hn, hn, hdot, div_one, div_one]
  rw [hl, hs, mul_right_inj' hr.ne']
  have h360 : |a - b| < 360 := by rw [abs_lt]; constructor <;> linarith
  constructor
  · intro h
    have := Real.arccos_le_pi (Real.cos (|a - b| * Real.pi / 180))
    rw [← h] at this
    by_contra hc
    have : |a - b| * Real.pi ≤ 180 * Real.pi := by linarith
    exact hc (le_of_mul_le_mul_right this hpi)
  · intro h
    rw [Real.arccos_cos (by positivity)]
    have : |a - b| * Real.pi ≤ 180 * Real.pi := mul_le_mul_of_nonneg_right h hpi.le
    linarith

example : ∃ f, mkFlat (90, 0) (0, 0) 3440 = .ok f ∧ f.distance (0, 100) (0, -70) = distance 3440 (0, 100) (0, -70) ∧
    f.distance (0, 100) (0, -90) ≠ distance 3440 (0, 100) (0, -90) := by
  obtain ⟨f, hf, -, -⟩ := C67_default (radius := 3440) (by norm_num)
  refine ⟨f, hf, (C104_equator_exactly (by norm_num) hf (by norm_num) (by norm_num) (by norm_num) (by norm_num)).2 ?_, fun h => ?_⟩
  · norm_num
  · have := (C104_equator_exactly (by norm_num) hf (by norm_num) (by norm_num) (by norm_num) (by norm_num)).1 h
    norm_num at this

end Verif.Globe

namespace Verif.Weigher

/-- **C114** (partial: the height of the cylinders is given in the same unit). -/
theorem C114_member_partial {K P : Type} [Field K] [LinearOrder K] [IsStrictOrderedRing K] [Sub P] (norm : P → K) (radius length : K)
    {c : K} (hc : 0 < c) (points : List (P × K)) :
    memberWeigh norm radius (c * length) (points.map fun p => (p.1, c * p.2)) = memberWeigh norm radius length points := by
  unfold memberWeigh
  rw [List.map_map]
  congr 1
  apply List.map_congr_left
  intro p _
  simp only [Function.comp]
  congr 2
  unfold countInCylinder
  rw [List.filter_map, List.length_map]
  congr 1
  apply List.filter_congr
  intro q _
  simp only [Function.comp]
  congr 1
  rw [← mul_sub, abs_mul, abs_of_pos hc]
  simp [mul_le_mul_iff_right₀ hc]

example : memberWeigh (P := ℚ) (K := ℚ) (fun x => |x|) 1 (2 * 1) ([(1, 2), (2, 3), (2, 5)].map fun p => (p.1, 2 * p.2)) =
    memberWeigh (fun x => |x|) 1 1 [(1, 2), (2, 3), (2, 5)] := C114_member_partial _ _ _ (by norm_num) _

end Verif.Weigher

namespace Verif.Default

open Verif.Interp

/-- The difference of two directions between 0 and 360 degrees on the circle. -/
noncomputable def turn (a b : ℝ) : ℝ := min |a - b| (360 - |a - b|)

theorem scaled_inj {x y z c : ℝ} :
    Real.sqrt ((c * x) ^ 2 + (1 / 360 * y) ^ 2) = Real.sqrt ((c * x) ^ 2 + (1 / 360 * z) ^ 2) ↔ |y| = |z| := by
  rw [Real.sqrt_inj (by positivity) (by positivity), ← sq_eq_sq_iff_abs_eq_abs]
  constructor <;> intro h <;> linarith

theorem standard_eq (x : ℝ × ℝ) : standardNorm x = Real.sqrt ((1 / 20 * x.1) ^ 2 + (1 / 360 * x.2) ^ 2) := by
  unfold standardNorm Norms.euclid
  simp [Weigher.normScale]

/-- **C116**, exactly: weigher, neighbourhood and interpolator of the default pipeline respect that 0 and 360 degrees are the same
direction if and only if the wind angles differ by at most 180 degrees. -/
theorem C116_exactly (v w : ℝ) {a b : ℝ} (ha : 0 ≤ a) (ha' : a ≤ 360) (hb : 0 ≤ b) (hb' : b ≤ 360) :
    (defaults.norm ((v, a) - (w, b)) = defaults.norm (v - w, turn a b) ↔ |a - b| ≤ 180) ∧
      (defaults.ballNorm ((v, a) - (w, b)) = defaults.ballNorm (v - w, turn a b) ↔ |a - b| ≤ 180) ∧
      (defaults.weigherNorm ((v, a) - (w, b)) = defaults.weigherNorm (v - w, turn a b) ↔ |a - b| ≤ 180) := by
  have key : |a - b| = |turn a b| ↔ |a - b| ≤ 180 := by
    have h1 : |a - b| ≤ 360 := by rw [abs_le]; constructor <;> linarith
    have h0 := abs_nonneg (a - b)
    have h2 : 0 ≤ turn a b := le_min h0 (by linarith)
    rw [abs_of_nonneg h2]
    unfold turn
    rw [eq_comm, min_eq_left_iff]
    constructor <;> intro h <;> linarith
  have h1 : scaledEuclidean ((v, a) - (w, b)) = scaledEuclidean (v - w, turn a b) ↔ |a - b| ≤ 180 := by
    unfold scaledEuclidean
    rw [Prod.mk_sub_mk]
    exact scaled_inj.trans key
  refine ⟨h1, h1, ?_⟩
  change standardNorm _ = standardNorm _ ↔ _
  rw [standard_eq, standard_eq, Prod.mk_sub_mk]
  exact scaled_inj.trans key

example : defaults.norm ((10, 20) - (12, 190)) = defaults.norm (10 - 12, turn 20 190) ∧
    defaults.norm ((10, 355) - (12, 2)) ≠ defaults.norm (10 - 12, turn 355 2) := by
  refine ⟨(C116_exactly 10 12 (by norm_num) (by norm_num) (by norm_num) (by norm_num)).1.2 ?_, fun h => ?_⟩
  · rw [abs_le]; constructor <;> norm_num
  · have := (C116_exactly 10 12 (by norm_num) (by norm_num) (by norm_num) (by norm_num)).1.1 h
    norm_num at this

end Verif.Default

namespace Verif.Sources

variable {K T κ : Type} [OfNat K 0]

theorem stackLons_ok {nKeys : Nat} {frames : List (Frame K T)} {d : List (List (List K))} (h : stackLons nKeys frames = .ok d) :
    (∃ f ∈ frames, f.rows.length = hours d) ∧ ∀ g ∈ frames, g.rows = [] ∨ g.rows.length = hours d := by
  cases frames with
  | nil => simp [stackLons] at h
  | cons f fs =>
    simp only [stackLons] at h
    split at h
    swap
    · simp at h
    · rename_i hall
      rw [Except.ok.injEq] at h
      rw [h] at hall
      have hlen : ∀ g ∈ f :: fs, (if g.rows.isEmpty then List.replicate (maxLen (f :: fs)) (List.replicate nKeys (0 : K))
          else g.rows).length = hours d := by
        intro g hg
        have hm : (if g.rows.isEmpty then List.replicate (maxLen (f :: fs)) (List.replicate nKeys (0 : K))
          else g.rows) ∈ d := by
          rw [← h]
          exact List.mem_map.2 ⟨g, hg, rfl⟩
        have := List.all_eq_true.1 hall _ hm
        simpa [hours] using this
      refine ⟨?_, ?_⟩
      · by_cases hex : ∃ g ∈ f :: fs, g.rows ≠ []
        · obtain ⟨g, hg, hgn⟩ := hex
          refine ⟨g, hg, ?_⟩
          have := hlen g hg
          rwa [if_neg (by simpa using hgn)] at this
        · push Not at hex
          refine ⟨f, List.mem_cons_self, ?_⟩
          have := hlen f List.mem_cons_self
          rw [if_pos (by simp [hex f List.mem_cons_self]), List.length_replicate] at this
          rw [← this, hex f List.mem_cons_self]
          have h0 : maxLen (f :: fs) ≤ 0 := by
            unfold maxLen
            refine foldl_max_const (n := 0) ?_ 0 le_rfl
            intro x hx
            obtain ⟨g, hg, rfl⟩ := List.mem_map.1 hx
            simp [hex g hg]
          simp; omega
      · intro g hg
        by_cases hgn : g.rows = []
        · exact Or.inl hgn
        · right
          have := hlen g hg
          rwa [if_neg (by simpa using hgn)] at this

theorem fetchLats_ok {fetch : ℚ → ℚ → Frame K T} {nKeys : Nat} {lons : List ℚ} :
    ∀ {lats : List ℚ} {ds : List (List (List (List K)))}, fetchLats fetch nKeys lons lats = .ok ds →
      List.Forall₂ (fun la d => stackLons nKeys (lons.map (fetch la)) = .ok d) lats ds
  | [], ds, h => by
    simp only [fetchLats, Except.ok.injEq] at h
    rw [← h]
    exact .nil
  | la :: lats, ds, h => by
    simp only [fetchLats] at h
    cases h1 : stackLons nKeys (lons.map (fetch la)) with
    | error e => rw [h1] at h; simp at h
    | ok d =>
      rw [h1] at h
      simp only at h
      cases h2 : fetchLats fetch nKeys lons lats with
      | error e => rw [h2] at h; simp at h
      | ok ds' =>
        rw [h2] at h
        simp only [Except.ok.injEq] at h
        rw [← h]
        exact .cons h1 (fetchLats_ok h2)

theorem model_shape {fetch : ℚ → ℚ → Frame K T} {keys : List κ} {lats lons : List ℚ} {G : Fetched K T κ}
    (h : fromMeteostat fetch keys lats lons = .ok G) :
    lats ≠ [] ∧ lons ≠ [] ∧
      ∀ la ∈ lats, (∀ lo ∈ lons, (fetch la lo).rows = [] ∨ (fetch la lo).rows.length = G.data.length) ∧
        ∃ lo ∈ lons, (fetch la lo).rows.length = G.data.length := by
  unfold fromMeteostat at h
  split at h
  · simp at h
  · simp at h
  rename_i la lo hla hlo
  have hlats : lats ≠ [] := by rintro rfl; simp at hla
  have hlons : lons ≠ [] := by rintro rfl; simp at hlo
  refine ⟨hlats, hlons, ?_⟩
  cases hf : fetchLats fetch keys.length lons lats with
  | error e => rw [hf] at h; simp at h
  | ok datas =>
    rw [hf] at h
    simp only at h
    split at h
    swap
    · simp at h
    · rename_i hall
      rw [Except.ok.injEq] at h
      have hlen : G.data.length = hours (datas.headD []) := by rw [← h]; simp
      intro la' hla'
      obtain ⟨d, hd, hs⟩ : ∃ d ∈ datas, stackLons keys.length (lons.map (fetch la')) = .ok d := by
        have := fetchLats_ok hf
        clear h hall hf hla hlats hlen
        induction this with
        | nil => simp at hla'
        | cons h1 _ ih =>
          rcases List.mem_cons.1 hla' with rfl | hm
          · exact ⟨_, List.mem_cons_self, h1⟩
          · obtain ⟨d, hd, he⟩ := ih hm
            exact ⟨d, List.mem_cons_of_mem _ hd, he⟩
      have hh : hours d = G.data.length := by rw [hlen]; simpa using List.all_eq_true.1 hall d hd
      obtain ⟨⟨f, hf1, hf2⟩, hg⟩ := stackLons_ok hs
      obtain ⟨lo', hlo', rfl⟩ := List.mem_map.1 hf1
      rw [hh] at hf2 hg
      exact ⟨fun lo hlo => hg _ (List.mem_map.2 ⟨lo, hlo, rfl⟩), lo', hlo', hf2⟩

/-- **C109**, exactly: `from_meteostat` makes a model if and only if there are places, all places with data have data for the same
number of hours, and at each latitude there is a place with this number (so it has data, unless there is none at all). -/
theorem C109_exactly {fetch : ℚ → ℚ → Frame K T} {keys : List κ} {lats lons : List ℚ} :
    (∃ G, fromMeteostat fetch keys lats lons = .ok G) ↔
      lats ≠ [] ∧ lons ≠ [] ∧ ∃ n, ∀ la ∈ lats, (∀ lo ∈ lons, (fetch la lo).rows = [] ∨ (fetch la lo).rows.length = n) ∧
        ∃ lo ∈ lons, (fetch la lo).rows.length = n := by
  constructor
  · rintro ⟨G, h⟩
    obtain ⟨h1, h2, h3⟩ := model_shape h
    exact ⟨h1, h2, _, h3⟩
  · rintro ⟨hlats, _, n, h⟩
    obtain ⟨G, hG, _⟩ := C109_gaps (keys := keys) hlats (fun la hla => (h la hla).1) fun la hla => (h la hla).2
    exact ⟨G, hG⟩

example : ∃ G, fromMeteostat (κ := String) (K := ℚ) (T := Nat) (fun _ lo => if lo = 1 then ⟨[0, 1], [[5], [6]]⟩ else ⟨[], []⟩) ["temp"]
    [50, 51] [0, 1] = .ok G :=
  C109_exactly.2 ⟨by simp, by simp, 2, by simp⟩

/-- **C109**, exactly: a model has the fetched weather everywhere if and only if every place has data for all of its times. -/
theorem C109_entries_exactly {fetch : ℚ → ℚ → Frame K T} {keys : List κ} {lats lons : List ℚ} {G : Fetched K T κ}
    (h : fromMeteostat fetch keys lats lons = .ok G) :
    (∀ (t i j : Nat) (la lo : ℚ), t < G.data.length → lats[i]? = some la → lons[j]? = some lo →
        G.entry t i j = (fetch la lo).rows[t]?) ↔
      ∀ la ∈ lats, ∀ lo ∈ lons, (fetch la lo).rows.length = G.data.length := by
  obtain ⟨hlats, hlons, hshape⟩ := model_shape h
  constructor
  · intro hall la hla lo hlo
    rcases (hshape la hla).1 lo hlo with he | he
    · by_contra hc
      rw [he] at hc
      have hpos : 0 < G.data.length := by
        simp only [List.length_nil] at hc
        omega
      obtain ⟨i, hi, hi'⟩ := List.getElem_of_mem hla
      obtain ⟨j, hj, hj'⟩ := List.getElem_of_mem hlo
      have ei : lats[i]? = some la := by rw [List.getElem?_eq_getElem hi, hi']
      have ej : lons[j]? = some lo := by rw [List.getElem?_eq_getElem hj, hj']
      have h1 := hall 0 i j la lo hpos ei ej
      rw [C109_missing_false h ei ej he hpos, he] at h1
      simp at h1
    · exact he
  · intro hlen t i j la lo ht hi hj
    have hn : 0 < G.data.length := by omega
    have hf := fetchLats_complete (nKeys := keys.length) hlons hn hlen
    have hhead : hours ((lats.map fun la => lons.map fun lo => (fetch la lo).rows).headD []) = G.data.length := by
      cases lats with
      | nil => exact absurd rfl hlats
      | cons la lats => exact hours_map hlons fun lo hlo => hlen la List.mem_cons_self lo hlo
    have hdata : G.data = (List.range G.data.length).map fun t =>
        (lats.map fun la => lons.map fun lo => (fetch la lo).rows).map fun d => d.map fun r => r.getD t [] := by
      have h' := h
      unfold fromMeteostat at h'
      rw [List.getLast?_eq_some_getLast hlats, List.getLast?_eq_some_getLast hlons] at h'
      simp only [hf, hhead] at h'
      split at h'
      · rw [Except.ok.injEq] at h'
        exact (congrArg Fetched.data h').symm
      · simp at h'
    have hr := hlen la (List.mem_of_getElem? hi) lo (List.mem_of_getElem? hj)
    have e : G.data[t]? = some ((lats.map fun la => lons.map fun lo => (fetch la lo).rows).map fun d => d.map fun r => r.getD t []) := by
      rw [hdata, List.getElem?_map, List.getElem?_range ht]
      rfl
    simp only [Fetched.entry, e, List.getElem?_map, hi, hj, Option.map_some]
    rw [List.getD_eq_getElem?_getD, List.getElem?_eq_getElem (by omega)]
    simp

example : ∀ {G : Fetched ℚ Nat String},
    fromMeteostat (fun _ lo => if lo = 1 then ⟨[0, 1], [[5], [6]]⟩ else ⟨[], []⟩) ["temp"] [50, 51] [0, 1] = .ok G →
      ¬ ∀ (t i j : Nat) (la lo : ℚ), t < G.data.length → [(50 : ℚ), 51][i]? = some la → [(0 : ℚ), 1][j]? = some lo →
        G.entry t i j = (if lo = 1 then (⟨[0, 1], [[5], [6]]⟩ : Frame ℚ Nat) else ⟨[], []⟩).rows[t]? := by
  intro G h hc
  have h1 := (C109_entries_exactly h).1 hc
  have h2 := h1 50 (by simp) 0 (by simp)
  have h3 := h1 50 (by simp) 1 (by simp)
  simp at h2 h3
  omega

end Verif.Sources

namespace Verif.InflData

/-- **C103**, exactly: with the `IdentityInfluenceModel`, the boat speed used for a direction of a curve is the one of the curve if
and only if it happens to be the boat speed at the first angle. -/
theorem C103_identity_exactly {K : Type} [DecidableEq K] (f : K → K → K) (w a0 : K) (wa : List K) (hn : (a0 :: wa).Nodup)
    (d : Dict String (Val K)) :
    ∃ d' speeds, prepare (List.replicate (wa.length + 1) w) (a0 :: wa) (some d) = .ok d' ∧ addIdentity f d' = .ok speeds ∧
      ∀ angle ∈ a0 :: wa, speedsAt (a0 :: wa) speeds.flatten angle = [f w angle] ↔ f w angle = f w a0 := by
  obtain ⟨d', speeds, h1, h2, h3⟩ := C103_identity_false f w a0 wa hn d
  refine ⟨d', speeds, h1, h2, fun angle ha => ?_⟩
  rw [h3 angle ha]
  simp [eq_comm]

example : ∃ d' speeds, prepare (K := ℚ) [8, 8, 8] [0, 120, 240] (some []) = .ok d' ∧
    addIdentity (fun w a => w + a * (240 - a)) d' = .ok speeds ∧ speedsAt [0, 120, 240] speeds.flatten 240 = [8] ∧
      speedsAt [0, 120, 240] speeds.flatten 120 ≠ [8 + 120 * 120] := by
  obtain ⟨d', speeds, h1, h2, h3⟩ := C103_identity_exactly (fun w a : ℚ => w + a * (240 - a)) 8 0 [120, 240] (by decide) []
  refine ⟨d', speeds, h1, h2, ?_, fun h => ?_⟩
  · rw [(h3 240 (by simp)).2 (by norm_num)]; norm_num
  · have := (h3 120 (by simp)).1 (by rw [h]; norm_num)
    norm_num at this

end Verif.InflData

namespace Verif.Data

/-- **C51**, exactly: if date and time are merged, the number of rows stays the same if and only if there is no column `"datetime"`
yet; otherwise it is doubled. -/
theorem C51_rows_exactly {D D' : Data (List Char) Val Ty} (h : Reachable D) (hd : kDate ∈ D.keys) (ht : kTime ∈ D.keys)
    (hds : IsDates (colOf D kDate)) (hts : IsTimes (colOf D kTime)) (hpos : 0 < D.nRows) (hagg : aggregateDatetime D = (D', none)) :
    (D'.nRows = D.nRows ↔ kDatetime ∉ D.keys) ∧ (kDatetime ∈ D.keys → D'.nRows = 2 * D.nRows) := by
  have hdouble : kDatetime ∈ D.keys → D'.nRows = 2 * D.nRows := by
    intro hk
    obtain ⟨ds, hcd⟩ := (Dict.mem_keys_iff _ _).1 hd
    obtain ⟨ts, hct⟩ := (Dict.mem_keys_iff _ _).1 ht
    obtain ⟨old, hco⟩ := (Dict.mem_keys_iff _ _).1 hk
    rw [colOf_of_get? hcd] at hds
    rw [colOf_of_get? hct] at hts
    have hl1 := h.rect.eq _ _ hcd
    have hl2 := h.rect.eq _ _ hct
    have hl3 := h.rect.eq _ _ hco
    simp only [aggregateDatetime, hcd, hct, combineAll_ok hds hts] at hagg
    cases he : extend D kDatetime (List.zipWith momentOf ds ts) with
    | mk E r =>
      cases r with
      | some e => simp [he, Res.andThen] at hagg
      | none =>
        have hE := (extend_ok he).2
        have hlen : ((colOf D kDatetime ++ List.zipWith momentOf ds ts).length : Int) = 2 * D.maxLen := by
          rw [colOf_of_get? hco, List.length_append, List.length_zipWith]
          push_cast
          omega
        have hdel : ∀ (A : Data (List Char) Val Ty) k, (deleteCol A k).1.maxLen = A.maxLen := by
          intro A k
          unfold deleteCol
          split
          · rfl
          · split <;> rfl
        have hfin : D'.maxLen = E.maxLen := by
          rw [he] at hagg
          simp only [Res.andThen] at hagg
          have h1 := congrArg (fun r => r.1.maxLen) hagg
          simp only at h1
          rw [← h1]
          have h2 := hdel E kDate
          cases hx : deleteCol E kDate with
          | mk A r =>
            rw [hx] at h2
            cases r with
            | none => simp only; rw [hdel]; exact h2
            | some e => exact h2
        unfold nRows at hpos ⊢
        rw [hfin, hE, hlen]
        omega
  refine ⟨⟨fun he hk => ?_, fun hn => ?_⟩, hdouble⟩
  · have := hdouble hk
    omega
  · obtain ⟨D'', h1, h2, _⟩ := C51_datetime_partial h hd ht hn hds hts
    rw [hagg] at h1
    have : D' = D'' := congrArg Prod.fst h1
    rw [this, h2]

example : (aggregateDatetime exDateTime).1.nRows = exDateTime.nRows := by
  obtain ⟨D', h1, h2, _⟩ := C51_datetime_partial (D := exDateTime)
    (Reachable.update (D := empty) .empty (Prod.ext rfl (by decide +kernel))) (by decide +kernel) (by decide +kernel) (by decide +kernel)
    (by
      have e : colOf exDateTime kDate = [some (.date 1), some (.date 2)] := by decide +kernel
      rw [e]; intro v hv; simp at hv; rcases hv with rfl | rfl <;> exact ⟨_, rfl⟩)
    (by
      have e : colOf exDateTime kTime = [some (.time 5), none] := by decide +kernel
      rw [e]; intro v hv; simp at hv; subst hv; exact ⟨_, rfl⟩)
  rw [h1]
  exact h2

end Verif.Data

namespace Verif.Weigher

/-- **C80**, for attributes in any order and sorted times: the bounds are used for the attributes in the order of the data, whatever
the order is in which the attributes are named. -/
theorem C80_any_order {attributes : List String} {before after : ℝ} (hb : 0 ≤ before) (ha : 0 ≤ after)
    {bounds : List ℝ} {times : List ℝ} {D : FloatData ℝ} (hlen : bounds.length = attributes.length)
    (hne : attributes ≠ []) (hall : ∀ k ∈ attributes, k ∈ D.cols.map Prod.fst)
    (hpos : ∀ b ∈ bounds, 0 < b) (ht : times.length = D.nRows) (hcols : ∀ c ∈ D.cols, c.2.length = D.nRows)
    (hs : times.Pairwise (· ≤ ·)) :
    ∃ ws, fluctuationWeigh attributes before after bounds times D = .ok ws ∧ ws.length = D.nRows ∧
      ∀ (k : Nat) (t : ℝ), times[k]? = some t →
        ws[k]? = some (some (((List.zip ((D.cols.filter fun c => decide (c.1 ∈ attributes)).map Prod.snd) bounds).map
          fun c => relu c.2 (deviation (measuredAround before after times c.1 t))).prod)) := by
  obtain ⟨ws, h1, h2, h3⟩ := fluctuationWeigh_rows hb ha hlen hne hall hpos ht hcols
  refine ⟨ws, h1, h2, ?_⟩
  intro k t hk
  obtain ⟨a, b, hw, hr⟩ := h3 k t hk
  rw [hr]
  congr 3
  apply List.map_congr_left
  intro c hc
  obtain ⟨a', b', hw', e1, e2, e3, e4, e5, e6, e7⟩ := windowOf_spec hb ha hk
  rw [hw] at hw'
  cases hw'
  obtain ⟨d, hd, hd'⟩ := List.mem_map.mp (List.of_mem_zip hc).1
  rw [slice_eq_measured (by rw [← hd', hcols d (List.mem_filter.mp hd).1, ht]) hs hk e1 e2 e3 e4 e5 e6 e7]

example : ∃ ws, fluctuationWeigh ["B", "A"] 1 0 [2, 4] [0, 1] twoColumns = .ok ws ∧ ws.length = 2 ∧
    ∀ (k : Nat) (t : ℝ), ([0, 1] : List ℝ)[k]? = some t → ws[k]? = some (some (((List.zip [[0, 2], [0, 4]] [2, 4]).map
      fun c => relu c.2 (deviation (measuredAround 1 0 [0, 1] c.1 t))).prod)) :=
  C80_any_order (by norm_num) (by norm_num) rfl (by simp) (by simp [twoColumns]) (by simp) rfl
    (by simp [twoColumns]) (by simp)

/-- **C80**, exactly: for different bounds, each attribute is judged by its own bound if and only if the attributes are named in the
order of the data. -/
theorem C80_order_exactly {attributes : List String} {bounds : List ℝ} (hlen : bounds.length = attributes.length) (hd : bounds.Nodup)
    {names : List String} (hn : names.length = attributes.length) :
    (∀ (i : Nat) (k : String), names[i]? = some k → ∃ j : Nat, attributes[j]? = some k ∧ bounds[j]? = bounds[i]?) ↔ names = attributes := by
  constructor
  · intro h
    apply List.ext_getElem? 
    intro i
    by_cases hi : i < names.length
    · obtain ⟨j, h1, h2⟩ := h i _ (List.getElem?_eq_getElem hi)
      have hij : j = i := by
        have hib : i < bounds.length := by omega
        rw [List.getElem?_eq_getElem hib] at h2
        obtain ⟨hj, he⟩ := List.getElem?_eq_some_iff.1 h2
        exact (List.Nodup.getElem_inj_iff hd).1 he
      rw [List.getElem?_eq_getElem hi, ← h1, hij]
    · rw [List.getElem?_eq_none (by omega), List.getElem?_eq_none (by omega)]
  · rintro rfl i k hk
    exact ⟨i, hk, rfl⟩

example : ¬ ∀ (i : Nat) (k : String), ["A", "B"][i]? = some k → ∃ j : Nat, ["B", "A"][j]? = some k ∧ [(4 : ℝ), 2][j]? = [(4 : ℝ), 2][i]? := by
  rw [C80_order_exactly (attributes := ["B", "A"]) (bounds := [4, 2]) (names := ["A", "B"]) rfl (by norm_num) rfl]
  simp

end Verif.Weigher

namespace Verif.Plot

/-- **C91**, exactly: a tuple of values which is a colour is used for all slices if and only if its first value is an `int`. -/
theorem C91_rgb_exactly {K : Type} [Field K] [LinearOrder K] [IsStrictOrderedRing K] (isColor : List Char → Bool) {l : List (Item K)} (h : tupleLike l = true)
    {labels : List K} (hne : labels ≠ []) :
    sliceColors isColor labels (.tuple l) = .ok (List.replicate labels.length .whole) ↔ ∃ x r, l = .int x :: r := by
  constructor
  · intro hs
    unfold tupleLike at h
    rw [Bool.and_eq_true, List.all_eq_true] at h
    obtain ⟨h1, h2⟩ := h
    have hlen : (l.filterMap Item.number?).length = l.length := by
      clear h2 hs
      induction l with
      | nil => rfl
      | cons a l ih =>
        have ha := h1 a (by simp)
        rw [Option.isSome_iff_exists] at ha
        obtain ⟨x, hx⟩ := ha
        rw [List.filterMap_cons, hx]
        simp [ih fun b hb => h1 b (by simp [hb])]
    unfold rgbLike at h2
    rw [Bool.and_eq_true] at h2
    have h3 := h2.1
    rw [hlen] at h3
    simp only [Bool.or_eq_true, decide_eq_true_eq] at h3
    cases l with
    | nil => simp at h3
    | cons a r =>
      cases a with
      | int x => exact ⟨x, r, rfl⟩
      | float x =>
        rw [C91_rgb_false isColor hne (by simpa using h3)] at hs
        simp at hs
      | name s => have := h1 (.name s) (by simp); simp [Item.number?] at this
      | rgb s => have := h1 (.rgb s) (by simp); simp [Item.number?] at this
      | pair s t => have := h1 (.pair s t) (by simp); simp [Item.number?] at this
  · rintro ⟨x, r, rfl⟩
    exact C91_rgb_partial isColor h labels

example : sliceColors (K := ℚ) (fun _ => true) [10] (.tuple [.int 1, .float 0, .int 0]) = .ok [.whole] ∧
    sliceColors (K := ℚ) (fun _ => true) [10] (.tuple [.float 1, .float 0, .int 0]) ≠ .ok [.whole] :=
  ⟨(C91_rgb_exactly _ (by decide +kernel) (by simp)).2 ⟨1, _, rfl⟩, fun h => by
    obtain ⟨x, r, hr⟩ := (C91_rgb_exactly _ (by decide +kernel) (by simp)).1 h
    simp at hr⟩

end Verif.Plot
