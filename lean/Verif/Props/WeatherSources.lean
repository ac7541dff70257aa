import Verif.Model.WeatherSources
import Mathlib.Tactic.Linarith
import Mathlib.Tactic.NormNum
import Mathlib.Tactic.Ring

/-!
# Properties C108 (times and attributes of NetCDF files) and C109 (weather of meteostat)
-/

namespace Verif.Sources

set_option linter.unusedSectionVars false

open Verif.Weather (Gridded interpolate anyOutside outside)

/-! ## C108 -/

/-- `strptime` accepts the string with one of the formats, the first one being tried first. -/
def Accepted (strptime : List Char → Fmt → Option ℚ) (s : List Char) (t : ℚ) : Prop :=
  strptime s .minutes = some t ∨ (strptime s .minutes = none ∧ strptime s .seconds = some t)

theorem startTime_ok {strptime s t} (h : Accepted strptime s t) : startTime strptime s = .ok t := by
  unfold startTime
  rcases h with h | ⟨h1, h2⟩
  · rw [h]
  · rw [h1, h2]

theorem isPrefixOf_append (p s : List Char) : p.isPrefixOf (p ++ s) = true := by
  rw [List.isPrefixOf_iff_prefix]
  exact List.prefix_append p s

theorem unit_hours (s : List Char) : unit (hoursSince ++ s) = .ok (3600, s) := by
  unfold unit
  rw [if_pos (isPrefixOf_append _ _)]
  rfl

theorem unit_seconds (s : List Char) : unit (secondsSince ++ s) = .ok (1, s) := by
  unfold unit
  rw [if_neg, if_pos (isPrefixOf_append _ _)]
  · rfl
  · simp [hoursSince, secondsSince]

theorem truncate_int (n : ℤ) : truncate (n : ℚ) = n := by
  unfold truncate
  split <;> simp

/-- **C108** (partial: whole hours resp. seconds). The times of the grid are the given number of hours resp. seconds after the
given date, in the order of the file. -/
theorem C108_times_partial {strptime : List Char → Fmt → Option ℚ} {s : List Char} {start : ℚ} (h : Accepted strptime s start)
    (plain : List ℤ) :
    netTimes strptime ("hours since ".toList ++ s) (plain.map fun (n : ℤ) => (n : ℚ)) =
      .ok (plain.map fun (n : ℤ) => start + 60 * 60 * n) ∧
    netTimes strptime ("seconds since ".toList ++ s) (plain.map fun (n : ℤ) => (n : ℚ)) =
      .ok (plain.map fun (n : ℤ) => start + n) := by
  have e1 : "hours since ".toList = hoursSince := by decide +kernel
  have e2 : "seconds since ".toList = secondsSince := by decide +kernel
  rw [e1, e2]
  constructor
  · unfold netTimes
    rw [unit_hours]
    simp only [startTime_ok h, List.map_map]
    congr 1
    apply List.map_congr_left
    intro n _
    simp only [Function.comp, truncate_int]
    ring
  · unfold netTimes
    rw [unit_seconds]
    simp only [startTime_ok h, List.map_map]
    congr 1
    apply List.map_congr_left
    intro n _
    simp only [Function.comp, truncate_int]
    ring

/-- **C108 is false** for fractions: they are cut off, so all times within the same hour become the same time. -/
theorem C108_fraction_false {strptime : List Char → Fmt → Option ℚ} {s : List Char} {start : ℚ} (h : Accepted strptime s start)
    {n : ℕ} {x : ℚ} (h1 : (n : ℚ) ≤ x) (h2 : x < n + 1) :
    netTimes strptime ("hours since ".toList ++ s) [(n : ℚ), x] = .ok [start + 3600 * n, start + 3600 * n] := by
  have e1 : "hours since ".toList = hoursSince := by decide +kernel
  have hx : truncate x = n := by
    unfold truncate
    rw [if_pos (le_trans (by positivity) h1), Int.floor_eq_iff]
    exact ⟨by exact_mod_cast h1, by exact_mod_cast h2⟩
  rw [e1]
  unfold netTimes
  rw [unit_hours]
  simp only [startTime_ok h, List.map_cons, List.map_nil, hx]
  have : truncate (n : ℚ) = n := by exact_mod_cast truncate_int (n : ℤ)
  rw [this]
  push_cast
  congr 2
  · ring
  · congr 1
    ring

/-- **C108 is false** for times before the given date: half an hour before it becomes the date itself. -/
theorem C108_before_false {strptime : List Char → Fmt → Option ℚ} {s : List Char} {start : ℚ} (h : Accepted strptime s start) :
    netTimes strptime ("hours since ".toList ++ s) [-1 / 2, 1 / 2] = .ok [start, start] := by
  have e1 : "hours since ".toList = hoursSince := by decide +kernel
  rw [e1]
  unfold netTimes
  rw [unit_hours]
  have t1 : truncate (-1 / 2) = 0 := by decide +kernel
  have t2 : truncate (1 / 2) = 0 := by decide +kernel
  simp only [startTime_ok h, List.map_cons, List.map_nil, t1, t2]
  simp

/-- **C108 is false** for other units and other date formats: they raise `NotImplementedError`. -/
theorem C108_units_false (strptime : List Char → Fmt → Option ℚ) (plain : List ℚ) :
    (∀ units, ¬ "hours since ".toList <+: units → ¬ "seconds since ".toList <+: units →
      netTimes strptime units plain = .error .otherError) ∧
    (∀ s, strptime s .minutes = none → strptime s .seconds = none →
      netTimes strptime ("hours since ".toList ++ s) plain = .error .otherError ∧
      netTimes strptime ("seconds since ".toList ++ s) plain = .error .otherError) := by
  have e1 : "hours since ".toList = hoursSince := by decide +kernel
  have e2 : "seconds since ".toList = secondsSince := by decide +kernel
  rw [e1, e2]
  constructor
  · intro units h1 h2
    unfold netTimes unit
    rw [if_neg, if_neg]
    · rw [List.isPrefixOf_iff_prefix]; exact h2
    · rw [List.isPrefixOf_iff_prefix]; exact h1
  · intro s h1 h2
    unfold netTimes startTime
    rw [unit_hours, unit_seconds]
    simp only [h1, h2, and_self]

/-- For instance days, minutes, and units that begin with an upper-case letter. -/
example : ¬ "hours since ".toList <+: "days since 2020-01-01 00:00".toList ∧
    ¬ "seconds since ".toList <+: "minutes since 2020-01-01 00:00".toList ∧
    ¬ "hours since ".toList <+: "Hours since 2020-01-01 00:00".toList := by
  simp only [← List.isPrefixOf_iff_prefix]
  decide +kernel

/-- **C108 is false** for files with descending times: in contrast to latitudes and longitudes they are not reversed, and
then every point is outside of the grid. -/
theorem C108_descending_false {κ : Type} {G : Gridded κ ℚ} {first last : ℚ} (h1 : G.times.head? = some first)
    (h2 : G.times.getLast? = some last) (hlt : last < first) (hla : G.lats ≠ []) (hlo : G.lons ≠ []) (t la lo : ℚ) :
    interpolate G t la lo = .error .valueError := by
  have ht : outside G.times t = .ok true := by
    unfold outside
    rw [h1, h2]
    simp only [Except.ok.injEq, Bool.or_eq_true, decide_eq_true_eq]
    by_cases h : t < first
    · exact Or.inl h
    · exact Or.inr (lt_of_lt_of_le hlt (not_lt.1 h))
  have hb : ∀ {g : List ℚ}, g ≠ [] → ∀ x, ∃ b, outside g x = .ok b := by
    intro g hg x
    unfold outside
    rw [List.head?_eq_some_head hg, List.getLast?_eq_some_getLast hg]
    exact ⟨_, rfl⟩
  obtain ⟨b, hb1⟩ := hb hla la
  obtain ⟨c, hc1⟩ := hb hlo lo
  unfold interpolate anyOutside
  rw [ht, hb1, hc1]
  simp

/-- E.g. hours 2, 1, 0 of a file. -/
example : netTimes (fun _ _ => some 0) ("hours since ".toList ++ "2020-01-01 00:00".toList) [2, 1, 0] = .ok [7200, 3600, 0] ∧
    interpolate (⟨[7200, 3600, 0], [50, 52], [1, 3], ["TWS"], []⟩ : Gridded String ℚ) 1800 51 2 = .error .valueError := by
  decide +kernel

/-- **C108**: the attributes are the variables of the file except for time, latitude and longitude, each as often as in the
file. -/
theorem C108_attrs {κ : Type} [DecidableEq κ] (aliases vars : List κ) :
    (netAttrs aliases vars).Sublist vars ∧ (∀ v ∈ aliases, v ∉ netAttrs aliases vars) ∧
      ∀ v, v ∉ aliases → (netAttrs aliases vars).count v = vars.count v := by
  unfold netAttrs
  refine ⟨List.filter_sublist, ?_, ?_⟩
  · intro v hv hm
    rw [List.mem_filter] at hm
    simp [hv] at hm
  · intro v hv
    rw [List.count_filter]
    simp [hv]

example : netAttrs ["latitude", "longitude", "time"] ["longitude", "latitude", "time", "u10", "v10"] = ["u10", "v10"] := by
  decide +kernel

/-! ## C109 -/

variable {K T κ : Type} [OfNat K 0]

theorem foldl_max_const {n : Nat} : ∀ {l : List Nat}, (∀ x ∈ l, x = n) → ∀ a ≤ n, l.foldl max a ≤ n
  | [], _, a, ha => ha
  | x :: l, h, a, ha => by
    rw [List.foldl_cons]
    exact foldl_max_const (fun y hy => h y (List.mem_cons_of_mem _ hy)) _ (by rw [h x List.mem_cons_self]; omega)

theorem stackLons_complete (nKeys : Nat) {frames : List (Frame K T)} (hne : frames ≠ []) {n : Nat} (hn : 0 < n)
    (h : ∀ f ∈ frames, f.rows.length = n) : stackLons nKeys frames = .ok (frames.map (·.rows)) := by
  cases frames with
  | nil => exact absurd rfl hne
  | cons f fs =>
    have hfill : (f :: fs).map (fun g => if g.rows.isEmpty then List.replicate (maxLen (f :: fs)) (List.replicate nKeys (0 : K))
        else g.rows) = (f :: fs).map (·.rows) := by
      apply List.map_congr_left
      intro g hg
      have := h g hg
      rw [if_neg]
      rw [List.isEmpty_iff]
      intro he
      rw [he] at this
      simp at this
      omega
    simp only [stackLons]
    rw [hfill, if_pos]
    rw [List.all_eq_true]
    intro d hd
    obtain ⟨g, hg, rfl⟩ := List.mem_map.1 hd
    simp only [List.map_cons, List.headD_cons, beq_iff_eq]
    rw [h g hg, h f List.mem_cons_self]

theorem fetchLats_complete {fetch : ℚ → ℚ → Frame K T} (nKeys : Nat) {lons : List ℚ} (hlons : lons ≠ []) {n : Nat} (hn : 0 < n) :
    ∀ {lats : List ℚ}, (∀ la ∈ lats, ∀ lo ∈ lons, (fetch la lo).rows.length = n) →
      fetchLats fetch nKeys lons lats = .ok (lats.map fun la => lons.map fun lo => (fetch la lo).rows)
  | [], _ => rfl
  | la :: lats, h => by
    simp only [fetchLats]
    rw [stackLons_complete nKeys (by simpa using hlons) hn, fetchLats_complete nKeys hlons hn fun l hl => h l (List.mem_cons_of_mem _ hl)]
    · simp [List.map_map, Function.comp_def]
    · intro f hf
      obtain ⟨lo, hlo, rfl⟩ := List.mem_map.1 hf
      exact h la List.mem_cons_self lo hlo

/-- The entry of the data for a time, a latitude and a longitude. -/
def Fetched.entry (G : Fetched K T κ) (t i j : Nat) : Option (List K) :=
  match G.data[t]? with
  | some a =>
    match a[i]? with
    | some b => b[j]?
    | none => none
  | none => none

theorem hours_map {lons : List ℚ} (hlons : lons ≠ []) {n : Nat} {rows : ℚ → List (List K)} (h : ∀ lo ∈ lons, (rows lo).length = n) :
    hours (lons.map rows) = n := by
  cases lons with
  | nil => exact absurd rfl hlons
  | cons lo lons => simpa [hours] using h lo List.mem_cons_self

/-- **C109** (partial: all stations have data for the same hours, at least one). The model has the given latitudes,
longitudes and keys, the times of the stations, and at each time and place the weather of the station there at that time. -/
theorem C109_complete_partial {fetch : ℚ → ℚ → Frame K T} (keys : List κ) {lats lons : List ℚ} (hlats : lats ≠ []) (hlons : lons ≠ [])
    {times : List T} (hne : times ≠ []) (ht : ∀ la ∈ lats, ∀ lo ∈ lons, (fetch la lo).times = times ∧ (fetch la lo).rows.length = times.length) :
    ∃ G, fromMeteostat fetch keys lats lons = .ok G ∧ G.times = times ∧ G.lats = lats ∧ G.lons = lons ∧ G.attrs = keys ∧
      G.data.length = times.length ∧
      ∀ (t i j : Nat) (la lo : ℚ), t < times.length → lats[i]? = some la → lons[j]? = some lo →
        G.entry t i j = (fetch la lo).rows[t]? := by
  have hn : 0 < times.length := List.length_pos_iff.2 hne
  have hf := fetchLats_complete (nKeys := keys.length) hlons hn (lats := lats) fun la hla lo hlo => (ht la hla lo hlo).2
  have hhours : ∀ la ∈ lats, hours (lons.map fun lo => (fetch la lo).rows) = times.length := fun la hla =>
    hours_map hlons fun lo hlo => (ht la hla lo hlo).2
  have hhead : hours ((lats.map fun la => lons.map fun lo => (fetch la lo).rows).headD []) = times.length := by
    cases lats with
    | nil => exact absurd rfl hlats
    | cons la lats => exact hhours la List.mem_cons_self
  have hlast := ht _ (List.getLast_mem hlats) _ (List.getLast_mem hlons)
  have hG : fromMeteostat fetch keys lats lons = .ok ⟨times, lats, lons, keys,
      (List.range times.length).map fun t => (lats.map fun la => lons.map fun lo => (fetch la lo).rows).map fun d =>
        d.map fun r => r.getD t []⟩ := by
    unfold fromMeteostat
    rw [List.getLast?_eq_some_getLast hlats, List.getLast?_eq_some_getLast hlons]
    simp only [hf, hhead, hlast.1]
    rw [if_pos]
    rw [List.all_eq_true]
    intro d hd
    obtain ⟨la, hla, rfl⟩ := List.mem_map.1 hd
    simpa using hhours la hla
  refine ⟨_, hG, rfl, rfl, rfl, rfl, by simp, ?_⟩
  intro t i j la lo h1 h2 h3
  have hr : (fetch la lo).rows.length = times.length := (ht la (List.mem_of_getElem? h2) lo (List.mem_of_getElem? h3)).2
  simp only [Fetched.entry, List.getElem?_map, List.getElem?_range h1, h2, h3, Option.map_some]
  rw [List.getD_eq_getElem?_getD, List.getElem?_eq_getElem (by omega)]
  simp

/-- **C109 is false** for places without data: there the weather is 0, if other places of the latitude have data. -/
theorem C109_missing_false {fetch : ℚ → ℚ → Frame K T} {keys : List κ} {lats lons : List ℚ} {G : Fetched K T κ}
    (h : fromMeteostat fetch keys lats lons = .ok G) {t i j : Nat} {la lo : ℚ} (hi : lats[i]? = some la) (hj : lons[j]? = some lo)
    (hempty : (fetch la lo).rows = []) (ht : t < G.data.length) : G.entry t i j = some (List.replicate keys.length 0) := by
  unfold fromMeteostat at h
  split at h
  · simp at h
  · simp at h
  · rename_i la' lo' _ _
    cases hf : fetchLats fetch keys.length lons lats with
    | error e => rw [hf] at h; simp at h
    | ok datas =>
      rw [hf] at h
      simp only at h
      split at h
      · rename_i hall
        simp only [Except.ok.injEq] at h
        subst h
        simp only [List.length_map, List.length_range] at ht
        have key : ∀ (lats : List ℚ) (datas : List (List (List (List K)))) (i : Nat), fetchLats fetch keys.length lons lats = .ok datas →
            lats[i]? = some la → ∃ d, datas[i]? = some d ∧ stackLons keys.length (lons.map (fetch la)) = .ok d := by
          intro lats
          induction lats with
          | nil => intro datas i _ hi; simp at hi
          | cons l lats ih =>
            intro datas i hd hi
            simp only [fetchLats] at hd
            cases hs : stackLons keys.length (lons.map (fetch l)) with
            | error e => rw [hs] at hd; simp at hd
            | ok d =>
              rw [hs] at hd
              cases hr : fetchLats fetch keys.length lons lats with
              | error e => rw [hr] at hd; simp at hd
              | ok ds =>
                rw [hr] at hd
                simp only [Except.ok.injEq] at hd
                subst hd
                cases i with
                | zero =>
                  simp only [List.getElem?_cons_zero, Option.some.injEq] at hi
                  subst hi
                  exact ⟨d, rfl, hs⟩
                | succ i =>
                  simp only [List.getElem?_cons_succ] at hi ⊢
                  exact ih ds i hr hi
        obtain ⟨d, hd, hs⟩ := key lats datas i hf hi
        -- the entry of the station is filled with zeros
        have hfill : ∃ m, d[j]? = some (List.replicate m (List.replicate keys.length 0)) ∧ hours d = m := by
          unfold stackLons at hs
          split at hs
          · simp at hs
          · simp only at hs
            split at hs
            · rename_i hall2
              simp only [Except.ok.injEq] at hs
              subst hs
              refine ⟨maxLen (lons.map (fetch la)), by rw [List.getElem?_map, List.getElem?_map, hj]; simp [hempty], ?_⟩
              rw [List.all_eq_true] at hall2
              have := hall2 (List.replicate (maxLen (lons.map (fetch la))) (List.replicate keys.length 0))
                (List.mem_of_getElem? (i := j) (by rw [List.getElem?_map, List.getElem?_map, hj]; simp [hempty]))
              simp only [List.length_replicate, beq_iff_eq] at this
              unfold hours
              exact this.symm
            · simp at hs
        obtain ⟨m, hm, hh⟩ := hfill
        rw [List.all_eq_true] at hall
        have hd2 := hall d (List.mem_of_getElem? hd)
        simp only [beq_iff_eq] at hd2
        simp only [Fetched.entry, List.getElem?_map, List.getElem?_range ht, hd, hm, Option.map_some]
        have hlt : t < m := by omega
        simp [hlt]
      · simp at h

/-- A place without data next to one with data, and a last place without data: then there are no times. -/
example : fromMeteostat (fun _ lo => if lo = 1 then ⟨[100, 200], [[5], [6]]⟩ else ⟨[], []⟩) ["wspd"] [50] [1, 2] =
    .ok (⟨([] : List ℚ), [50], [1, 2], ["wspd"], [[[[5], [0]]], [[[6], [(0 : ℚ)]]]]⟩ : Fetched ℚ ℚ String) := by decide +kernel

theorem foldl_max_eq {l : List Nat} {n : Nat} (h : ∀ x ∈ l, x = 0 ∨ x = n) (hn : n ∈ l) : l.foldl max 0 = n := by
  have hle : ∀ (l : List Nat) (a : Nat), a ≤ n → (∀ x ∈ l, x = 0 ∨ x = n) → l.foldl max a ≤ n := by
    intro l
    induction l with
    | nil => intro a ha _; exact ha
    | cons x l ih =>
      intro a ha hl
      refine ih _ (max_le ha ?_) fun y hy => hl y (by simp [hy])
      rcases hl x (by simp) with h | h <;> omega
  have hmono : ∀ (l : List Nat) (a : Nat), a ≤ l.foldl max a := by
    intro l
    induction l with
    | nil => intro a; exact le_rfl
    | cons x l ih => intro a; exact (le_max_left a x).trans (ih _)
  have hge : ∀ (l : List Nat) (a : Nat), n ∈ l → n ≤ l.foldl max a := by
    intro l
    induction l with
    | nil => intro a h; simp at h
    | cons x l ih =>
      intro a h
      rcases List.mem_cons.1 h with rfl | h
      · exact (le_max_right a n).trans (hmono l _)
      · exact ih _ h
  exact le_antisymm (hle l 0 (Nat.zero_le n) h) (hge l 0 hn)

/-- **C109**: places without data do not prevent the model, if every latitude has a place with data and all places with data
have the same number of hours. -/
theorem C109_gaps {fetch : ℚ → ℚ → Frame K T} {keys : List κ} {lats lons : List ℚ} (hlats : lats ≠ []) {n : Nat}
    (hrows : ∀ la ∈ lats, ∀ lo ∈ lons, (fetch la lo).rows = [] ∨ (fetch la lo).rows.length = n)
    (hsome : ∀ la ∈ lats, ∃ lo ∈ lons, (fetch la lo).rows.length = n) :
    ∃ G, fromMeteostat fetch keys lats lons = .ok G ∧ G.data.length = n := by
  have hlons : lons ≠ [] := by
    obtain ⟨la, hla⟩ := List.exists_mem_of_ne_nil _ hlats
    obtain ⟨lo, hlo, _⟩ := hsome la hla
    exact List.ne_nil_of_mem hlo
  have hstack : ∀ la ∈ lats, ∃ d, stackLons keys.length (lons.map (fetch la)) = .ok d ∧ hours d = n := by
    intro la hla
    have hmax : maxLen (lons.map (fetch la)) = n := by
      unfold maxLen
      refine foldl_max_eq ?_ ?_
      · intro x hx
        simp only [List.map_map, List.mem_map, Function.comp] at hx
        obtain ⟨lo, hlo, rfl⟩ := hx
        rcases hrows la hla lo hlo with h | h
        · left; rw [h]; rfl
        · right; exact h
      · obtain ⟨lo, hlo, h⟩ := hsome la hla
        simp only [List.map_map, List.mem_map, Function.comp]
        exact ⟨lo, hlo, h⟩
    have hlen : ∀ d ∈ (lons.map (fetch la)).map (fun f => if f.rows.isEmpty then
        List.replicate (maxLen (lons.map (fetch la))) (List.replicate keys.length (0 : K)) else f.rows), d.length = n := by
      intro d hd
      simp only [List.map_map, List.mem_map, Function.comp] at hd
      obtain ⟨lo, hlo, rfl⟩ := hd
      split
      · rw [List.length_replicate, ← hmax]
      · rename_i h
        rcases hrows la hla lo hlo with h' | h'
        · rw [h'] at h; exact absurd rfl h
        · exact h'
    cases lons with
    | nil => exact absurd rfl hlons
    | cons lo lons =>
      rw [List.map_cons] at hlen hmax
      have hhd : ∀ (l : List (List (List K))), (∀ d ∈ l, d.length = n) → l ≠ [] →
          (l.all fun d => d.length == (l.headD []).length) = true ∧ hours l = n := by
        intro l hl hne
        cases l with
        | nil => exact absurd rfl hne
        | cons a l =>
          refine ⟨?_, hl a List.mem_cons_self⟩
          rw [List.all_eq_true]
          intro d hd
          rw [beq_iff_eq, hl d hd]
          exact (hl a List.mem_cons_self).symm
      obtain ⟨h1, h2⟩ := hhd _ hlen (by simp)
      refine ⟨_, ?_, h2⟩
      unfold stackLons
      rw [List.map_cons]
      simp only
      rw [if_pos h1]
  have hf : ∀ (ls : List ℚ), (∀ la ∈ ls, la ∈ lats) → ∃ datas, fetchLats fetch keys.length lons ls = .ok datas ∧
      datas.length = ls.length ∧ ∀ d ∈ datas, hours d = n := by
    intro ls
    induction ls with
    | nil => intro _; exact ⟨[], rfl, rfl, by simp⟩
    | cons la ls ih =>
      intro hl
      obtain ⟨d, hd, hn⟩ := hstack la (hl la List.mem_cons_self)
      obtain ⟨ds, hds, hlen, hall⟩ := ih fun x hx => hl x (by simp [hx])
      refine ⟨d :: ds, by simp only [fetchLats, hd, hds], by simp [hlen], ?_⟩
      intro e he
      rcases List.mem_cons.1 he with rfl | he
      · exact hn
      · exact hall e he
  obtain ⟨datas, hdatas, hlen, hall⟩ := hf lats fun _ h => h
  have hhead : hours (datas.headD []) = n := by
    cases datas with
    | nil => simp at hlen; exact absurd (List.length_eq_zero_iff.1 hlen.symm) hlats
    | cons d ds => exact hall d List.mem_cons_self
  unfold fromMeteostat
  rw [List.getLast?_eq_some_getLast hlats, List.getLast?_eq_some_getLast hlons]
  simp only [hdatas, hhead]
  rw [if_pos]
  · exact ⟨_, rfl, by simp⟩
  · rw [List.all_eq_true]
    intro d hd
    rw [beq_iff_eq]
    exact hall d hd

example : (∀ la ∈ [(50 : ℚ)], ∃ lo ∈ [(1 : ℚ), 2], ((fun _ lo => if lo = 1 then ⟨[100, 200], [[5], [6]]⟩ else ⟨[], []⟩ :
    ℚ → ℚ → Frame ℚ ℚ) la lo).rows.length = 2) := by decide +kernel

/-- **C109 is false** if stations have data for different hours: the times are those of the last station. -/
theorem C109_times_false {fetch : ℚ → ℚ → Frame K T} {keys : List κ} {lats lons : List ℚ} {G : Fetched K T κ}
    (h : fromMeteostat fetch keys lats lons = .ok G) :
    ∃ la lo, lats.getLast? = some la ∧ lons.getLast? = some lo ∧ G.times = (fetch la lo).times := by
  unfold fromMeteostat at h
  split at h
  · simp at h
  · simp at h
  · rename_i la lo h1 h2
    refine ⟨la, lo, h1, h2, ?_⟩
    cases hf : fetchLats fetch keys.length lons lats with
    | error e => rw [hf] at h; simp at h
    | ok datas =>
      rw [hf] at h
      simp only at h
      split at h
      · simp only [Except.ok.injEq] at h
        subst h
        rfl
      · simp at h

/-- One station lacks the first hour, the other one the last hour: the weather of the first station is attributed to the
wrong hours. -/
example : fromMeteostat (fun _ lo => if lo = 1 then ⟨[100, 200], [[5], [6]]⟩ else ⟨[200, 300], [[7], [8]]⟩) ["wspd"] [50] [1, 2] =
    .ok (⟨[200, 300], [50], [1, 2], ["wspd"], [[[[5], [7]]], [[[6], [8]]]]⟩ : Fetched ℚ ℚ String) := by decide +kernel

/-- **C109 is false** if two stations of a latitude have data for different numbers of hours: `ValueError`. -/
theorem C109_length_false {fetch : ℚ → ℚ → Frame K T} (keys : List κ) {lats lons : List ℚ} {la a b : ℚ} (hla : la ∈ lats) (ha : a ∈ lons)
    (hb : b ∈ lons) (h1 : (fetch la a).rows ≠ []) (h2 : (fetch la b).rows ≠ [])
    (hne : (fetch la a).rows.length ≠ (fetch la b).rows.length) : fromMeteostat fetch keys lats lons = .error .valueError := by
  have hstackAll : ∀ l, (∃ d, stackLons keys.length (lons.map (fetch l)) = .ok d) ∨
      stackLons keys.length (lons.map (fetch l)) = .error .valueError := by
    intro l
    unfold stackLons
    split
    · exact Or.inr rfl
    · simp only
      split
      · exact Or.inl ⟨_, rfl⟩
      · exact Or.inr rfl
  have hstack : stackLons keys.length (lons.map (fetch la)) = .error .valueError := by
    unfold stackLons
    split
    · rfl
    · simp only
      rw [if_neg]
      intro hall
      rw [List.all_eq_true] at hall
      have e1 := hall _ (List.mem_map_of_mem (List.mem_map_of_mem (f := fetch la) ha))
      have e2 := hall _ (List.mem_map_of_mem (List.mem_map_of_mem (f := fetch la) hb))
      rw [if_neg (by simpa using h1)] at e1
      rw [if_neg (by simpa using h2)] at e2
      simp only [beq_iff_eq] at e1 e2
      exact hne (e1.trans e2.symm)
  have hfetch : fetchLats fetch keys.length lons lats = .error .valueError := by
    clear ha hb h1 h2 hne
    induction lats with
    | nil => simp at hla
    | cons l lats ih =>
      simp only [fetchLats]
      rcases List.mem_cons.1 hla with rfl | hm
      · rw [hstack]
      · rw [ih hm]
        rcases hstackAll l with ⟨d, hd⟩ | hd <;> rw [hd]
  have hl1 : lats ≠ [] := by rintro rfl; simp at hla
  have hl2 : lons ≠ [] := by rintro rfl; simp at ha
  unfold fromMeteostat
  rw [List.getLast?_eq_some_getLast hl1, List.getLast?_eq_some_getLast hl2]
  simp only [hfetch]

example : fromMeteostat (fun _ lo => if lo = 1 then ⟨[100, 200], [[5], [6]]⟩ else ⟨[200], [[7]]⟩) ["wspd"] [50] [1, 2] =
    (.error .valueError : Except PyErr (Fetched ℚ ℚ String)) := by decide +kernel

/-- Four complete stations. -/
example : fromMeteostat (fun la lo => ⟨[100, 200], [[la, lo], [la + 1, lo + 1]]⟩) ["temp", "wspd"] [50, 51] [1, 2] =
    .ok (⟨[100, 200], [50, 51], [1, 2], ["temp", "wspd"],
      [[[[50, 1], [50, 2]], [[51, 1], [51, 2]]], [[[51, 2], [51, 3]], [[52, 2], [52, 3]]]]⟩ : Fetched ℚ ℚ String) := by
  decide +kernel

end Verif.Sources
