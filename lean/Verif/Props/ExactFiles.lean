import Verif.Props.MultiCsv
import Verif.Props.Plot
import Verif.Props.TableCall
import Verif.Props.WeatherMulti

/-!
# Exact conditions for properties C49, C52, C56 and C66
-/

set_option linter.unusedSectionVars false

namespace Verif.Plot

section
variable {L : Type} [DecidableEq L]

theorem map_some_append_inj {α : Type} : ∀ {s t : List α} {u v : List (Option α)},
    s.map some ++ none :: u = t.map some ++ none :: v → s = t ∧ u = v
  | [], [], _, _, h => by simpa using h
  | [], _ :: _, _, _, h => by simp at h
  | _ :: _, [], _, _, h => by simp at h
  | a :: s, b :: t, u, v, h => by
    simp only [List.map_cons, List.cons_append, List.cons.injEq, Option.some.injEq] at h
    obtain ⟨h1, h2⟩ := map_some_append_inj h.2
    exact ⟨by rw [h.1, h1], h2⟩

/-- Segments can be read off the separated list, if none is empty. -/
theorem separated_inj {α : Type} : ∀ {ls ls' : List (List α)}, (∀ s ∈ ls, s ≠ []) → (∀ s ∈ ls', s ≠ []) →
    separated ls = separated ls' → ls = ls'
  | [], [], _, _, _ => rfl
  | [], [s], _, h, e => by
    have hs := h s (by simp)
    simp only [separated] at e
    exact absurd (List.map_eq_nil_iff.1 e.symm) hs
  | [], s :: t :: rest, _, _, e => by simp [separated] at e
  | [s], [], h, _, e => by
    have hs := h s (by simp)
    simp only [separated] at e
    exact absurd (List.map_eq_nil_iff.1 e) hs
  | s :: t :: rest, [], _, _, e => by simp [separated] at e
  | [s], [t], _, _, e => by
    simp only [separated] at e
    rw [List.map_injective_iff.2 (Option.some_injective α) e]
  | [s], t :: u :: rest, _, _, e => by
    exfalso
    have : (none : Option α) ∈ separated [s] := by rw [e]; simp [separated]
    simp [separated] at this
  | s :: u :: rest, [t], _, _, e => by
    exfalso
    have : (none : Option α) ∈ separated [t] := by rw [← e]; simp [separated]
    simp [separated] at this
  | s :: u :: rest, t :: v :: rest', h, h', e => by
    simp only [separated, List.append_assoc, List.cons_append, List.nil_append] at e
    obtain ⟨h1, h2⟩ := map_some_append_inj e
    rw [h1, separated_inj (fun x hx => h x (by simp [List.mem_cons.1 hx])) (fun x hx => h' x (by simp [List.mem_cons.1 hx])) h2]

theorem labelled_ne_nil {α : Type} {points : List α} {info : List L} (h : points.length = info.length) {l : L}
    (hl : l ∈ info) : labelled points info l ≠ [] := by
  obtain ⟨i, hi, e⟩ := List.getElem_of_mem hl
  have hm : (points[i]'(by rw [h]; exact hi), l) ∈ points.zip info := by
    rw [List.mem_iff_getElem?]
    refine ⟨i, ?_⟩
    rw [List.getElem?_zip_eq_some]
    exact ⟨List.getElem?_eq_getElem _, by rw [List.getElem?_eq_getElem hi, e]⟩
  have : points[i]'(by rw [h]; exact hi) ∈ labelled points info l := by
    rw [labelled, List.mem_map]
    exact ⟨_, List.mem_filter.2 ⟨hm, by simp⟩, rfl⟩
  exact List.ne_nil_of_mem this

variable {K : Type} [LinearOrder K]

/-- **C49**, exactly: the segments drawn are those of the sails if and only if, with the points sorted but not the labels,
every sail gets the points of one sail. -/
theorem C49_exactly {points : List (K × K)} {info : List L} (h : points.length = info.length) :
    (∃ labels : List L, labels.Nodup ∧ (∀ l, l ∈ labels ↔ l ∈ info) ∧
      drawn points info = .ok (separated (labels.map (labelled points info)))) ↔
    ∃ other : L → L, (∀ l ∈ info, other l ∈ info) ∧ (∀ l ∈ info, ∀ l' ∈ info, other l = other l' → l = l') ∧
      ∀ l ∈ info, labelled (points.insertionSort fun p q => p.1 ≤ q.1) info l = labelled points info (other l) := by
  have h' : (points.insertionSort fun p q => p.1 ≤ q.1).length = info.length := by rw [List.length_insertionSort, h]
  obtain ⟨labels0, n0, m0, e0⟩ := merge_intervals (points.insertionSort fun p q => p.1 ≤ q.1) info h'
  rw [drawn, e0]
  constructor
  · rintro ⟨labels, n1, m1, e1⟩
    have e2 := separated_inj (by
        intro s hs
        obtain ⟨l, hl, rfl⟩ := List.mem_map.1 hs
        exact labelled_ne_nil h' ((m0 l).1 hl)) (by
        intro s hs
        obtain ⟨l, hl, rfl⟩ := List.mem_map.1 hs
        exact labelled_ne_nil h ((m1 l).1 hl)) (Except.ok.inj e1)
    have hlen : labels0.length = labels.length := by simpa using congrArg List.length e2
    have hidx : ∀ l ∈ info, labels0.idxOf l < labels.length := by
      intro l hl
      rw [← hlen]
      exact List.idxOf_lt_length_iff.2 ((m0 l).2 hl)
    refine ⟨fun l => (labels[labels0.idxOf l]?).getD l, ?_, ?_, ?_⟩
    · intro l hl
      simp only [List.getElem?_eq_getElem (hidx l hl), Option.getD_some]
      exact (m1 _).1 (List.getElem_mem _)
    · intro l hl l' hl' he
      simp only [List.getElem?_eq_getElem (hidx l hl), List.getElem?_eq_getElem (hidx l' hl'), Option.getD_some] at he
      have := (List.Nodup.getElem_inj_iff n1).1 he
      exact List.idxOf_inj ((m0 l).2 hl) |>.1 this
    · intro l hl
      have hi : labels0.idxOf l < labels0.length := by rw [hlen]; exact hidx l hl
      have e3 := congrArg (fun x => x[labels0.idxOf l]?) e2
      simp only [List.getElem?_map, List.getElem?_eq_getElem (hidx l hl), List.getElem?_eq_getElem hi, Option.map_some,
        Option.some.injEq, List.getElem_idxOf hi] at e3
      simp only [List.getElem?_eq_getElem (hidx l hl), Option.getD_some]
      exact e3
  · rintro ⟨other, h1, h2, h3⟩
    have n1 : (labels0.map other).Nodup := by
      rw [List.nodup_map_iff_inj_on n0]
      intro a ha b hb
      exact h2 a ((m0 a).1 ha) b ((m0 b).1 hb)
    have hsub : labels0.map other ⊆ labels0 := by
      intro x hx
      obtain ⟨l, hl, rfl⟩ := List.mem_map.1 hx
      exact (m0 _).2 (h1 l ((m0 l).1 hl))
    have hperm := List.subperm_of_subset n1 hsub |>.perm_of_length_le (by simp)
    refine ⟨labels0.map other, n1, fun l => ?_, ?_⟩
    · rw [hperm.mem_iff, m0]
    · rw [List.map_map]
      congr 2
      apply List.map_congr_left
      intro l hl
      exact h3 l ((m0 l).1 hl)

/-- The labels stay with the positions, the points are sorted: the sails exchange their points. -/
example : drawn [((3 : ℚ), 1), (4, 2), (1, 3), (2, 4)] ["jib", "jib", "spi", "spi"] =
      .ok [some (1, 3), some (2, 4), none, some (3, 1), some (4, 2)] ∧
    labelled ([((3 : ℚ), (1 : ℚ)), (4, 2), (1, 3), (2, 4)].insertionSort fun p q => p.1 ≤ q.1) ["jib", "jib", "spi", "spi"] "jib" =
      labelled [(3, 1), (4, 2), (1, 3), (2, 4)] ["jib", "jib", "spi", "spi"] "spi" := by
  constructor <;> rfl

/-- **C49** is false for slices with unsorted angles also if segments may be exchanged between sails: here both segments
connect points of different sails. -/
theorem C49_mixed_false :
    ∃ (points : List (Rat × Rat)) (info : List String), points.length = info.length ∧
      drawn points info = .ok [some (30, 5), some (100, 3), none, some (40, 6), some (140, 4)] ∧
      labelled points info "jib" = [(100, 3), (140, 4)] ∧ labelled points info "spi" = [(30, 5), (40, 6)] ∧
      ¬ ∃ labels : List String, labels.Nodup ∧ (∀ l, l ∈ labels ↔ l ∈ info) ∧
        drawn points info = .ok (separated (labels.map (labelled points info))) := by
  refine ⟨[(100, 3), (30, 5), (140, 4), (40, 6)], ["jib", "spi", "jib", "spi"], by decide +kernel, by decide +kernel,
    by decide +kernel, by decide +kernel, ?_⟩
  rw [C49_exactly (by decide)]
  rintro ⟨other, h1, -, h3⟩
  have h4 := h3 "jib" (by decide)
  have h5 := h1 "jib" (by decide)
  simp only [List.mem_cons, List.not_mem_nil, or_false] at h5
  have h6 : other "jib" = "jib" ∨ other "jib" = "spi" := by
    rcases h5 with h | h | h | h <;> simp [h]
  rcases h6 with h | h <;> rw [h] at h4 <;> exact absurd h4 (by decide +kernel)

end

end Verif.Plot

namespace Verif.Weather

variable {κ K T S : Type}

/-- **C66**, exactly: a model is restored if and only if the format restores every one of its times. -/
theorem C66_exactly (fmt : T → S) (parse : S → Option T) (data : List (List (List (List K)))) (times : List T)
    (lats lons : List K) (attrs : List κ) :
    fromFile parse (toFile fmt data times lats lons attrs) = .ok (data, times, lats, lons, attrs) ↔
      ∀ t ∈ times, parse (fmt t) = some t := by
  refine ⟨fun h => ?_, C66_round_trip_partial fmt parse data times lats lons attrs⟩
  have h1 : (times.map fmt).mapM parse = some times := by
    simp only [fromFile, toFile] at h
    split at h
    · cases h
    · rename_i ts hts
      have := Except.ok.inj h
      rw [hts, (Prod.mk.inj (Prod.mk.inj this).2).1]
  clear h
  induction times with
  | nil => simp
  | cons t ts ih =>
    rw [List.map_cons, List.mapM_cons] at h1
    cases hp : parse (fmt t) with
    | none => simp [hp] at h1
    | some u =>
      cases hq : (ts.map fmt).mapM parse with
      | none => simp [hp, hq] at h1
      | some us =>
        simp only [hp, hq, Option.bind_eq_bind, Option.bind_some, Option.pure_def, Option.some.injEq, List.cons.injEq] at h1
        intro t' ht'
        rcases List.mem_cons.1 ht' with rfl | ht'
        · rw [hp, h1.1]
        · exact ih (by rw [hq, h1.2]) t' ht'

example : ¬ fromFile (fun s : Nat => some (s * 1000000)) (toFile (fun t : Nat => t / 1000000) [[[[(7 : Int)]]]]
    [3000000, 3500000] [1] [2] ["TWS"]) = .ok ([[[[7]]]], [3000000, 3500000], [1], [2], ["TWS"]) := by
  rw [C66_exactly]
  simp

end Verif.Weather

namespace Verif.Diagram

open Verif.Table

variable {δ : Type}

/-- **C56.** What is read after another diagram is written to a path with the same part before the first dot: the names
written first, and as many of the diagrams written last as there are. -/
theorem C56_overwritten {showNat : Nat → Text} (hn : ShowNat showNat) {read : Text → Except PyErr δ}
    {write : δ → Text} (hrw : ∀ d, read (write d) = .ok d) {path path' : Text} (fs : Files) {sails sails' : List Text}
    {ds ds' : List δ} (hs : ∀ s ∈ sails, ':' ∉ s ∧ '\n' ∉ s) (hl : sails.length = ds.length)
    (hne : path ≠ path') (hstem : stem path = stem path') :
    multiFromCsv showNat read path
      (multiToCsv showNat write sails' ds' path' (multiToCsv showNat write sails ds path fs)) =
        .ok (sails, ds'.take ds.length ++ ds.drop ds'.length) := by
  have hsub : ∀ i, subPath showNat path i = subPath showNat path' i := by
    intro i
    rw [subPath_eq, subPath_eq, hstem]
  have hlen : sails.length = (ds'.take ds.length ++ ds.drop ds'.length).length := by
    rw [hl, List.length_append, List.length_take, List.length_drop]
    omega
  refine multiFromCsv_of hrw hs hlen ?_ ?_
  · rw [multiToCsv, writeSubs_other _ _ _ _ _ _ _ (by intro j _; rw [← hsub]; exact subPath_ne hn path _)]
    simp only [Files.write, hne, if_false]
    rw [multiToCsv, writeSubs_other _ _ _ _ _ _ _ (fun j _ => subPath_ne hn path _)]
    simp [Files.write]
  · intro j d hd
    by_cases hj : j < ds'.length
    · have hd' : ds'[j]? = some d := by
        rw [List.getElem?_append] at hd
        split at hd
        · rw [List.getElem?_take] at hd
          split at hd
          · exact hd
          · cases hd
        · rename_i h1
          rw [List.length_take] at h1 hd
          rw [List.getElem?_drop] at hd
          exfalso
          have := (List.getElem?_eq_some_iff.1 hd).1
          omega
      rw [hsub, multiToCsv]
      have := writeSubs_get hn write path' ds' 0
        ((multiToCsv showNat write sails ds path fs).write path'
          (writeRows ':' [["PolarDiagramMultiSails".toList], "Sails".toList :: sails'])) j d hd'
      rwa [Nat.zero_add] at this
    · have hd' : ds[j]? = some d := by
        rw [List.getElem?_append] at hd
        rw [List.length_take] at hd
        split at hd
        · omega
        · rw [List.getElem?_drop] at hd
          rename_i h1
          have h2 : ds'.length + (j - min ds.length ds'.length) = j ∨ ds.length < ds'.length := by omega
          rcases h2 with h2 | h2
          · rwa [h2] at hd
          · have := (List.getElem?_eq_some_iff.1 hd).1
            omega
      rw [multiToCsv, writeSubs_other _ _ _ _ _ _ _ (by
        intro i hi he
        rw [← hsub] at he
        have := subPath_inj hn he
        omega)]
      have hp : subPath showNat path j ≠ path' := by
        rw [hsub]
        exact (subPath_ne hn path' j).symm
      simp only [Files.write, hp, if_false]
      rw [multiToCsv]
      have := writeSubs_get hn write path ds 0
        (fs.write path (writeRows ':' [["PolarDiagramMultiSails".toList], "Sails".toList :: sails])) j d hd'
      rwa [Nat.zero_add] at this

/-- **C56**, exactly, for different paths which agree up to the first dot: the first diagram survives if and only if the
diagrams written last are those written first, as far as both reach. -/
theorem C56_stem_exactly {showNat : Nat → Text} (hn : ShowNat showNat) {read : Text → Except PyErr δ}
    {write : δ → Text} (hrw : ∀ d, read (write d) = .ok d) {path path' : Text} (fs : Files) {sails sails' : List Text}
    {ds ds' : List δ} (hs : ∀ s ∈ sails, ':' ∉ s ∧ '\n' ∉ s) (hl : sails.length = ds.length)
    (hne : path ≠ path') (hstem : stem path = stem path') :
    multiFromCsv showNat read path
      (multiToCsv showNat write sails' ds' path' (multiToCsv showNat write sails ds path fs)) = .ok (sails, ds) ↔
        ds'.take ds.length = ds.take ds'.length := by
  rw [C56_overwritten hn hrw fs hs hl hne hstem]
  simp only [Except.ok.injEq, Prod.mk.injEq, true_and]
  constructor
  · intro h
    have := congrArg (List.take ds'.length) h
    rw [← this]
    by_cases hc : ds'.length ≤ ds.length
    · rw [List.take_of_length_le hc]
      simp
    · rw [List.drop_eq_nil_of_le (by omega), List.append_nil, List.take_take, Nat.min_eq_right (by omega)]
  · intro h
    rw [h, List.take_append_drop]

example : stem "boat.old.csv".toList = stem "boat.csv".toList := by decide

end Verif.Diagram

namespace Verif.Table

open Verif.Interp

/-- **C52**, exactly: with the default arguments a value is returned if and only if the wind is in the table or a point of the
table is in the neighbourhood of the given (not the reduced) wind angle; otherwise `ZeroDivisionError` is raised. -/
theorem C52_default_exactly {t : Table ℝ} (hwf : WF t) (w a : ℝ) :
    ((∃ v, call defaultInterpolate defaultNbh t w a = .ok v) ↔
      (w ∈ t.ws ∧ pmod a 360 ∈ t.wa) ∨ ∃ p ∈ t.points, scaledEuclidean (p.1.1 - w, p.1.2 - a) ≤ 1) ∧
    ((∀ v, call defaultInterpolate defaultNbh t w a ≠ .ok v) →
      call defaultInterpolate defaultNbh t w a = .error .zeroDivisionError) := by
  have key : ¬ (w ∈ t.ws ∧ pmod a 360 ∈ t.wa) → (¬ ∃ p ∈ t.points, scaledEuclidean (p.1.1 - w, p.1.2 - a) ≤ 1) →
      call defaultInterpolate defaultNbh t w a = .error .zeroDivisionError := by
    intro h1 h2
    obtain ⟨pts, hpts, hcall⟩ := C52_off_grid defaultInterpolate defaultNbh t (w := w) (a := a)
      (by by_cases hw : w ∈ t.ws
          · exact .inr fun ha => h1 ⟨hw, ha⟩
          · exact .inl hw)
    have : pts = [] := by
      rw [List.eq_nil_iff_forall_not_mem]
      intro p hp
      have hp := (hpts p).1 hp
      rw [defaultNbh, decide_eq_true_iff] at hp
      exact h2 ⟨p, hp.1, hp.2⟩
    rw [hcall, this]
    simp [defaultInterpolate, arith, firstAtZero, average, dists]
  have key2 : (w ∈ t.ws ∧ pmod a 360 ∈ t.wa) ∨ (∃ p ∈ t.points, scaledEuclidean (p.1.1 - w, p.1.2 - a) ≤ 1) →
      ∃ v, call defaultInterpolate defaultNbh t w a = .ok v := by
    intro h
    by_cases hg : w ∈ t.ws ∧ pmod a 360 ∈ t.wa
    · obtain ⟨j, hj, hw⟩ := List.getElem_of_mem hg.1
      obtain ⟨i, hi, ha⟩ := List.getElem_of_mem hg.2
      have hr : i < t.bsps.length := by rw [hwf.rows]; exact hi
      have hx : j < t.bsps[i].length := by rw [hwf.cols _ (List.getElem_mem _)]; exact hj
      have : get t w a = .ok t.bsps[i][j] := by
        refine get_entry hwf (j := j) (i := i) (by rw [List.getElem?_eq_getElem hj, hw]) ?_ (List.getElem?_eq_getElem hr)
          (List.getElem?_eq_getElem hx)
        rw [List.getElem?_eq_getElem hi, ha]
      exact ⟨t.bsps[i][j], by simp [call, this]⟩
    · rcases h with h | h
      · exact absurd h hg
      · obtain ⟨v, hv, -⟩ := C52_default_in_range (fun a ha => ⟨hwf.wa_nonneg a ha, hwf.wa_lt a ha⟩)
          (by by_cases hw : w ∈ t.ws
              · exact .inr fun ha => hg ⟨hw, ha⟩
              · exact .inl hw) h
        exact ⟨v, hv⟩
  refine ⟨⟨fun h => ?_, key2⟩, fun h => ?_⟩
  · by_contra hc
    rw [not_or] at hc
    obtain ⟨v, hv⟩ := h
    rw [key hc.1 hc.2] at hv
    cases hv
  · by_contra hc
    by_cases hg : (w ∈ t.ws ∧ pmod a 360 ∈ t.wa) ∨ (∃ p ∈ t.points, scaledEuclidean (p.1.1 - w, p.1.2 - a) ≤ 1)
    · obtain ⟨v, hv⟩ := key2 hg
      exact h v hv
    · rw [not_or] at hg
      exact hc (key hg.1 hg.2)

example {t : Table ℝ} (hwf : WF t) (hws : 5 ∈ t.ws) (hwa : 40 ∈ t.wa) : ∃ v, call defaultInterpolate defaultNbh t 5 400 = .ok v := by
  refine (C52_default_exactly hwf 5 400).1.mpr (.inl ⟨hws, ?_⟩)
  rwa [show (400 : ℝ) = 40 + 360 * ((1 : ℤ) : ℝ) by norm_num, pmod_add_mul _ (by norm_num), pmod_of_mem (by norm_num) (by norm_num)]

end Verif.Table
