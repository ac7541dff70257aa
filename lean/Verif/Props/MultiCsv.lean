import Mathlib.Data.Rat.Defs
import Mathlib.Algebra.Order.Ring.Rat
import Verif.Model.Diagram
import Verif.Lemmas.Csv

/-!
# Property C56: csv files of diagrams of several sails
-/

namespace Verif.Diagram

open Verif.Table

variable {δ : Type}

/-- What is used of `str(i)`: different numbers have different texts, without dots. -/
structure ShowNat (showNat : Nat → Text) : Prop where
  inj : ∀ i j, showNat i = showNat j → i = j
  noDot : ∀ i, '.' ∉ showNat i

/-- The part of a path before the first dot. -/
def stem (path : Text) : Text := path.takeWhile (· ≠ '.')

theorem splitOn_headD (path : Text) : (path.splitOn '.').headD [] = stem path := by
  induction path with
  | nil => rfl
  | cons c path ih =>
    rw [List.splitOn_cons_eq_if_modifyHead]
    by_cases hc : c = '.'
    · simp [stem, hc]
    · have hc' : (c == '.') = false := by simpa using hc
      simp only [hc', Bool.false_eq_true, if_false]
      unfold stem at ih ⊢
      rw [List.takeWhile_cons_of_pos (by simpa using hc), ← ih]
      cases h : path.splitOn '.' with
      | nil => exact absurd h (List.splitOn_ne_nil _ _)
      | cons l ls => rfl

theorem subPath_eq (showNat : Nat → Text) (path : Text) (i : Nat) :
    subPath showNat path i = stem path ++ ('_' :: "sail_".toList ++ showNat i) ++ ".csv".toList := by
  rw [subPath, splitOn_headD]
  simp [List.intercalate_cons_cons]

theorem noDot_stem (path : Text) : '.' ∉ stem path := by
  intro h
  unfold stem at h
  induction path with
  | nil => simp at h
  | cons c path ih =>
    by_cases hc : c = '.'
    · simp [hc] at h
    · rw [List.takeWhile_cons_of_pos (by simpa using hc)] at h
      rcases List.mem_cons.1 h with h | h
      · exact hc h.symm
      · exact ih h

theorem stem_subPath {showNat : Nat → Text} (h : ShowNat showNat) (path : Text) (i : Nat) :
    stem (subPath showNat path i) = stem path ++ ('_' :: "sail_".toList ++ showNat i) := by
  rw [subPath_eq]
  have hd : '.' ∉ stem path ++ ('_' :: "sail_".toList ++ showNat i) := by
    rw [List.mem_append, not_or]
    refine ⟨noDot_stem path, ?_⟩
    rw [List.mem_append, not_or]
    exact ⟨by decide, h.noDot i⟩
  have e : ∀ l, stem l = l.takeWhile (· ≠ '.') := fun _ => rfl
  rw [e (_ ++ _ ++ _), List.takeWhile_append_of_pos]
  · rw [show ".csv".toList = '.' :: "csv".toList from rfl, List.takeWhile_cons_of_neg (by simp), List.append_nil]
  · intro c hc
    simp only [ne_eq, decide_not, Bool.not_eq_true', decide_eq_false_iff_not]
    rintro rfl
    exact hd hc

theorem subPath_ne {showNat : Nat → Text} (h : ShowNat showNat) (path : Text) (i : Nat) :
    path ≠ subPath showNat path i := by
  intro he
  have := congrArg (List.length ∘ stem) he
  simp only [Function.comp_apply, stem_subPath h, List.length_append, List.length_cons] at this
  omega

theorem subPath_inj {showNat : Nat → Text} (h : ShowNat showNat) {path : Text} {i j : Nat}
    (he : subPath showNat path i = subPath showNat path j) : i = j := by
  rw [subPath_eq, subPath_eq] at he
  have := List.append_cancel_right he
  have := List.append_cancel_left this
  exact h.inj i j (List.append_cancel_left (List.cons.inj this).2)

theorem writeSubs_other (showNat : Nat → Text) (write : δ → Text) (path p : Text) :
    ∀ (ds : List δ) (i : Nat) (fs : Files), (∀ j : Nat, j < ds.length → p ≠ subPath showNat path (i + j)) →
      writeSubs showNat write path i ds fs p = fs p
  | [], _, _, _ => rfl
  | d :: ds, i, fs, h => by
    rw [writeSubs, writeSubs_other showNat write path p ds (i + 1) _ ?_]
    · have := h 0 (by simp)
      simp only [Nat.add_zero] at this
      simp [Files.write, this]
    · intro j hj
      have := h (j + 1) (by simpa using hj)
      rwa [show i + 1 + j = i + (j + 1) by omega]

theorem writeSubs_get {showNat : Nat → Text} (h : ShowNat showNat) (write : δ → Text) (path : Text) :
    ∀ (ds : List δ) (i : Nat) (fs : Files) (j : Nat) (d : δ), ds[j]? = some d →
      writeSubs showNat write path i ds fs (subPath showNat path (i + j)) = some (write d)
  | [], _, _, _, _, hd => by simp at hd
  | e :: ds, i, fs, 0, d, hd => by
    simp only [List.getElem?_cons_zero, Option.some.injEq] at hd
    subst hd
    rw [writeSubs, writeSubs_other]
    · simp [Files.write]
    · intro j _ he
      have := subPath_inj h he
      omega
  | e :: ds, i, fs, j + 1, d, hd => by
    rw [writeSubs, show i + (j + 1) = i + 1 + j by omega]
    exact writeSubs_get h write path ds (i + 1) _ j d (by simpa using hd)

theorem readSubs_spec (showNat : Nat → Text) {read : Text → Except PyErr δ} {write : δ → Text}
    (hrw : ∀ d, read (write d) = .ok d) (path : Text) (fs : Files) :
    ∀ (ds : List δ) (sails : List Text) (i : Nat), sails.length = ds.length →
      (∀ (j : Nat) (d : δ), ds[j]? = some d → fs (subPath showNat path (i + j)) = some (write d)) →
      readSubs showNat read path fs i sails = .ok ds
  | [], [], _, _, _ => rfl
  | [], _ :: _, _, h, _ => by simp at h
  | _ :: _, [], _, h, _ => by simp at h
  | d :: ds, s :: sails, i, hl, h => by
    have h0 := h 0 d rfl
    simp only [Nat.add_zero] at h0
    have := readSubs_spec showNat hrw path fs ds sails (i + 1) (by simpa using hl) (by
      intro j d hd
      rw [show i + 1 + j = i + (j + 1) by omega]
      exact h (j + 1) d (by simpa using hd))
    simp only [readSubs, h0, hrw, this]

theorem multiFromCsv_of {showNat : Nat → Text} {read : Text → Except PyErr δ} {write : δ → Text}
    (hrw : ∀ d, read (write d) = .ok d) {path : Text} {fs : Files} {sails : List Text} {ds : List δ}
    (hs : ∀ s ∈ sails, ':' ∉ s ∧ '\n' ∉ s) (hl : sails.length = ds.length)
    (hp : fs path = some (writeRows ':' [["PolarDiagramMultiSails".toList], "Sails".toList :: sails]))
    (h : ∀ (j : Nat) (d : δ), ds[j]? = some d → fs (subPath showNat path j) = some (write d)) :
    multiFromCsv showNat read path fs = .ok (sails, ds) := by
  have hlines : lines (writeRows ':' [["PolarDiagramMultiSails".toList], "Sails".toList :: sails]) =
      ["PolarDiagramMultiSails".toList, [':'].intercalate ("Sails".toList :: sails)] := by
    rw [lines_writeRows (by decide)]
    · rfl
    · intro r hr f hf
      simp only [List.mem_cons, List.not_mem_nil, or_false] at hr
      rcases hr with rfl | rfl
      · simp only [List.mem_cons, List.not_mem_nil, or_false] at hf
        subst hf
        decide
      · rcases List.mem_cons.1 hf with rfl | hf
        · decide
        · exact (hs f hf).2
  have hint : [':'].intercalate ("Sails".toList :: sails) ≠ [] := by
    cases sails with
    | nil => decide
    | cons s l =>
      rw [List.intercalate_cons_cons]
      simp
  have hsplit : ([':'].intercalate ("Sails".toList :: sails)).splitOn ':' = "Sails".toList :: sails := by
    apply List.splitOn_intercalate _ _ (by simp)
    intro f hf
    rcases List.mem_cons.1 hf with rfl | hf
    · decide
    · exact (hs f hf).1
  have hread := readSubs_spec showNat hrw path fs ds sails 0 hl (by simpa using h)
  simp only [multiFromCsv, hp, hlines, ne_eq, not_true_eq_false, if_false, readRows, List.map_cons, List.map_nil, hint,
    hsplit, List.tail_cons, hread]

/-- **C56.** Writing a diagram of several sails and reading it gives the names of the sails and the diagrams, if the
diagrams of the single sails can be written and read. -/
theorem C56_round_trip {showNat : Nat → Text} (hn : ShowNat showNat) {read : Text → Except PyErr δ} {write : δ → Text}
    (hrw : ∀ d, read (write d) = .ok d) (path : Text) (fs : Files) {sails : List Text} {ds : List δ}
    (hs : ∀ s ∈ sails, ':' ∉ s ∧ '\n' ∉ s) (hl : sails.length = ds.length) :
    multiFromCsv showNat read path (multiToCsv showNat write sails ds path fs) = .ok (sails, ds) := by
  refine multiFromCsv_of hrw hs hl ?_ ?_
  · rw [multiToCsv, writeSubs_other]
    · simp [Files.write]
    · intro j _
      exact subPath_ne hn path _
  · intro j d hd
    have := writeSubs_get hn write path ds 0
      (fs.write path (writeRows ':' [["PolarDiagramMultiSails".toList], "Sails".toList :: sails])) j d hd
    rwa [Nat.zero_add] at this

/-- **C56.** Writing another diagram does not matter, if its files are different. -/
theorem C56_other_files_partial {showNat : Nat → Text} (hn : ShowNat showNat) {read : Text → Except PyErr δ}
    {write : δ → Text} (hrw : ∀ d, read (write d) = .ok d) (path path' : Text) (fs : Files) {sails sails' : List Text}
    {ds ds' : List δ} (hs : ∀ s ∈ sails, ':' ∉ s ∧ '\n' ∉ s) (hl : sails.length = ds.length)
    (h1 : path ≠ path') (h2 : ∀ i, path ≠ subPath showNat path' i) (h3 : ∀ i, subPath showNat path i ≠ path')
    (h4 : ∀ i j, subPath showNat path i ≠ subPath showNat path' j) :
    multiFromCsv showNat read path
      (multiToCsv showNat write sails' ds' path' (multiToCsv showNat write sails ds path fs)) = .ok (sails, ds) := by
  have key : ∀ p, p ≠ path' → (∀ i, p ≠ subPath showNat path' i) → ∀ fs' : Files,
      multiToCsv showNat write sails' ds' path' fs' p = fs' p := by
    intro p hp hi fs'
    rw [multiToCsv, writeSubs_other _ _ _ _ _ _ _ fun j _ => hi _]
    simp [Files.write, hp]
  refine multiFromCsv_of hrw hs hl ?_ ?_
  · rw [key path h1 h2, multiToCsv, writeSubs_other]
    · simp [Files.write]
    · intro j _
      exact subPath_ne hn path _
  · intro j d hd
    rw [key _ (h3 j) (h4 j), multiToCsv]
    have := writeSubs_get hn write path ds 0
      (fs.write path (writeRows ':' [["PolarDiagramMultiSails".toList], "Sails".toList :: sails])) j d hd
    rwa [Nat.zero_add] at this

/-- **C56** is false for two different paths which agree up to their first dot: after the second diagram is written,
reading the first path gives the diagrams of the second one (with the names of the first one). -/
theorem C56_overwritten_false {showNat : Nat → Text} (hn : ShowNat showNat) {read : Text → Except PyErr δ}
    {write : δ → Text} (hrw : ∀ d, read (write d) = .ok d) {path path' : Text} (fs : Files) {sails sails' : List Text}
    {ds ds' : List δ} (hs : ∀ s ∈ sails, ':' ∉ s ∧ '\n' ∉ s) (hl : sails.length = ds.length)
    (hl' : ds.length = ds'.length) (hne : path ≠ path') (hstem : stem path = stem path') :
    multiFromCsv showNat read path
      (multiToCsv showNat write sails' ds' path' (multiToCsv showNat write sails ds path fs)) = .ok (sails, ds') := by
  have hsub : ∀ i, subPath showNat path i = subPath showNat path' i := by
    intro i
    rw [subPath_eq, subPath_eq, hstem]
  refine multiFromCsv_of hrw hs (hl.trans hl') ?_ ?_
  · rw [multiToCsv, writeSubs_other _ _ _ _ _ _ _ (by intro j _; rw [← hsub]; exact subPath_ne hn path _)]
    simp only [Files.write, hne, if_false]
    rw [multiToCsv, writeSubs_other _ _ _ _ _ _ _ (fun j _ => subPath_ne hn path _)]
    simp [Files.write]
  · intro j d hd
    rw [hsub, multiToCsv]
    have := writeSubs_get hn write path' ds' 0
      ((multiToCsv showNat write sails ds path fs).write path'
        (writeRows ':' [["PolarDiagramMultiSails".toList], "Sails".toList :: sails'])) j d hd
    rwa [Nat.zero_add] at this

example : stem "boat.v1.csv".toList = stem "boat.v2.csv".toList ∧ "boat.v1.csv".toList ≠ "boat.v2.csv".toList := by
  decide

/-- The hypotheses on `str` can be met. -/
example : ShowNat fun i => List.replicate i '1' :=
  ⟨fun i j h => by simpa using congrArg List.length h, fun i h => by simpa using List.eq_of_mem_replicate h⟩

example : subPath (fun i => List.replicate i '1') "boat.csv".toList 1 = "boat_sail_1.csv".toList := by decide

end Verif.Diagram
