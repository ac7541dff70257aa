import Mathlib.Data.List.Induction
import Verif.Model.Directory
import Verif.Props.MultiCsv
import Verif.Props.TableText

/-!
# Property C193: directories of diagrams
-/

namespace Verif.Diagram

open Verif.Table

variable {δ : Type}

theorem showNat_str : ShowNat strNat where
  inj i j h := by
    have := congrArg (Nat.ofDigitChars 10 · 0) h
    simpa only [strNat, Nat.ofDigitChars_ten_toDigits] using this
  noDot i h := by simpa using Nat.isDigit_of_mem_toDigits (by norm_num) (by norm_num) h

/-- What was saved last at a path. -/
def lastSaved (l : List (Text × Saved δ)) (path : Text) : Option (Saved δ) :=
  (l.reverse.find? fun s => decide (s.1 = path)).map Prod.snd

/-- An ordinary name of a file: the only dot is that of the ending, and it does not end with `_sail_` and a number. -/
def Ordinary (path : Text) : Prop :=
  (∃ s, '.' ∉ s ∧ path = s ++ ".csv".toList) ∧ ∀ s i, path ≠ s ++ "_sail_".toList ++ strNat i ++ ".csv".toList

/-- A diagram of several sails has one name per sail, without colons and line breaks. -/
def Proper : Saved δ → Prop
  | .single _ => True
  | .multi sails ds => sails.length = ds.length ∧ ∀ s ∈ sails, ':' ∉ s ∧ '\n' ∉ s

/-- Diagrams of single sails can be written and read, and files of them do not look like files of several sails. -/
structure Readable (write : δ → Text) (read : Text → Except PyErr δ) : Prop where
  back : ∀ d, read (write d) = .ok d
  first : ∀ d, (lines (write d)).head? ≠ some "PolarDiagramMultiSails".toList

/-- Texts can be split at the last occurrence of a character in one way. -/
theorem last_split {c : Char} : ∀ {a b x y : Text}, c ∉ x → c ∉ y → a ++ c :: x = b ++ c :: y → a = b ∧ x = y
  | [], [], _, _, _, _, h => ⟨rfl, (List.cons.inj h).2⟩
  | [], _ :: b, x, y, hx, _, h => by
    simp only [List.nil_append, List.cons_append, List.cons.injEq] at h
    exact absurd (by simp [h.2]) hx
  | _ :: a, [], x, y, _, hy, h => by
    simp only [List.nil_append, List.cons_append, List.cons.injEq] at h
    exact absurd (by simp [← h.2]) hy
  | u :: a, v :: b, x, y, hx, hy, h => by
    simp only [List.cons_append, List.cons.injEq] at h
    obtain ⟨h1, h2⟩ := last_split hx hy h.2
    exact ⟨by rw [h.1, h1], h2⟩

theorem subPath_str (path : Text) (i : Nat) :
    subPath strNat path i = stem path ++ "_sail_".toList ++ strNat i ++ ".csv".toList := by
  rw [subPath_eq]
  simp

theorem stem_eq_of_sub {p q : Text} {i j : Nat} (h : subPath strNat p i = subPath strNat q j) : stem p = stem q ∧ i = j := by
  rw [subPath_str, subPath_str] at h
  have h1 := List.append_cancel_right h
  have e : "_sail_".toList = "_sail".toList ++ ['_'] := by decide
  rw [e] at h1
  simp only [List.append_assoc, List.cons_append, List.nil_append] at h1
  rw [← List.append_assoc, ← List.append_assoc] at h1
  obtain ⟨h2, h3⟩ := last_split (c := '_') Nat.underscore_not_in_toDigits Nat.underscore_not_in_toDigits h1
  exact ⟨List.append_cancel_right h2, showNat_str.inj _ _ h3⟩

theorem stem_ordinary {p : Text} (h : Ordinary p) : p = stem p ++ ".csv".toList := by
  obtain ⟨⟨s, hs, rfl⟩, -⟩ := h
  have e : ∀ l, stem l = l.takeWhile (· ≠ '.') := fun _ => rfl
  congr 1
  rw [e, List.takeWhile_append_of_pos]
  · rw [show ".csv".toList = '.' :: "csv".toList from rfl, List.takeWhile_cons_of_neg (by simp), List.append_nil]
  · intro c hc
    simp only [ne_eq, decide_not, Bool.not_eq_true', decide_eq_false_iff_not]
    rintro rfl
    exact hs hc

/-- The files of two paths have nothing in common. -/
def Apart (p q : Text) : Prop :=
  p ≠ q ∧ (∀ i, p ≠ subPath strNat q i) ∧ (∀ i, subPath strNat p i ≠ q) ∧ ∀ i j, subPath strNat p i ≠ subPath strNat q j

theorem apart_ordinary {p q : Text} (hp : Ordinary p) (hq : Ordinary q) (h : p ≠ q) : Apart p q := by
  refine ⟨h, fun i => ?_, fun i => ?_, fun i j hij => ?_⟩
  · rw [subPath_str]
    exact hp.2 _ _
  · rw [subPath_str]
    exact (hq.2 _ _).symm
  · apply h
    rw [stem_ordinary hp, stem_ordinary hq, (stem_eq_of_sub hij).1]

theorem save_other (write : δ → Text) {path p : Text} (s : Saved δ) (fs : Files) (h : p ≠ path)
    (h' : ∀ i, p ≠ subPath strNat path i) : save write path s fs p = fs p := by
  cases s with
  | single d => simp [save, Files.write, h]
  | multi sails ds =>
    rw [save, multiToCsv, writeSubs_other _ _ _ _ _ _ _ fun j _ => h' _]
    simp [Files.write, h]

theorem readSubs_congr (read : Text → Except PyErr δ) (path : Text) {fs fs' : Files}
    (h : ∀ i, fs (subPath strNat path i) = fs' (subPath strNat path i)) :
    ∀ (sails : List Text) (i : Nat), readSubs strNat read path fs i sails = readSubs strNat read path fs' i sails
  | [], _ => rfl
  | s :: sails, i => by
    simp only [readSubs, h i, readSubs_congr read path h sails (i + 1)]

theorem load_congr (read : Text → Except PyErr δ) (path : Text) {fs fs' : Files} (h0 : fs path = fs' path)
    (h : ∀ i, fs (subPath strNat path i) = fs' (subPath strNat path i)) : load read path fs = load read path fs' := by
  unfold load
  rw [h0]
  have : multiFromCsv strNat read path fs = multiFromCsv strNat read path fs' := by
    unfold multiFromCsv
    rw [h0]
    simp only [readSubs_congr read path h]
  rw [this]

theorem load_save_other (write : δ → Text) (read : Text → Except PyErr δ) {p q : Text} (s : Saved δ) (fs : Files)
    (h : Apart p q) : load read p (save write q s fs) = load read p fs :=
  load_congr read p (save_other write s fs h.1 h.2.1) fun i => save_other write s fs (h.2.2.1 i) (h.2.2.2 i)

theorem first_multi (sails : List Text) (hs : ∀ s ∈ sails, ':' ∉ s ∧ '\n' ∉ s) :
    (lines (writeRows ':' [["PolarDiagramMultiSails".toList], "Sails".toList :: sails])).head? =
      some "PolarDiagramMultiSails".toList := by
  rw [lines_writeRows (by decide)]
  · rfl
  · intro r hr f hf
    simp only [List.mem_cons, List.not_mem_nil, or_false] at hr
    rcases hr with rfl | rfl
    · simp only [List.mem_cons, List.not_mem_nil, or_false] at hf
      subst hf
      decide
    · rcases List.mem_cons.1 hf with rfl | hf
      · decide
      · exact (hs f hf).2

theorem load_save {write : δ → Text} {read : Text → Except PyErr δ} (hr : Readable write read) (path : Text) {s : Saved δ}
    (hs : Proper s) (fs : Files) : load read path (save write path s fs) = .ok s := by
  cases s with
  | single d =>
    simp only [load, save, Files.write, if_true, hr.first d, if_false, hr.back d]
  | multi sails ds =>
    have h1 := C56_round_trip showNat_str hr.back path fs hs.2 hs.1
    have h2 : multiToCsv strNat write sails ds path fs path =
        some (writeRows ':' [["PolarDiagramMultiSails".toList], "Sails".toList :: sails]) := by
      rw [multiToCsv, writeSubs_other _ _ _ _ _ _ _ fun j _ => subPath_ne showNat_str path _]
      simp [Files.write]
    simp only [load, save, h2, first_multi sails hs.2, if_true, h1]

theorem saveAll_append (write : δ → Text) (s : Text × Saved δ) :
    ∀ (l : List (Text × Saved δ)) (fs : Files), saveAll write (l ++ [s]) fs = save write s.1 s.2 (saveAll write l fs)
  | [], _ => rfl
  | t :: l, fs => by
    rw [List.cons_append, saveAll, saveAll, saveAll_append write s l]

/-- **C193** (partial: the names of the files are ordinary ones, see `C193_relative_false`, `C193_sail_file_false`). After any
sequence of calls of `to_csv` a path gives what was saved there last; a path where nothing was saved gives what it gave
before. -/
theorem C193_directory_partial {write : δ → Text} {read : Text → Except PyErr δ} (hr : Readable write read)
    (l : List (Text × Saved δ)) (hl : ∀ s ∈ l, Ordinary s.1 ∧ Proper s.2) {path : Text} (hp : Ordinary path) (fs : Files) :
    load read path (saveAll write l fs) =
      match lastSaved l path with
      | some s => .ok s
      | none => load read path fs := by
  induction l using List.reverseRecOn with
  | nil => rfl
  | append_singleton l s ih =>
    have hs := hl s (by simp)
    rw [saveAll_append]
    by_cases h : s.1 = path
    · subst h
      rw [load_save hr s.1 hs.2]
      simp [lastSaved]
    · rw [load_save_other write read s.2 _ (apart_ordinary hp hs.1 (Ne.symm h)), ih fun t ht => hl t (by simp [ht])]
      simp [lastSaved, h]

/-- **C193** (partial: for paths of any form it is enough that the files of the later diagrams are other ones). -/
theorem C193_apart_partial {write : δ → Text} {read : Text → Except PyErr δ} (hr : Readable write read)
    (l l' : List (Text × Saved δ)) {path : Text} {s : Saved δ} (hs : Proper s) (hl : ∀ t ∈ l', Apart path t.1) (fs : Files) :
    load read path (saveAll write (l ++ (path, s) :: l') fs) = .ok s := by
  induction l' using List.reverseRecOn with
  | nil => rw [saveAll_append, load_save hr path hs]
  | append_singleton l' t ih =>
    rw [show l ++ (path, s) :: (l' ++ [t]) = (l ++ (path, s) :: l') ++ [t] by simp, saveAll_append,
      load_save_other write read t.2 _ (hl t (by simp)), ih fun u hu => hl u (by simp [hu])]

/-- **C193.** The order of calls for different paths does not matter. -/
theorem C193_order {write : δ → Text} {p q : Text} (h : Apart p q) (s t : Saved δ) (fs : Files) :
    save write p s (save write q t fs) = save write q t (save write p s fs) := by
  have key : ∀ {p q : Text}, Apart p q → ∀ (s t : Saved δ) (x : Text), (x = p ∨ ∃ i, x = subPath strNat p i) →
      save write p s (save write q t fs) x = save write q t (save write p s fs) x := by
    intro p q h s t x hx
    have hq : x ≠ q ∧ ∀ i, x ≠ subPath strNat q i := by
      rcases hx with rfl | ⟨i, rfl⟩
      · exact ⟨h.1, h.2.1⟩
      · exact ⟨h.2.2.1 i, h.2.2.2 i⟩
    rw [save_other write t _ hq.1 hq.2]
    have hfs : save write q t fs x = fs x := save_other write t _ hq.1 hq.2
    cases s with
    | single d =>
      show (if x = p then _ else save write q t fs x) = if x = p then _ else fs x
      rw [hfs]
    | multi sails ds =>
      have gen : ∀ (ds : List δ) (i : Nat) (f g : Files), f x = g x →
          writeSubs strNat write p i ds f x = writeSubs strNat write p i ds g x := by
        intro ds
        induction ds with
        | nil => intro i f g h; exact h
        | cons d ds ih =>
          intro i f g h
          refine ih _ _ _ ?_
          simp only [Files.write, h]
      refine gen _ _ _ _ ?_
      simp only [Files.write, hfs]
  have hs : Apart q p := ⟨h.1.symm, fun i => (h.2.2.1 i).symm, fun i => (h.2.1 i).symm, fun i j => (h.2.2.2 j i).symm⟩
  funext x
  by_cases hx : x = p ∨ ∃ i, x = subPath strNat p i
  · exact key h s t x hx
  · by_cases hy : x = q ∨ ∃ i, x = subPath strNat q i
    · exact (key hs t s x hy).symm
    · push Not at hx hy
      rw [save_other write s _ hx.1 hx.2, save_other write t _ hy.1 hy.2, save_other write t _ hy.1 hy.2,
        save_other write s _ hx.1 hx.2]

/-- **C193.** The files of the sails of a path that begins with a dot have the same names for all such paths, and are in the
current directory. -/
theorem C193_relative {path : Text} (h : path.head? = some '.') (i : Nat) :
    subPath strNat path i = "_sail_".toList ++ strNat i ++ ".csv".toList := by
  obtain ⟨l, rfl⟩ : ∃ l, path = '.' :: l := by
    cases path with
    | nil => simp at h
    | cons c l => simp only [List.head?_cons, Option.some.injEq] at h; exact ⟨l, by rw [h]⟩
  rw [subPath_str]
  simp [stem]

/-- **C193** is false for paths that begin with a dot, like `./old.csv` and `../new.csv`: after a second diagram with several
sails is saved at another path, the first path gives the diagrams of the second one under the names of the first one. -/
theorem C193_relative_false {write : δ → Text} {read : Text → Except PyErr δ} (hr : Readable write read) {path path' : Text}
    (hd : path.head? = some '.') (hd' : path'.head? = some '.') (hne : path ≠ path') {sails sails' : List Text} {ds ds' : List δ}
    (hs : Proper (.multi sails ds)) (hl : ds.length = ds'.length) (fs : Files) :
    load read path (saveAll write [(path, .multi sails ds), (path', .multi sails' ds')] fs) = .ok (.multi sails ds') := by
  have hst : ∀ p : Text, p.head? = some '.' → stem p = [] := by
    intro p hp
    cases p with
    | nil => rfl
    | cons c l =>
      simp only [List.head?_cons, Option.some.injEq] at hp
      simp [stem, hp]
  have h1 := C56_overwritten_false showNat_str hr.back fs (sails' := sails') hs.2 hs.1 hl hne
    ((hst path hd).trans (hst path' hd').symm)
  have hsub : ∀ j, path ≠ subPath strNat path' j := by
    intro j he
    rw [C193_relative hd'] at he
    rw [he] at hd
    simp at hd
  have h2 : multiToCsv strNat write sails' ds' path' (multiToCsv strNat write sails ds path fs) path =
      some (writeRows ':' [["PolarDiagramMultiSails".toList], "Sails".toList :: sails]) := by
    rw [multiToCsv, writeSubs_other _ _ _ _ _ _ _ fun j _ => hsub _]
    simp only [Files.write, hne, if_false]
    rw [multiToCsv, writeSubs_other _ _ _ _ _ _ _ fun j _ => subPath_ne showNat_str path _]
    simp [Files.write]
  simp only [saveAll, save, load, h2, first_multi sails hs.2, if_true, h1]

/-- **C193** is false for names like those of the files of the sails: saving a diagram at the path of the first sail of another
one changes that one. -/
theorem C193_sail_file_false {write : δ → Text} {read : Text → Except PyErr δ} (hr : Readable write read) (path : Text)
    {name : Text} {sails : List Text} {d e : δ} {ds : List δ} (hs : Proper (.multi (name :: sails) (d :: ds))) (fs : Files) :
    load read path (saveAll write [(path, .multi (name :: sails) (d :: ds)), (subPath strNat path 0, .single e)] fs) =
      .ok (.multi (name :: sails) (e :: ds)) := by
  have hw : ∀ p, p ≠ subPath strNat path 0 → save write (subPath strNat path 0) (.single e)
      (save write path (.multi (name :: sails) (d :: ds)) fs) p = multiToCsv strNat write (name :: sails) (d :: ds) path fs p := by
    intro p hp
    simp [save, Files.write, hp]
  have h2 : save write (subPath strNat path 0) (.single e) (save write path (.multi (name :: sails) (d :: ds)) fs) path =
      some (writeRows ':' [["PolarDiagramMultiSails".toList], "Sails".toList :: name :: sails]) := by
    rw [hw _ (subPath_ne showNat_str path 0), multiToCsv,
      writeSubs_other _ _ _ _ _ _ _ fun j _ => subPath_ne showNat_str path _]
    simp [Files.write]
  have h1 : multiFromCsv strNat read path (save write (subPath strNat path 0) (.single e)
      (save write path (.multi (name :: sails) (d :: ds)) fs)) = .ok (name :: sails, e :: ds) := by
    refine multiFromCsv_of hr.back hs.2 (by simpa using hs.1) h2 ?_
    intro j x hj
    cases j with
    | zero =>
      simp only [List.getElem?_cons_zero, Option.some.injEq] at hj
      simp [save, Files.write, hj]
    | succ j =>
      rw [hw _ (fun h => by simpa using subPath_inj showNat_str h), multiToCsv]
      have := writeSubs_get showNat_str write path (d :: ds) 0
        (fs.write path (writeRows ':' [["PolarDiagramMultiSails".toList], "Sails".toList :: name :: sails])) (j + 1) x
        (by simpa using hj)
      rwa [Nat.zero_add] at this
  simp only [saveAll, load, h2, first_multi _ hs.2, if_true, h1]

/-! ### Tables -/

section

variable {K : Type} [Field K] [LinearOrder K] [IsStrictOrderedRing K] [FloorRing K]

open Classical in
/-- `from_csv` of a table (`/repo/hrosailing/polardiagram/_reading.py:80-90`); the tables which the constructor makes have sorted winds and the right shape. -/
noncomputable def readTable (parse : Text → Except PyErr K) (text : Text) : Except PyErr {t : Table K // Storable t} :=
  match fromCsv parse text .hro with
  | .error e => .error e
  | .ok t => if h : Storable t then .ok ⟨t, h⟩ else .error .otherError

/-- **C193.** Tables can be written and read, so the claims hold for directories of tables and of diagrams whose sails have
tables. -/
theorem C193_tables {print : K → Text} {parse : Text → Except PyErr K} (h : RoundTrip print parse) :
    Readable (fun t : {t : Table K // Storable t} => toCsv print t.1 .hro) (readTable parse) := by
  constructor
  · rintro ⟨t, ht⟩
    simp only [readTable, C34_round_trip h ht .hro, dif_pos ht]
  · rintro ⟨t, ht⟩ hf
    have h1 := C34_round_trip h ht .hro
    unfold fromCsv at h1
    simp only at h1 hf
    split at h1
    · cases h1
    · rename_i first ls hl
      rw [hl, List.head?_cons, Option.some.injEq] at hf
      rw [hf, if_pos (by decide)] at h1
      cases h1

end

/-! ### Examples -/

/-- Diagrams that are numbers: the file has one line. -/
def sampleWrite (d : Nat) : Text := writeRows ',' [[strNat d]]

def sampleRead (t : Text) : Except PyErr Nat :=
  match lines t with
  | [l] => .ok (Nat.ofDigitChars 10 l 0)
  | _ => .error .otherError

theorem sample_readable : Readable sampleWrite sampleRead := by
  have hd : ∀ d, ∀ c ∈ strNat d, c.isDigit := fun d c hc => Nat.isDigit_of_mem_toDigits (by norm_num) (by norm_num) hc
  have hlines : ∀ d, lines (sampleWrite d) = [strNat d] := by
    intro d
    rw [sampleWrite, lines_writeRows (by decide)]
    · simp
    · intro r hr f hf
      simp only [List.mem_cons, List.not_mem_nil, or_false] at hr
      subst hr
      simp only [List.mem_cons, List.not_mem_nil, or_false] at hf
      subst hf
      intro h
      simpa using hd d _ h
  constructor
  · intro d
    simp only [sampleRead, hlines, strNat, Nat.ofDigitChars_ten_toDigits]
  · intro d h
    rw [hlines, List.head?_cons, Option.some.injEq] at h
    have := hd d 'P' (by rw [h]; decide)
    simp at this

theorem ordinary_of {s : Text} (h1 : '.' ∉ s) (h2 : '_' ∉ s) : Ordinary (s ++ ".csv".toList) := by
  refine ⟨⟨s, h1, rfl⟩, fun t i h => h2 ?_⟩
  rw [List.append_cancel_right h]
  simp

example : Ordinary "boat.csv".toList := ordinary_of (s := "boat".toList) (by decide) (by decide)

example (fs : Files) : load sampleRead "a.csv".toList (saveAll sampleWrite [("a.csv".toList, .multi ["jib".toList, "spi".toList] [3, 4]),
      ("b.csv".toList, .multi ["main".toList] [5]), ("c.csv".toList, .single 7)] fs) =
    .ok (.multi ["jib".toList, "spi".toList] [3, 4]) := by
  have ha : Ordinary "a.csv".toList := ordinary_of (s := "a".toList) (by decide) (by decide)
  have hb : Ordinary "b.csv".toList := ordinary_of (s := "b".toList) (by decide) (by decide)
  have hc : Ordinary "c.csv".toList := ordinary_of (s := "c".toList) (by decide) (by decide)
  have := C193_directory_partial sample_readable [("a.csv".toList, .multi ["jib".toList, "spi".toList] [3, 4]),
      ("b.csv".toList, .multi ["main".toList] [5]), ("c.csv".toList, .single 7)] (by
    intro s hs
    simp only [List.mem_cons, List.not_mem_nil, or_false] at hs
    rcases hs with rfl | rfl | rfl
    · exact ⟨ha, rfl, by decide⟩
    · exact ⟨hb, rfl, by decide⟩
    · exact ⟨hc, trivial⟩) ha fs
  rw [this]
  rfl

example : Apart "a.csv".toList "b.csv".toList :=
  apart_ordinary (ordinary_of (s := "a".toList) (by decide) (by decide)) (ordinary_of (s := "b".toList) (by decide) (by decide))
    (by decide)

example : Proper (.multi ["jib".toList, "spi".toList] [3, 4]) ∧
    subPath strNat "boat.csv".toList 0 = "boat_sail_0.csv".toList ∧ subPath strNat "../runs/boat.csv".toList 0 = "_sail_0.csv".toList :=
  ⟨⟨rfl, by decide⟩, by decide, by decide⟩

/-- Two diagrams saved from a working directory: the sails of the first one are lost. -/
example (fs : Files) : load sampleRead "./a.csv".toList (saveAll sampleWrite [("./a.csv".toList, .multi ["jib".toList] [3]),
      ("./b.csv".toList, .multi ["main".toList] [5])] fs) = .ok (.multi ["jib".toList] [5]) :=
  C193_relative_false sample_readable (path := "./a.csv".toList) (path' := "./b.csv".toList) rfl rfl (by decide)
    (sails := ["jib".toList]) (ds := [3]) (ds' := [5]) ⟨rfl, by decide⟩ rfl fs

end Verif.Diagram
