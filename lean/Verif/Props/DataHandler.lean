import Verif.Model.DataHandler
import Verif.Lemmas.Fold
import Verif.Props.Data
import Verif.Props.DataTypes
import Verif.Props.Nmea
import Mathlib.Tactic.IntervalCases

/-!
# Properties C88 and C89: data handlers
-/

set_option linter.unusedSectionVars false

namespace Verif.Handler

open Verif.Data

variable {κ V τ : Type} [DecidableEq κ] [DecidableEq τ] [HasType V τ]

/-! ### Dictionaries built in a loop -/

theorem foldl_set_nodup {ι α : Type} (key : ι → κ) (val : ι → α) :
    ∀ (l : List ι) (d : Dict κ α), (l.map key).Nodup → (∀ x ∈ l, key x ∉ Dict.keys d) →
      l.foldl (fun d x => d.set (key x) (val x)) d = d ++ l.map fun x => (key x, val x)
  | [], d, _, _ => by simp
  | x :: l, d, hn, hd => by
    simp only [List.map_cons, List.nodup_cons] at hn
    rw [List.foldl_cons, Dict.set_of_not_mem _ _ _ (hd x (by simp)), foldl_set_nodup key val l _ hn.2]
    · simp
    · intro y hy
      simp only [Dict.keys, List.map_append, List.map_cons, List.map_nil, List.mem_append, List.mem_singleton, not_or]
      exact ⟨hd y (by simp [hy]), fun e => hn.1 (List.mem_map.2 ⟨y, hy, e⟩)⟩

theorem foldl_set_keys_nodup {ι α : Type} (key : ι → κ) (val : ι → α) (l : List ι) {d : Dict κ α}
    (hd : (Dict.keys d).Nodup) : (Dict.keys (l.foldl (fun d x => d.set (key x) (val x)) d)).Nodup := by
  induction l generalizing d with
  | nil => exact hd
  | cons x l ih => exact ih (Dict.nodup_keys_set _ _ _ hd)

theorem mem_keys_foldl_set {ι α : Type} (key : ι → κ) (val : ι → α) (l : List ι) (d : Dict κ α) (k : κ) :
    k ∈ Dict.keys (l.foldl (fun d x => d.set (key x) (val x)) d) ↔ k ∈ l.map key ∨ k ∈ Dict.keys d := by
  induction l generalizing d with
  | nil => simp
  | cons x l ih =>
    rw [List.foldl_cons, ih, Dict.mem_keys_set]
    simp only [List.map_cons, List.mem_cons]
    tauto

/-- The last value wins. -/
theorem get?_foldl_set_append {ι α : Type} (key : ι → κ) (val : ι → α) (l₁ l₂ : List ι) (x : ι) (d : Dict κ α)
    (h : ∀ y ∈ l₂, key y ≠ key x) :
    ((l₁ ++ x :: l₂).foldl (fun d x => d.set (key x) (val x)) d).get? (key x) = some (val x) := by
  rw [List.foldl_append, List.foldl_cons]
  generalize l₁.foldl (fun d x => d.set (key x) (val x)) d = d'
  have : ∀ d : Dict κ α, (l₂.foldl (fun d x => d.set (key x) (val x)) d).get? (key x) = d.get? (key x) := by
    induction l₂ with
    | nil => intro d; rfl
    | cons y l₂ ih =>
      intro d
      rw [List.foldl_cons, ih (fun z hz => h z (by simp [hz])), Dict.get?_set_ne _ _ (h y (by simp))]
  rw [this, Dict.get?_set_self]

/-! ## C88: arrays -/

theorem arrayDict_nodup {rows : List (List (Option V))} {keys : List κ} (hk : keys.Nodup) :
    arrayDict keys.length rows keys = .ok (keys.zipIdx.map fun p => (p.1, .list (arrayColumn rows p.2))) := by
  unfold arrayDict
  rw [if_neg (by simp), foldl_set_nodup (fun p : κ × Nat => p.1) (fun p => Arg.list (arrayColumn rows p.2))]
  · simp
  · simpa [List.zipIdx_map_fst] using hk
  · simp

theorem keys_zipIdx {α : Type} (keys : List κ) (f : Nat → α) :
    Dict.keys (keys.zipIdx.map fun p => (p.1, f p.2)) = keys := by
  simp only [Dict.keys, List.map_map]
  exact (List.map_congr_left fun p _ => rfl).trans (List.zipIdx_map_fst 0 keys)

theorem get?_zipIdx {α : Type} {keys : List κ} (hk : keys.Nodup) (f : Nat → α) {i : Nat} {k : κ} (h : keys[i]? = some k) :
    Dict.get? (keys.zipIdx.map fun p => (p.1, f p.2)) k = some (f i) := by
  refine Dict.get?_of_mem (by rw [keys_zipIdx]; exact hk) (List.mem_map.2 ⟨(k, i), ?_, rfl⟩)
  exact List.mem_zipIdx_iff_getElem?.2 h

theorem longest_const {d : Dict κ (Arg V)} {n : Nat} (h : ∀ p ∈ d, p.2.toList.length = n) (hne : d ≠ []) :
    longest d = n := by
  induction d with
  | nil => exact absurd rfl hne
  | cons p d ih =>
    simp only [longest, List.foldr_cons]
    rw [h p (by simp)]
    cases d with
    | nil => simp
    | cons q d =>
      have := ih (fun p hp => h p (by simp [hp])) (by simp)
      simp only [longest] at this
      rw [this]; simp

/-- Creating a `Data` object from columns of the same length, each of one type, gives exactly these columns. -/
theorem update_empty_columns {d : Dict κ (Arg V)} (hd : (Dict.keys d).Nodup) {n : Nat}
    (hlen : ∀ p ∈ d, p.2.toList.length = n)
    (hty : ∀ p ∈ d, ∀ v w, some v ∈ p.2.toList → some w ∈ p.2.toList → typeOf v = typeOf w) :
    ∃ D : Data κ V τ, update empty d false = (D, none) ∧ Reachable D ∧ (∀ k, k ∈ D.keys ↔ k ∈ Dict.keys d) ∧
      (d ≠ [] → D.nRows = n) ∧ ∀ k a, Dict.get? d k = some a → colOf D k = a.toList := by
  have harg : ∀ k a, Dict.get? d k = some a → argOf d k = a.toList := by
    intro k a h; simp [argOf, h]
  have hs : (update (empty : Data κ V τ) d false).2 = none := by
    refine C09_update_succeeds .empty hd false ?_
    intro k hk v w hv hw
    obtain ⟨a, ha⟩ := (Dict.mem_keys_iff _ _).1 hk
    have : colOf (empty : Data κ V τ) k = [] := rfl
    rw [this, harg k a ha, List.nil_append] at hv hw
    exact hty _ (Dict.mem_of_get? ha) v w hv hw
  have he : update (empty : Data κ V τ) d false = ((update (empty : Data κ V τ) d false).1, none) := Prod.ext rfl hs
  refine ⟨_, he, .update .empty he, ?_⟩
  obtain ⟨h1, h2, h3⟩ := C03_update_appends (D := (empty : Data κ V τ)) .empty hd he
  refine ⟨fun k => ?_, fun hne => ?_, fun k a ha => ?_⟩
  · rw [h2]; simp [empty, keys]
  · rw [h1, longest_const hlen hne]; simp [empty, nRows]
  · have hk : k ∈ Dict.keys d := (Dict.mem_keys_iff _ _).2 ⟨a, ha⟩
    obtain ⟨old, new, e1, e2, e3, -, -, e4, e5⟩ := h3 k ((h2 k).2 (.inr hk))
    have hold : old = [] := by
      have : (old.length : Int) = 0 := e2
      exact List.length_eq_zero_iff.1 (by omega)
    have hne : d ≠ [] := by rintro rfl; simp at hk
    rw [harg k a ha] at e4 e5
    have hl : a.toList.length = n := hlen _ (Dict.mem_of_get? ha)
    rw [longest_const hlen hne] at e3
    rw [e1, hold, List.nil_append, ← e4, List.take_of_length_le (by omega)]

/-- **C88** (partial: names without repetitions, see `C88_array_repeated_false`; before the conversion to the standard
format, see C08). The columns of the array become the columns of the data, with one row for each row of the array,
provided the entries of every column have one type. -/
theorem C88_array_partial {rows : List (List (Option V))} {keys : List κ} (hk : keys.Nodup)
    (hty : ∀ i < keys.length, ∀ v w, some v ∈ arrayColumn rows i → some w ∈ arrayColumn rows i → typeOf v = typeOf w) :
    ∃ D : Data κ V τ, arrayHandle keys.length rows keys = (D, none) ∧ Reachable D ∧ (∀ k, k ∈ D.keys ↔ k ∈ keys) ∧
      (keys ≠ [] → D.nRows = rows.length) ∧
      ∀ (i : Nat) k, keys[i]? = some k → colOf D k = rows.map fun row => (row[i]?).getD none := by
  have hmem : ∀ p ∈ (keys.zipIdx.map fun p => (p.1, (Arg.list (arrayColumn rows p.2) : Arg V))),
      ∃ i < keys.length, p.2 = .list (arrayColumn rows i) := by
    intro p hp
    obtain ⟨q, hq, rfl⟩ := List.mem_map.1 hp
    exact ⟨q.2, by have := List.mem_zipIdx_iff_getElem?.1 hq; exact (List.getElem?_eq_some_iff.1 this).1, rfl⟩
  obtain ⟨D, h1, h2, h3, h4, h5⟩ := update_empty_columns (τ := τ) (n := rows.length)
    (d := keys.zipIdx.map fun p => (p.1, (Arg.list (arrayColumn rows p.2) : Arg V)))
    (by rw [keys_zipIdx keys fun i => Arg.list (arrayColumn rows i)]; exact hk)
    (by intro p hp; obtain ⟨i, -, e⟩ := hmem p hp; rw [e]; simp [Arg.toList, arrayColumn])
    (by intro p hp; obtain ⟨i, hi, e⟩ := hmem p hp; rw [e]; exact hty i hi)
  refine ⟨D, ?_, h2, ?_, ?_, ?_⟩
  · simp only [arrayHandle, arrayDict_nodup hk, h1]
  · intro k; rw [h3, keys_zipIdx keys fun i => (Arg.list (arrayColumn rows i) : Arg V)]
  · intro hne; apply h4; intro h
    have := congrArg List.length h
    simp at this
    exact hne this
  · intro i k hi
    rw [h5 k _ (get?_zipIdx hk (fun i => (Arg.list (arrayColumn rows i) : Arg V)) hi)]
    rfl

/-- **C88.** If the number of names is not the number of columns, `ValueError` is raised. -/
theorem C88_array_keys {ncols : Nat} {rows : List (List (Option V))} {keys : List κ} (h : keys.length ≠ ncols) :
    (arrayHandle ncols rows keys : Res (Data κ V τ)) = (empty, some .valueError) := by
  simp [arrayHandle, arrayDict, h]

/-- **C88 is false** if a name occurs twice: without any message only the last column of this name is kept. -/
theorem C88_array_repeated_false {ncols : Nat} {rows : List (List (Option V))} {keys : List κ} {D : Data κ V τ}
    (h : arrayHandle ncols rows keys = (D, none)) {i j : Nat} (hij : i < j) {k : κ} (hi : keys[i]? = some k)
    (hj : keys[j]? = some k) (hlast : ∀ l > j, keys[l]? ≠ some k) :
    measured (colOf D k) = measured (arrayColumn rows j) ∧ D.keys.length < ncols := by
  unfold arrayHandle at h
  split at h
  · simp at h
  · rename_i d hd
    unfold arrayDict at hd
    split at hd
    · simp at hd
    rename_i hlen
    simp only [Except.ok.injEq] at hd
    have hnd : (Dict.keys d).Nodup := by rw [← hd]; exact foldl_set_keys_nodup _ _ _ (by simp)
    have hm := C02_update_measured hnd h k
    have hjl : j < keys.length := (List.getElem?_eq_some_iff.1 hj).1
    have hsplit : keys.zipIdx = keys.zipIdx.take j ++ (k, j) :: keys.zipIdx.drop (j + 1) := by
      have h2 : keys.zipIdx[j]'(by simpa using hjl) = (k, j) := by
        have := (List.getElem?_eq_some_iff.1 hj).2
        simp [List.getElem_zipIdx, this]
      rw [← h2, List.cons_getElem_drop_succ, List.take_append_drop]
    have hget : d.get? k = some (.list (arrayColumn rows j)) := by
      rw [← hd, hsplit]
      refine get?_foldl_set_append (fun p : κ × Nat => p.1) (fun p => Arg.list (arrayColumn rows p.2)) _ _ (k, j) [] ?_
      intro y hy
      obtain ⟨m, hm'⟩ := List.mem_iff_getElem?.1 hy
      rw [List.getElem?_drop] at hm'
      have : y ∈ keys.zipIdx := List.mem_of_getElem? hm'
      have hy2 : y.2 = j + 1 + m := by
        rw [List.getElem?_zipIdx] at hm'
        cases hh : keys[j + 1 + m]? with
        | none => simp [hh] at hm'
        | some z => simp [hh] at hm'; rw [← hm']
      have := List.mem_zipIdx_iff_getElem?.1 this
      intro e
      refine hlast (j + 1 + m) (by omega) ?_
      rw [← hy2, this]; exact congrArg some e
    refine ⟨?_, ?_⟩
    · rw [hm]; simp [argOf, hget, empty, colOf, measured, Arg.toList]
    · obtain ⟨-, h2, -⟩ := C03_update_appends (D := (empty : Data κ V τ)) .empty hnd h
      have hsub : ∀ k ∈ D.keys, k ∈ keys.eraseIdx i := by
        intro x hx
        rw [h2] at hx
        rcases hx with hx | hx
        · simp [empty, Data.keys] at hx
        rw [← hd, mem_keys_foldl_set] at hx
        rcases hx with hx | hx
        · rw [List.zipIdx_map_fst] at hx
          obtain ⟨m, hm⟩ := List.mem_iff_getElem?.1 hx
          rw [List.mem_eraseIdx_iff_getElem?]
          by_cases e : m = i
          · refine ⟨j, by omega, ?_⟩
            rw [e, hi] at hm; rw [hj, hm]
          · exact ⟨m, e, hm⟩
        · simp at hx
      have hDn : D.keys.Nodup := (Reachable.update .empty h).rect.nodup
      have hc := hDn.subperm hsub |>.length_le
      have hil : i < keys.length := (List.getElem?_eq_some_iff.1 hi).1
      rw [List.length_eraseIdx_of_lt hil] at hc
      have : keys.length = ncols := not_not.1 hlen
      omega

/-! ## C88: csv files -/

section csv
variable {α : Type}

theorem set_zipIdx (f : Nat → List α) (v : List α) : ∀ (keys : List κ) (n i : Nat) (k : κ), keys.Nodup →
    keys[i]? = some k → Dict.set ((keys.zipIdx n).map fun p => (p.1, f p.2)) k v
      = (keys.zipIdx n).map fun p => (p.1, if p.2 = n + i then v else f p.2)
  | [], _, _, _, _, h => by simp at h
  | x :: keys, n, 0, k, hn, h => by
    simp only [List.getElem?_cons_zero, Option.some.injEq] at h
    subst h
    simp only [List.zipIdx_cons, List.map_cons, Dict.set, if_true, Nat.add_zero]
    congr 1
    apply List.map_congr_left
    intro p hp
    have := List.le_snd_of_mem_zipIdx hp
    rw [if_neg (by omega)]
  | x :: keys, n, i + 1, k, hn, h => by
    simp only [List.getElem?_cons_succ] at h
    have hne : x ≠ k := by
      rintro rfl
      exact (List.nodup_cons.1 hn).1 (List.mem_of_getElem? h)
    simp only [List.zipIdx_cons, List.map_cons, Dict.set, if_neg hne]
    rw [set_zipIdx f v keys (n + 1) i k (List.nodup_cons.1 hn).2 h, if_neg (by omega)]
    congr 1
    apply List.map_congr_left
    intro p _
    rw [show n + 1 + i = n + (i + 1) by omega]

theorem csvRow_eq {keys : List κ} (hk : keys.Nodup) : ∀ (row : List α) (i : Nat) (f : Nat → List α),
    i + row.length ≤ keys.length →
    csvRow keys i row (keys.zipIdx.map fun p => (p.1, f p.2))
      = .ok (keys.zipIdx.map fun p => (p.1, f p.2 ++ (if i ≤ p.2 then (row[p.2 - i]?).toList else [])))
  | [], i, f, _ => by simp [csvRow]
  | x :: row, i, f, h => by
    simp only [List.length_cons] at h
    have hi : keys[i]? = some (keys[i]'(by omega)) := List.getElem?_eq_getElem (by omega)
    have hset := set_zipIdx f (f i ++ [x]) keys 0 i _ hk hi
    rw [Nat.zero_add] at hset
    simp only [csvRow, hi, get?_zipIdx hk f hi]
    rw [hset, csvRow_eq hk row (i + 1) (fun j => if j = i then f i ++ [x] else f j) (by omega)]
    congr 1
    apply List.map_congr_left
    intro p _
    rcases Nat.lt_trichotomy p.2 i with h1 | h1 | h1
    · simp [h1.ne, show ¬ i + 1 ≤ p.2 by omega, show ¬ i ≤ p.2 by omega]
    · simp [h1]
    · obtain ⟨m, hm⟩ : ∃ m, p.2 = i + 1 + m := ⟨p.2 - (i + 1), by omega⟩
      have e1 : p.2 - i = m + 1 := by omega
      have e2 : p.2 - (i + 1) = m := by omega
      simp [show p.2 ≠ i by omega, show i + 1 ≤ p.2 by omega, show i ≤ p.2 by omega, e1, e2]

theorem csvRows_eq {keys : List κ} (hk : keys.Nodup) : ∀ (rows : List (List α)) (f : Nat → List α),
    (∀ row ∈ rows, row.length ≤ keys.length) →
    csvRows keys rows (keys.zipIdx.map fun p => (p.1, f p.2))
      = .ok (keys.zipIdx.map fun p => (p.1, f p.2 ++ rows.filterMap fun row => row[p.2]?))
  | [], f, _ => by simp [csvRows]
  | row :: rows, f, h => by
    simp only [csvRows]
    rw [csvRow_eq hk row 0 f (by have := h row (by simp); omega)]
    simp only
    rw [csvRows_eq hk rows (fun j => f j ++ if 0 ≤ j then (row[j - 0]?).toList else []) (fun r hr => h r (by simp [hr]))]
    congr 1
    apply List.map_congr_left
    intro p _
    simp only [Nat.zero_le, if_true, Nat.sub_zero, List.append_assoc]
    congr 2
    cases hh : row[p.2]? <;> simp [hh]

theorem csvInit_eq {keys : List κ} (hk : keys.Nodup) :
    (csvInit keys : Dict κ (List α)) = keys.zipIdx.map fun p => (p.1, (fun _ => []) p.2) := by
  unfold csvInit
  rw [foldl_set_nodup (fun k : κ => k) (fun _ => ([] : List α)) keys [] (by simpa using hk) (by simp)]
  simp only [List.nil_append]
  conv_lhs => rw [← List.zipIdx_map_fst 0 keys]
  rw [List.map_map]; rfl

/-- What is read from a file whose first line has no repetitions and is its longest row: the column `j` consists of
the `j`-th entries of those rows that have one. -/
theorem csvDict_eq {header : List α} {rows : List (List α)} {name : α → κ} (hk : (header.map name).Nodup)
    (hl : ∀ row ∈ rows, row.length ≤ header.length) :
    csvDict (header :: rows) name
      = .ok ((header.map name).zipIdx.map fun p => (p.1, rows.filterMap fun row => row[p.2]?)) := by
  simp only [csvDict]
  rw [csvInit_eq hk, csvRows_eq hk rows (fun _ => []) (by simpa using hl)]
  simp

theorem csvRow_error {keys : List κ} : ∀ (row : List α) (i : Nat) (d : Dict κ (List α)),
    (∀ k ∈ keys, k ∈ Dict.keys d) → i ≤ keys.length → keys.length < i + row.length →
      csvRow keys i row d = .error .indexError
  | [], i, d, _, hi, h => by simp at h; omega
  | x :: row, i, d, hd, hi, h => by
    simp only [csvRow]
    cases hki : keys[i]? with
    | none => rfl
    | some k =>
      have hlt := (List.getElem?_eq_some_iff.1 hki).1
      obtain ⟨col, hcol⟩ := (Dict.mem_keys_iff _ _).1 (hd k (List.mem_of_getElem? hki))
      simp only [hcol]
      refine csvRow_error row (i + 1) _ ?_ hlt (by simp at h; omega)
      intro k' hk'
      rw [Dict.mem_keys_set]
      exact .inr (hd k' hk')

theorem csvRow_keys {keys : List κ} : ∀ (row : List α) (i : Nat) (d : Dict κ (List α)),
    (∀ k ∈ keys, k ∈ Dict.keys d) →
      (∃ d', csvRow keys i row d = .ok d' ∧ ∀ k ∈ keys, k ∈ Dict.keys d') ∨ csvRow keys i row d = .error .indexError
  | [], i, d, hd => .inl ⟨d, rfl, hd⟩
  | x :: row, i, d, hd => by
    simp only [csvRow]
    cases hki : keys[i]? with
    | none => exact .inr rfl
    | some k =>
      obtain ⟨col, hcol⟩ := (Dict.mem_keys_iff _ _).1 (hd k (List.mem_of_getElem? hki))
      simp only [hcol]
      exact csvRow_keys row (i + 1) _ fun k' hk' => (Dict.mem_keys_set _ _ _ _).2 (.inr (hd k' hk'))

/-- **C88.** A row that is longer than the first line raises `IndexError`. -/
theorem C88_csv_long (header : List (List Char)) {rows : List (List (List Char))} (name : List Char → κ)
    (ev : Entry V → Except PyErr (Option V)) (h : ∃ row ∈ rows, header.length < row.length) :
    (csvHandle ev name (header :: rows) : Res (Data κ V τ)) = (empty, some .indexError) := by
  have key : ∀ (rows : List (List (List Char))) (d : Dict κ (List (List Char))),
      (∃ row ∈ rows, (header.map name).length < row.length) → (∀ k ∈ header.map name, k ∈ Dict.keys d) →
      csvRows (header.map name) rows d = .error .indexError := by
    intro rows
    induction rows with
    | nil => simp
    | cons r rows ih =>
      rintro d ⟨row, hrow, hlt⟩ hd
      simp only [csvRows]
      rcases csvRow_keys r 0 d hd with ⟨d', e, hd'⟩ | e
      · rw [e]
        simp only
        rcases List.mem_cons.1 hrow with rfl | hrow
        · rw [csvRow_error row 0 d hd (by omega) (by omega)] at e; simp at e
        · exact ih d' ⟨row, hrow, hlt⟩ hd'
      · rw [e]
  simp only [csvHandle, csvDict]
  rw [key rows _ (by simpa using h)]
  intro k hk
  unfold csvInit
  rw [mem_keys_foldl_set (fun k : κ => k)]
  exact .inl (by simpa using hk)

end csv

theorem evalColumns_ok {ev : Entry V → Except PyErr (Option V)} {g : Entry V → Option V} :
    ∀ (d : Dict κ (List (Entry V))), (∀ p ∈ d, ∀ e ∈ p.2, ev e = .ok (g e)) →
      evalColumns ev d = .ok (d.map fun p => (p.1, .list (p.2.map g)))
  | [], _ => rfl
  | (k, col) :: d, h => by
    simp only [evalColumns]
    rw [mapM_ok_of (g := g) (h (k, col) (by simp)), evalColumns_ok d fun p hp => h p (by simp [hp])]
    rfl

theorem filterMap_getElem?_full {α : Type} {rows : List (List α)} {n j : Nat} (hl : ∀ row ∈ rows, row.length = n)
    (hj : j < n) (dflt : α) : (rows.filterMap fun row => row[j]?) = rows.map fun row => (row[j]?).getD dflt := by
  induction rows with
  | nil => rfl
  | cons r rows ih =>
    have hr := hl r (by simp)
    rw [List.filterMap_cons, List.getElem?_eq_getElem (by omega), ih fun row h => hl row (by simp [h])]
    simp [List.getElem?_eq_getElem (show j < r.length by omega)]

/-- **C88** (partial: files whose rows all have the length of the first line, see `C88_csv_short_false` and `C88_csv_long`,
and whose first line has no repetitions, see `C88_csv_repeated_false`; without pandas; before the conversion to the
standard format, see C08). The columns of the file become the columns of the data, with one row for each line, provided
all entries can be evaluated and the entries of every column have one type. -/
theorem C88_csv_partial {header : List (List Char)} {rows : List (List (List Char))} {name : List Char → κ}
    (hk : (header.map name).Nodup) (hl : ∀ row ∈ rows, row.length = header.length)
    {ev : Entry V → Except PyErr (Option V)} {val : List Char → Option V}
    (hev : ∀ row ∈ rows, ∀ s ∈ row, ev (.text s) = .ok (val s))
    (hty : ∀ (j : Nat), ∀ r ∈ rows, ∀ r' ∈ rows, ∀ s s' v w, r[j]? = some s → r'[j]? = some s' →
      val s = some v → val s' = some w → typeOf v = typeOf w) :
    ∃ D : Data κ V τ, csvHandle ev name (header :: rows) = (D, none) ∧ Reachable D ∧
      (∀ k, k ∈ D.keys ↔ k ∈ header.map name) ∧ (header ≠ [] → D.nRows = rows.length) ∧
      ∀ (j : Nat) k, header[j]? = some k → colOf D (name k) = rows.map fun row => val ((row[j]?).getD []) := by
  set g : Entry V → Option V := fun e => match e with | .text s => val s | .value v => v with hg
  have hd := csvDict_eq (κ := κ) (header := header) (rows := rows) (name := name) hk fun row h => (hl row h).le
  set cols : Dict κ (List (List Char)) :=
    (header.map name).zipIdx.map fun p => (p.1, rows.filterMap fun row => row[p.2]?) with hcols
  have hmem : ∀ p ∈ cols, ∃ j < header.length, p.2 = rows.map fun row => (row[j]?).getD [] := by
    intro p hp
    obtain ⟨q, hq, rfl⟩ := List.mem_map.1 hp
    have hlt : q.2 < header.length := by
      have := (List.getElem?_eq_some_iff.1 (List.mem_zipIdx_iff_getElem?.1 hq)).1
      simpa using this
    exact ⟨q.2, hlt, filterMap_getElem?_full hl hlt []⟩
  have hget : ∀ row ∈ rows, ∀ j < header.length, row[j]? = some ((row[j]?).getD []) := by
    intro row hrow j hj
    rw [List.getElem?_eq_getElem (by rw [hl row hrow]; exact hj)]; rfl
  have heval : evalColumns ev (Dict.mapVals (fun col => col.map (Entry.text : List Char → Entry V)) cols)
      = .ok (cols.map fun p => (p.1, (.list (p.2.map val) : Arg V))) := by
    rw [evalColumns_ok (g := g)]
    · congr 1
      simp only [Dict.mapVals, List.map_map]
      apply List.map_congr_left
      intro p _
      simp [Function.comp_def, hg]
    · intro p hp e he
      obtain ⟨q, hq, rfl⟩ := List.mem_map.1 hp
      obtain ⟨j, hj, e2⟩ := hmem q hq
      simp only at he
      rw [e2, List.map_map] at he
      obtain ⟨row, hrow, rfl⟩ := List.mem_map.1 he
      exact hev row hrow _ (List.mem_of_getElem? (hget row hrow j hj))
  obtain ⟨D, h1, h2, h3, h4, h5⟩ := update_empty_columns (τ := τ) (n := rows.length)
    (d := cols.map fun p => (p.1, (.list (p.2.map val) : Arg V)))
    (by
      have : Dict.keys (cols.map fun p => (p.1, (.list (p.2.map val) : Arg V))) = Dict.keys cols := by
        simp [Dict.keys, Function.comp_def]
      rw [this, hcols, keys_zipIdx (header.map name) fun j => rows.filterMap fun row => row[j]?]; exact hk)
    (by
      intro p hp
      obtain ⟨q, hq, rfl⟩ := List.mem_map.1 hp
      obtain ⟨j, -, e⟩ := hmem q hq
      simp [Arg.toList, e])
    (by
      intro p hp v w hv hw
      obtain ⟨q, hq, rfl⟩ := List.mem_map.1 hp
      obtain ⟨j, hj, e⟩ := hmem q hq
      simp only [Arg.toList, e, List.map_map, List.mem_map, Function.comp_apply] at hv hw
      obtain ⟨r, hr, ev⟩ := hv
      obtain ⟨r', hr', ew⟩ := hw
      exact hty j r hr r' hr' _ _ v w (hget r hr j hj) (hget r' hr' j hj) ev ew)
  refine ⟨D, ?_, h2, ?_, ?_, ?_⟩
  · simp only [csvHandle, hd, csvFinish]
    rw [heval]
    exact h1
  · intro k
    rw [h3]
    have : Dict.keys (cols.map fun p => (p.1, (.list (p.2.map val) : Arg V))) = Dict.keys cols := by
      simp [Dict.keys, Function.comp_def]
    rw [this, hcols, keys_zipIdx (header.map name) fun j => rows.filterMap fun row => row[j]?]
  · intro hne
    apply h4
    intro h
    have := congrArg List.length h
    simp [hcols] at this
    exact hne this
  · intro j k hj
    have hjl : j < header.length := (List.getElem?_eq_some_iff.1 hj).1
    have hg1 : Dict.get? cols (name k) = some (rows.filterMap fun row => row[j]?) :=
      get?_zipIdx hk (fun j => rows.filterMap fun row => row[j]?) (by simp [hj])
    have hg2 : Dict.get? (cols.map fun p => (p.1, (.list (p.2.map val) : Arg V))) (name k)
        = some (.list ((rows.filterMap fun row => row[j]?).map val)) := by
      have := Dict.get?_mapVals (fun l : List (List Char) => (Arg.list (l.map val) : Arg V)) cols (name k)
      rw [hg1] at this
      exact this
    rw [h5 _ _ hg2, filterMap_getElem?_full hl hjl []]
    simp [Arg.toList]

/-- **C88 is false** for files with a row that is shorter than the first line: the missing entry is not `None`, but the
entry of the following row takes its place, so that the data point consists of values of different rows. -/
theorem C88_csv_short_false {α : Type} {header short next : List α} {before after : List (List α)} {name : α → κ}
    (hk : (header.map name).Nodup) (hb : ∀ row ∈ before, row.length = header.length)
    (hs : short.length < header.length) (hn : next.length = header.length)
    (ha : ∀ row ∈ after, row.length ≤ header.length) :
    ∃ d, csvDict (header :: (before ++ short :: next :: after)) name = .ok d ∧
      (∀ (j : Nat) x, short[j]? = some x → ∃ k col, header[j]? = some k ∧ d.get? (name k) = some col ∧
        col[before.length]? = some x) ∧
      ∀ (j : Nat) x, short.length ≤ j → next[j]? = some x → ∃ k col, header[j]? = some k ∧
        d.get? (name k) = some col ∧ col[before.length]? = some x := by
  have hl : ∀ row ∈ before ++ short :: next :: after, row.length ≤ header.length := by
    intro row hr
    simp only [List.mem_append, List.mem_cons] at hr
    rcases hr with h | rfl | rfl | h
    · exact (hb row h).le
    · exact hs.le
    · exact hn.le
    · exact ha row h
  have hcolb : ∀ j < header.length, (before.filterMap fun row => row[j]?).length = before.length := by
    intro j hj
    cases before with
    | nil => rfl
    | cons r before =>
      have hr := hb r (by simp)
      rw [filterMap_getElem?_full hb hj (r[j]'(by omega))]
      simp
  refine ⟨_, csvDict_eq hk hl, ?_, ?_⟩
  · intro j x hx
    have hj : j < header.length := lt_trans (List.getElem?_eq_some_iff.1 hx).1 hs
    refine ⟨header[j], _, List.getElem?_eq_getElem hj,
      get?_zipIdx hk (fun j => (before ++ short :: next :: after).filterMap fun row => row[j]?) (i := j) (by simp [hj]), ?_⟩
    rw [List.filterMap_append, List.getElem?_append_right (by rw [hcolb j hj]), hcolb j hj]
    simp [hx]
  · intro j x hle hx
    have hj : j < header.length := by have := (List.getElem?_eq_some_iff.1 hx).1; omega
    refine ⟨header[j], _, List.getElem?_eq_getElem hj,
      get?_zipIdx hk (fun j => (before ++ short :: next :: after).filterMap fun row => row[j]?) (i := j) (by simp [hj]), ?_⟩
    rw [List.filterMap_append, List.getElem?_append_right (by rw [hcolb j hj]), hcolb j hj]
    simp [List.getElem?_eq_none hle, hx]

/-- **C88 is false** for files with a repeated name in the first line: the entries of both columns are put into the same
column, which has twice as many rows as the file. -/
theorem C88_csv_repeated_false {α : Type} (h : α) (name : α → κ) (rows : List (α × α)) :
    csvDict ([h, h] :: rows.map fun p => [p.1, p.2]) name = .ok [(name h, rows.flatMap fun p => [p.1, p.2])] := by
  have key : ∀ (rows : List (α × α)) (col : List α),
      csvRows [name h, name h] (rows.map fun p => [p.1, p.2]) [(name h, col)]
        = .ok [(name h, col ++ rows.flatMap fun p => [p.1, p.2])] := by
    intro rows
    induction rows with
    | nil => simp [csvRows]
    | cons p rows ih =>
      intro col
      simp only [List.map_cons, csvRows, csvRow, List.getElem?_cons_zero, Dict.get?, if_true, Dict.set,
        List.getElem?_cons_succ]
      rw [ih]
      simp
  have := key rows []
  simpa [csvDict, csvInit, Dict.set] using this

/-- **C88 is false** for files with an empty entry: without pandas they cannot be read at all, given that `strptime` and
`literal_eval` reject the empty string. -/
theorem C88_csv_empty_false {header : List (List Char)} {rows : List (List (List Char))} (name : List Char → κ)
    {strptime : List Char → Option V} {literal : List Char → Except LitErr (Option V)} (h1 : strptime [] = none)
    (h2 : literal [] = .error .syntaxError) (hk : (header.map name).Nodup)
    (hl : ∀ row ∈ rows, row.length ≤ header.length) (hmiss : ∃ row ∈ rows, [] ∈ row) :
    ∃ e, (csvHandle (saveEval strptime literal) name (header :: rows) : Res (Data κ V τ)) = (empty, some e) := by
  have hev : saveEval strptime literal (.text []) = .error .runtimeError := by
    simp [saveEval, strip, h1, h2]
  obtain ⟨row, hrow, hempty⟩ := hmiss
  obtain ⟨j, hj⟩ := List.mem_iff_getElem?.1 hempty
  have hjl : j < header.length := lt_of_lt_of_le (List.getElem?_eq_some_iff.1 hj).1 (hl row hrow)
  have key : ∀ (d : Dict κ (List (Entry V))), (∃ p ∈ d, Entry.text [] ∈ p.2) →
      ∃ e, evalColumns (saveEval strptime literal) d = .error e := by
    intro d
    induction d with
    | nil => simp
    | cons p d ih =>
      obtain ⟨k, col⟩ := p
      rintro ⟨q, hq, hmem⟩
      simp only [evalColumns]
      cases hm : col.mapM (saveEval strptime literal) with
      | error e => exact ⟨e, rfl⟩
      | ok c =>
        rcases List.mem_cons.1 hq with rfl | hq
        · obtain ⟨e, he⟩ := mapM_error_of hmem hev
          rw [hm] at he; simp at he
        · obtain ⟨e, he⟩ := ih ⟨q, hq, hmem⟩
          rw [he]; exact ⟨e, rfl⟩
  obtain ⟨e, he⟩ := key (Dict.mapVals (fun col => col.map Entry.text)
      ((header.map name).zipIdx.map fun p => (p.1, rows.filterMap fun row => row[p.2]?))) (by
    refine ⟨(name header[j], (rows.filterMap fun row => row[j]?).map Entry.text), ?_, ?_⟩
    · refine List.mem_map.2 ⟨(name header[j], rows.filterMap fun row => row[j]?), List.mem_map.2 ⟨(name header[j], j), ?_, rfl⟩, rfl⟩
      exact List.mem_zipIdx_iff_getElem?.2 (by simp [hjl])
    · exact List.mem_map.2 ⟨[], List.mem_filterMap.2 ⟨row, hrow, hj⟩, rfl⟩)
  refine ⟨e, ?_⟩
  simp only [csvHandle, csvDict_eq hk hl, csvFinish, he]

/-- **C88.** An entry is a date if it has the format of a date, otherwise the python literal it denotes. Entries that are
not python expressions raise `RuntimeError`. -/
theorem C88_entry (strptime : List Char → Option V) (literal : List Char → Except LitErr (Option V)) (s : List Char) :
    (∀ v, strptime (strip s) = some v → saveEval strptime literal (.text s) = .ok (some v)) ∧
    (∀ v, strptime (strip s) = none → literal s = .ok v → saveEval strptime literal (.text s) = .ok v) ∧
    (strptime (strip s) = none → literal s = .error .syntaxError →
      saveEval strptime literal (.text s) = .error .runtimeError) := by
  refine ⟨fun v h => by simp [saveEval, h], fun v h h' => by simp [saveEval, h, h'], fun h h' => by simp [saveEval, h, h']⟩

theorem dropWhile_decomp {α : Type} (p : α → Bool) (l : List α) :
    ∃ w, l = w ++ l.dropWhile p ∧ (∀ c ∈ w, p c = true) ∧ ∀ c, (l.dropWhile p).head? = some c → p c = false := by
  induction l with
  | nil => exact ⟨[], by simp⟩
  | cons a l ih =>
    by_cases h : p a = true
    · obtain ⟨w, h1, h2, h3⟩ := ih
      refine ⟨a :: w, ?_, ?_, ?_⟩
      · rw [List.dropWhile_cons_of_pos h, List.cons_append, ← h1]
      · intro c hc
        rcases List.mem_cons.1 hc with rfl | hc
        · exact h
        · exact h2 c hc
      · rw [List.dropWhile_cons_of_pos h]; exact h3
    · refine ⟨[], by simp [h], by simp, ?_⟩
      intro c hc
      rw [List.dropWhile_cons_of_neg h] at hc
      simp only [List.head?_cons, Option.some.injEq] at hc
      subst hc
      simpa using h

/-- **C88.** Before an entry is read as a date exactly the blanks around it are removed. -/
theorem C88_strip (s : List Char) : ∃ before after, s = before ++ strip s ++ after ∧
    (∀ c ∈ before, c.isWhitespace = true) ∧ (∀ c ∈ after, c.isWhitespace = true) ∧
    (∀ c, (strip s).head? = some c → c.isWhitespace = false) ∧
    ∀ c, (strip s).getLast? = some c → c.isWhitespace = false := by
  obtain ⟨b, h1, h2, h3⟩ := dropWhile_decomp (·.isWhitespace) s
  obtain ⟨a, h4, h5, h6⟩ := dropWhile_decomp (·.isWhitespace) (s.dropWhile (·.isWhitespace)).reverse
  have h7 : s.dropWhile (·.isWhitespace) = strip s ++ a.reverse := by
    have := congrArg List.reverse h4
    rw [List.reverse_reverse, List.reverse_append] at this
    exact this
  refine ⟨b, a.reverse, ?_, h2, fun c hc => h5 c (List.mem_reverse.1 hc), ?_, ?_⟩
  · rw [List.append_assoc, ← h7]; exact h1
  · intro c hc
    apply h3
    rw [h7, List.head?_append, hc]
    rfl
  · intro c hc
    apply h6
    rw [strip, List.getLast?_reverse] at hc
    exact hc

example : strip " 1 2 ".toList = "1 2".toList := by decide +kernel

/-- **C88.** A file without any line raises. -/
theorem C88_no_lines (ev : Entry V → Except PyErr (Option V)) (name : List Char → κ) :
    (csvHandle ev name [] : Res (Data κ V τ)) = (empty, some .otherError) := rfl

/-- **C88 is false** for entries that are python expressions but no literals, e.g. `nan` or other words: not the documented
`RuntimeError` is raised, but the exception of `literal_eval` (a `ValueError`). -/
theorem C88_word_false {strptime : List Char → Option V} {literal : List Char → Except LitErr (Option V)} {s : List Char}
    (h1 : strptime (strip s) = none) (h2 : literal s = .error (.other .valueError)) :
    saveEval strptime literal (.text s) = .error .valueError := by
  simp [saveEval, h1, h2]

example : saveEval (V := Val) (fun _ => none) (fun _ => .error (.other .valueError)) (.text "calm".toList) = .error .valueError :=
  C88_word_false rfl rfl

/-- **C88 is false** for files read by pandas with a missing entry in a column of dates: the missing entry is a number
(`nan`), so the data is rejected. In general columns with entries of two types are rejected. -/
theorem C88_mixed_false {ev : Entry V → Except PyErr (Option V)} {d : Dict κ (List (Entry V))} (hd : (Dict.keys d).Nodup)
    {k : κ} {col : List (Entry V)} (hk : d.get? k = some col) {e e' : Entry V} (he : e ∈ col) (he' : e' ∈ col) {v w : V}
    (hv : ev e = .ok (some v)) (hw : ev e' = .ok (some w)) (hne : typeOf v ≠ typeOf w) :
    (csvFinish ev d : Res (Data κ V τ)).2 ≠ none := by
  intro hnone
  unfold csvFinish at hnone
  split at hnone
  · simp at hnone
  · rename_i d' hd'
    have key : ∀ (d : Dict κ (List (Entry V))) (d' : Dict κ (Arg V)), evalColumns ev d = .ok d' →
        Dict.keys d' = Dict.keys d ∧ ∀ k col, d.get? k = some col → ∃ c, col.mapM ev = .ok c ∧ d'.get? k = some (.list c) := by
      intro d
      induction d with
      | nil => intro d' h; simp only [evalColumns, Except.ok.injEq] at h; subst h; simp
      | cons p d ih =>
        obtain ⟨x, cx⟩ := p
        intro d' h
        simp only [evalColumns] at h
        split at h
        · simp at h
        rename_i c hc
        split at h
        · simp at h
        rename_i d2 h2
        simp only [Except.ok.injEq] at h
        subst h
        obtain ⟨i1, i2⟩ := ih d2 h2
        refine ⟨by simp [i1], fun k col hk => ?_⟩
        rw [Dict.get?_cons] at hk
        rw [Dict.get?_cons]
        split_ifs at hk ⊢ with hx
        · simp only [Option.some.injEq] at hk
          subst hk
          exact ⟨c, hc, rfl⟩
        · exact i2 k col hk
    obtain ⟨k1, k2⟩ := key d d' hd'
    obtain ⟨c, hc, hg⟩ := k2 k col hk
    have hmem : ∀ (l : List (Entry V)) (c : List (Option V)), l.mapM ev = .ok c → ∀ e ∈ l, ∀ v, ev e = .ok v → v ∈ c := by
      intro l
      induction l with
      | nil => simp
      | cons a l ih =>
        intro c h e he v hv
        rw [List.mapM_cons] at h
        cases ha : ev a with
        | error x => rw [ha] at h; simp [bind, Except.bind] at h
        | ok y =>
          cases hl : l.mapM ev with
          | error x => rw [ha, hl] at h; simp [bind, Except.bind] at h
          | ok ys =>
            rw [ha, hl] at h
            simp only [bind, Except.bind, pure, Except.pure, Except.ok.injEq] at h
            subst h
            rcases List.mem_cons.1 he with rfl | he
            · rw [ha] at hv; simp only [Except.ok.injEq] at hv; simp [hv]
            · exact List.mem_cons_of_mem _ (ih ys hl e he v hv)
    have hs : fromDict d' = ((fromDict d' : Res (Data κ V τ)).1, none) := Prod.ext rfl hnone
    have hm := C02_update_measured (by rw [k1]; exact hd) hs k
    have harg : argOf d' k = c := by simp [argOf, hg, Arg.toList]
    have h0 : colOf (empty : Data κ V τ) k = [] := rfl
    rw [harg, h0] at hm
    have hin : ∀ v, some v ∈ c → some v ∈ colOf (fromDict d' : Res (Data κ V τ)).1 k := by
      intro v hv
      have : v ∈ measured (colOf (fromDict d' : Res (Data κ V τ)).1 k) := by
        rw [hm]; simp [measured, hv]
      simpa [measured] using this
    have hr : ReachableAny (fromDict d' : Res (Data κ V τ)).1 := .update d' false .empty
    exact hne ((C09_homogeneous hr (hin w (hmem col c hc e' he' _ hw))).2 v (hin v (hmem col c hc e he _ hv)))

example : (csvFinish (τ := Ty) (fun e => match e with | .text _ => .ok (some (Val.str ['d'])) | .value v => .ok v)
    [("date", [Entry.text "2020".toList, .value (some (.float 0))])]).2 ≠ none :=
  C88_mixed_false (by decide) (k := "date") rfl (e := .text "2020".toList) (e' := .value (some (.float 0))) (by simp) (by simp)
    (v := .str ['d']) (w := .float 0) rfl rfl (by decide)

/-! ## C89: NMEA files -/

section nmea

/-- A dictionary of values as returned for one sentence. -/
abbrev Values (V : Type) := Dict Nmea.Key (Option V)

theorem coordPart_nodup {W : Type} {conv : W → Except PyErr W} {source target : Nmea.Key} {d d' : Dict Nmea.Key W}
    (h : Nmea.coordPart conv source target d = .ok d') (hd : (Dict.keys d).Nodup) : (Dict.keys d').Nodup := by
  unfold Nmea.coordPart at h
  split at h
  · simp only [Except.ok.injEq] at h; subst h; exact hd
  · split at h
    · simp at h
    · simp only [Except.ok.injEq] at h; subst h
      exact Dict.nodup_keys_del _ _ (Dict.nodup_keys_set _ _ _ hd)

theorem windPart_nodup {W : Type} (isR isT : W → Bool) {d : Dict Nmea.Key W} (hd : (Dict.keys d).Nodup) :
    (Dict.keys (Nmea.windPart isR isT d)).Nodup := by
  unfold Nmea.windPart
  split
  · simp only
    refine Dict.nodup_keys_del _ _ (Dict.nodup_keys_del _ _ (Dict.nodup_keys_del _ _ ?_))
    split_ifs
    · exact Dict.nodup_keys_set _ _ _ (Dict.nodup_keys_set _ _ _ hd)
    · exact Dict.nodup_keys_set _ _ _ (Dict.nodup_keys_set _ _ _ hd)
    · exact hd
  · exact hd

theorem postprocess_nodup {W : Type} {isR isT : W → Bool} {conv stamp : W → Except PyErr W} {d d' : Dict Nmea.Key W}
    (h : Nmea.postprocess isR isT conv stamp d = .ok d') (hd : (Dict.keys d).Nodup) : (Dict.keys d').Nodup := by
  unfold Nmea.postprocess at h
  split at h
  · simp at h
  rename_i d1 h1
  split at h
  · simp at h
  rename_i d2 h2
  have n2 := coordPart_nodup h2 (coordPart_nodup h1 (windPart_nodup isR isT hd))
  unfold Nmea.timePart at h
  split at h
  · simp only [Except.ok.injEq] at h; subst h; exact n2
  · split at h
    · simp at h
    · simp only [Except.ok.injEq] at h; subst h
      exact Dict.nodup_keys_set _ _ _ n2

/-- What the sentence `line` contributes to the column `k`. -/
def contribution (read : List Char → Except PyErr (Values V)) (k : Nmea.Key) (line : List Char) : List V :=
  match read line with
  | .ok d => ((d.get? k).join).toList
  | .error _ => []

theorem nmeaStep_ok {read : List Char → Except PyErr (Values V)} {D D' : Data Nmea.Key V τ} {line : List Char}
    (h : nmeaStep read D line = (D', none)) :
    ∃ d, read line = .ok d ∧ update D (Dict.mapVals Arg.scalar d) true = (D', none) := by
  unfold nmeaStep at h
  split at h
  · simp at h
  · rename_i d hd
    exact ⟨d, hd, h⟩

theorem argOf_scalar (d : Values V) (k : Nmea.Key) :
    measured (argOf (Dict.mapVals Arg.scalar d) k) = ((d.get? k).join).toList := by
  simp only [argOf, Dict.get?_mapVals, Option.map_map]
  cases h : d.get? k with
  | none => simp [measured]
  | some v => cases v <;> simp [measured, Arg.toList]

theorem putAll_scalar_maxLen {d : Dict Nmea.Key (Arg V)} (hd : (Dict.keys d).Nodup) (h1 : ∀ p ∈ d, p.2.toList.length = 1)
    {D D' : Data Nmea.Key V τ} {m : Int} (hcol : ∀ k ∈ Dict.keys d, ((colOf D k).length : Int) ≤ m)
    (hm : D.maxLen ≤ m + 1) (h : Res.forEach putArg d D = (D', none)) : D'.maxLen ≤ m + 1 := by
  induction d generalizing D with
  | nil => simp only [Res.forEach, Prod.mk.injEq] at h; rw [← h.1]; exact hm
  | cons p d ih =>
    obtain ⟨x, a⟩ := p
    obtain ⟨D1, e1, e2⟩ := Res.forEach_none_cons h
    rw [putArg_eq] at e1
    obtain ⟨hc, hmax⟩ := extend_ok e1
    simp only [Dict.keys_cons, List.nodup_cons] at hd
    refine ih hd.2 (fun p hp => h1 p (by simp [hp])) ?_ ?_ e2
    · intro k hk
      have hne : x ≠ k := fun e => hd.1 (e ▸ hk)
      rw [colOf_eq_of_get? (D' := D) (by rw [hc, Dict.get?_set]; simp [hne])]
      exact hcol k (by simp [hk])
    · have := hcol x (by simp)
      have ha := h1 (x, a) (by simp)
      simp only [List.length_append] at hmax
      rw [hmax]
      simp only at ha
      omega

theorem update_scalar_rows {d : Dict Nmea.Key (Arg V)} (hd : (Dict.keys d).Nodup) (h1 : ∀ p ∈ d, p.2.toList.length = 1)
    {D D' : Data Nmea.Key V τ} (hr : Rect D) (h : update D d true = (D', none)) : D'.maxLen ≤ D.maxLen + 1 := by
  obtain ⟨D1, e1, e2⟩ := Res.andThen_none h
  have hm1 : D1.maxLen = D.maxLen := by
    have := fill_maxLen D.maxLen (Dict.keys d ++ D.keys) D; rw [e1] at this; exact this
  have hcol1 : ∀ k ∈ Dict.keys d, ((colOf D1 k).length : Int) ≤ D.maxLen := by
    intro k hk
    rw [fill_colOf e1, if_pos (by simp [hk])]
    have := length_pad D.maxLen (colOf D k)
    have h2 := hr.toLe.colOf_le k
    omega
  have fin : ∀ {D2 : Data Nmea.Key V τ}, D2.maxLen ≤ D.maxLen + 1 →
      (∀ k ∈ Dict.keys d, ((colOf D2 k).length : Int) ≤ D.maxLen) → unsafeUpdate D2 d = (D', none) →
      D'.maxLen ≤ D.maxLen + 1 := by
    intro D2 hm hc hu
    obtain ⟨D3, f1, f2⟩ := Res.andThen_none hu
    have := fill_maxLen D3.maxLen D3.keys D3
    rw [f2] at this
    simp only at this
    rw [this]
    exact putAll_scalar_maxLen hd h1 hc hm f1
  split at e2
  · exact fin (by omega) hcol1 e2
  · split at e2
    · simp at e2
    · obtain ⟨D2, e3, e4⟩ := Res.andThen_none e2
      have hmd : ∀ (ks : List Nmea.Key) (A B : Data Nmea.Key V τ), Res.forEach dropLastKey ks A = (B, none) →
          B.maxLen = A.maxLen := by
        intro ks
        induction ks with
        | nil => intro A B h; simp only [Res.forEach, Prod.mk.injEq] at h; rw [h.1]
        | cons k ks ih =>
          intro A B h
          obtain ⟨C, g1, g2⟩ := Res.forEach_none_cons h
          rw [ih C B g2]
          unfold dropLastKey at g1
          split at g1
          · simp at g1
          · simp only [Prod.mk.injEq, and_true] at g1; rw [← g1]
      refine fin (by rw [hmd _ _ _ e3]; omega) ?_ e4
      intro k hk
      have hg := dropLast_get? hd e3 k
      have hc := hcol1 k hk
      have : (colOf D2 k).length ≤ (colOf D1 k).length := by
        rw [if_pos hk] at hg
        have e : colOf D2 k = (colOf D1 k).dropLast := by
          simp only [colOf, hg]
          cases D1.cols.get? k <;> simp
        rw [e]; simp
      omega
    · exact fin (by omega) hcol1 e2

/-- Reading the sentences one after the other. -/
theorem nmea_loop {read : List Char → Except PyErr (Values V)} (hread : ∀ line d, read line = .ok d → (Dict.keys d).Nodup) :
    ∀ (ls : List (List Char)) (D D' : Data Nmea.Key V τ), Reachable D → Res.forEach (nmeaStep read) ls D = (D', none) →
      Reachable D' ∧ (∀ line ∈ ls, ∃ d, read line = .ok d) ∧ D'.nRows ≤ D.nRows + ls.length ∧
      ∀ k, measured (colOf D' k) = measured (colOf D k) ++ ls.flatMap (contribution read k)
  | [], D, D', hr, h => by
    simp only [Res.forEach, Prod.mk.injEq] at h
    rw [← h.1]
    exact ⟨hr, by simp, by simp, by simp⟩
  | line :: ls, D, D', hr, h => by
    obtain ⟨D1, h1, h2⟩ := Res.forEach_none_cons h
    obtain ⟨d, hd, hu⟩ := nmeaStep_ok h1
    have hnd : (Dict.keys (Dict.mapVals Arg.scalar d)).Nodup := by
      rw [Dict.keys_mapVals]; exact hread line d hd
    obtain ⟨a, b, c, e⟩ := nmea_loop hread ls D1 D' (.update hr hu) h2
    refine ⟨a, ?_, ?_, ?_⟩
    · intro l hl
      rcases List.mem_cons.1 hl with rfl | hl
      · exact ⟨d, hd⟩
      · exact b l hl
    · have := update_scalar_rows hnd (by
        intro p hp
        obtain ⟨q, -, rfl⟩ := List.mem_map.1 hp
        rfl) hr.rect hu
      simp only [nRows, List.length_cons, Nat.cast_add, Nat.cast_one] at c this ⊢
      omega
    · intro k
      rw [e k, C02_update_measured hnd hu, argOf_scalar]
      simp [contribution, hd]

/-- **C89.** Whenever the handler succeeds (before the conversion to the standard format, see C08), every sentence that
passes the sentence filter could be read, there are at most as many rows as such sentences, and the measured values of
each column are exactly the values of the decoded sentences, in their order: nothing is lost, invented or reordered. -/
theorem C89_measured {keepLine : List Char → Bool} {keep : Nmea.Key → Bool}
    {parse : List Char → Except PyErr (List (Nmea.Key × Option V))} {isR isT : Option V → Bool}
    {conv stamp : Option V → Except PyErr (Option V)} {lines : List (List Char)} {D : Data Nmea.Key V τ}
    (h : nmeaHandle keepLine (sentenceDict parse keep (Nmea.postprocess isR isT conv stamp)) lines = (D, none)) :
    Reachable D ∧ D.nRows ≤ ((lines.filter keepLine).length : Int) ∧
    (∀ line ∈ lines, keepLine line = true → ∃ fields d, parse line = .ok fields ∧
      Nmea.postprocess isR isT conv stamp (fieldDict keep fields) = .ok d) ∧
    ∀ k, measured (colOf D k) = (lines.filter keepLine).flatMap
      (contribution (sentenceDict parse keep (Nmea.postprocess isR isT conv stamp)) k) := by
  have hread : ∀ line d, sentenceDict parse keep (Nmea.postprocess isR isT conv stamp) line = .ok d →
      (Dict.keys d).Nodup := by
    intro line d hd
    unfold sentenceDict at hd
    split at hd
    · simp at hd
    · exact postprocess_nodup hd (foldl_set_keys_nodup (fun f : Nmea.Key × Option V => f.1) (fun f => f.2) _ (by simp))
  obtain ⟨h1, h2, h3, h4⟩ := nmea_loop hread _ _ _ .empty h
  refine ⟨h1, by simpa [nRows, empty] using h3, ?_, fun k => by simpa [colOf, empty, measured] using h4 k⟩
  intro line hl hk
  obtain ⟨d, hd⟩ := h2 line (List.mem_filter.2 ⟨hl, hk⟩)
  unfold sentenceDict at hd
  split at hd
  · simp at hd
  · rename_i fields hf
    exact ⟨fields, d, hf, hd⟩

/-- **C89.** One sentence that cannot be read and passes the filter makes the whole file unreadable. -/
theorem C89_unreadable {keepLine : List Char → Bool} {keep : Nmea.Key → Bool}
    {parse : List Char → Except PyErr (List (Nmea.Key × Option V))} {isR isT : Option V → Bool}
    {conv stamp : Option V → Except PyErr (Option V)} {lines : List (List Char)} {line : List Char} {e : PyErr}
    (hl : line ∈ lines) (hk : keepLine line = true) (hp : parse line = .error e) :
    (nmeaHandle keepLine (sentenceDict parse keep (Nmea.postprocess isR isT conv stamp)) lines :
      Res (Data Nmea.Key V τ)).2 ≠ none := by
  intro h
  obtain ⟨-, -, h3, -⟩ := C89_measured (Prod.ext rfl h)
  obtain ⟨f, d, hf, -⟩ := h3 line hl hk
  rw [hp] at hf
  simp at hf

theorem isPrefixOf_append (a b : List Char) : a.isPrefixOf (a ++ b) = true := by
  rw [List.isPrefixOf_iff_prefix]; exact List.prefix_append a b

theorem isSubstring_iff (part : List Char) : ∀ text : List Char, isSubstring part text = true ↔ part <:+: text
  | [] => by simp [isSubstring]
  | c :: text => by
    rw [isSubstring, Bool.or_eq_true, List.isPrefixOf_iff_prefix, isSubstring_iff part text, List.infix_cons_iff]

/-- The type of a sentence: the three characters after `$` and the two characters of the talker. -/
def sentenceType (line : List Char) : List Char := (line.drop 3).take 3

theorem sentenceType_infix (line : List Char) : sentenceType line <:+: line :=
  (List.take_prefix _ _).isInfix.trans (List.drop_suffix _ _).isInfix

/-- **C89** (partial: the converse is false, see `C89_wanted_false`). All sentences of a wanted type are read. -/
theorem C89_wanted_partial {wanted : List (List Char)} (unwanted : Option (List (List Char))) {line : List Char}
    (h : sentenceType line ∈ wanted) : sentenceFilter (some wanted) unwanted line = true := by
  simp only [sentenceFilter, List.any_eq_true]
  exact ⟨_, h, (isSubstring_iff _ _).2 (sentenceType_infix line)⟩

/-- **C89** (partial: the converse is false, see `C89_unwanted_false`). No sentence of an unwanted type is read, unless wanted
sentences are given too. -/
theorem C89_unwanted_partial {unwanted : List (List Char)} {line : List Char} (h : sentenceType line ∈ unwanted) :
    sentenceFilter none (some unwanted) line = false := by
  simp only [sentenceFilter, List.all_eq_false]
  exact ⟨_, h, by simpa using (isSubstring_iff _ _).2 (sentenceType_infix line)⟩

/-- **C89.** Without filters all sentences and all attributes are read; with wanted sentences the unwanted ones are
ignored. -/
theorem C89_default (line : List Char) (field : Nmea.Key) (w : List (List Char)) (u : Option (List (List Char))) :
    sentenceFilter none none line = true ∧ attributeFilter none none field = true ∧
    sentenceFilter (some w) u line = sentenceFilter (some w) none line := ⟨rfl, rfl, rfl⟩

/-- **C89 is false**: a sentence of another type is read, if the wanted name occurs anywhere in it, e.g. as the name of a
waypoint. -/
theorem C89_wanted_false : ∃ (wanted : List (List Char)) (line : List Char),
    sentenceType line ∉ wanted ∧ sentenceFilter (some wanted) none line = true :=
  ⟨["MWV".toList], "$GPWPL,4917.16,N,12310.64,W,MWV*5C".toList, by decide, by decide +kernel⟩

/-- **C89 is false**: a sentence of another type is ignored, if an unwanted name occurs anywhere in it. -/
theorem C89_unwanted_false : ∃ (unwanted : List (List Char)) (line : List Char),
    sentenceType line ∉ unwanted ∧ sentenceFilter none (some unwanted) line = false :=
  ⟨["MWV".toList], "$GPWPL,4917.16,N,12310.64,W,MWV*5C".toList, by decide, by decide +kernel⟩

/-- **C89.** A field is read exactly if its name is wanted, where the standard names stand for the fields they are computed
from; with unwanted attributes, exactly if its name is not among them. -/
theorem C89_attributes (wanted unwanted : List Nmea.Key) (u : Option (List Nmea.Key)) (field : Nmea.Key) :
    (attributeFilter (some wanted) u field = true ↔ ∃ key ∈ wanted,
      (∃ fs, Nmea.hrosailingToNmea.get? key = some fs ∧ field ∈ fs) ∨
        (Nmea.hrosailingToNmea.get? key = none ∧ field = key)) ∧
    (attributeFilter none (some unwanted) field = true ↔ field ∉ unwanted) := by
  constructor
  · simp only [attributeFilter, List.any_eq_true, decide_eq_true_eq, Nmea.wantedNmea, List.mem_flatten, List.mem_map]
    constructor
    · rintro ⟨a, ⟨l, ⟨key, hkey, rfl⟩, ha⟩, rfl⟩
      refine ⟨key, hkey, ?_⟩
      cases hg : Nmea.hrosailingToNmea.get? key with
      | none => rw [hg] at ha; exact .inr ⟨rfl, by simpa using ha⟩
      | some fs => rw [hg] at ha; exact .inl ⟨fs, rfl, ha⟩
    · rintro ⟨key, hkey, ⟨fs, hg, hf⟩ | ⟨hg, rfl⟩⟩
      · exact ⟨field, ⟨_, ⟨key, hkey, rfl⟩, by simpa only [hg] using hf⟩, rfl⟩
      · exact ⟨field, ⟨_, ⟨field, hkey, rfl⟩, by simp only [hg, List.mem_singleton]⟩, rfl⟩
  · simp only [attributeFilter, List.all_eq_true, Bool.not_eq_true', decide_eq_false_iff_not]
    exact ⟨fun h hm => h field hm rfl, fun h a ha e => h (e ▸ ha)⟩

theorem anyIter_length (line : List Char) : ∀ it : List (List Char),
    (anyIter line it).2.length + (if (anyIter line it).1 then 1 else 0) ≤ it.length
  | [] => by simp [anyIter]
  | s :: it => by
    simp only [anyIter]
    split_ifs with h h2
    · simp
    · simp at h2
    · have := anyIter_length line it
      rw [if_pos (by assumption)] at this
      simp only [List.length_cons]; omega
    · have := anyIter_length line it
      rw [if_neg (by assumption)] at this
      simp only [List.length_cons]; omega

/-- **C89.** What is read from a sentence are the fields with a wanted name; of several fields with the same name the last
one counts. -/
theorem C89_fields (keep : Nmea.Key → Bool) (fields : List (Nmea.Key × Option V)) (k : Nmea.Key) :
    (keep k = false → (fieldDict keep fields).get? k = none) ∧
    (k ∉ fields.map Prod.fst → (fieldDict keep fields).get? k = none) ∧
    ∀ l₁ v l₂, keep k = true → fields = l₁ ++ (k, v) :: l₂ → k ∉ l₂.map Prod.fst →
      (fieldDict keep fields).get? k = some v := by
  have step : ∀ (l : List (Nmea.Key × Option V)) (f : Nmea.Key × Option V), fieldDict keep (l ++ [f]) =
      if keep f.1 then (fieldDict keep l).set f.1 f.2 else fieldDict keep l := by
    intro l f
    simp only [fieldDict, List.filter_append, List.filter_cons, List.filter_nil]
    split_ifs <;> simp [List.foldl_append]
  have h1 : keep k = false → (fieldDict keep fields).get? k = none := by
    intro hk
    induction fields using List.reverseRecOn with
    | nil => rfl
    | append_singleton l f ih =>
      rw [step]
      split_ifs with h
      · rw [Dict.get?_set_ne, ih]
        rintro rfl
        rw [hk] at h
        exact absurd h (by simp)
      · exact ih
  have h2 : ∀ l₁ : List (Nmea.Key × Option V), ∀ l₂ : List (Nmea.Key × Option V), k ∉ l₂.map Prod.fst →
      (fieldDict keep (l₁ ++ l₂)).get? k = (fieldDict keep l₁).get? k := by
    intro l₁ l₂
    induction l₂ using List.reverseRecOn with
    | nil => simp
    | append_singleton l f ih =>
      intro hk
      simp only [List.map_append, List.map_cons, List.map_nil, List.mem_append, List.mem_singleton, not_or] at hk
      rw [← List.append_assoc, step]
      split_ifs with h
      · rw [Dict.get?_set_ne _ _ (by tauto), ih hk.1]
      · exact ih hk.1
  refine ⟨h1, fun hk => by simpa [fieldDict] using h2 [] fields hk, ?_⟩
  rintro l₁ v l₂ hk rfl hl
  rw [List.append_cons, h2 _ _ hl, step, if_pos hk, Dict.get?_set_self]

/-- **C89 is false** for wanted sentences given by an iterator, e.g. a generator or an open file, though any iterable is
documented: at most as many sentences of the file are read as there are names, since the iterator is exhausted then. -/
theorem C89_iterator_false (it : List (List Char)) (lines : List (List Char)) :
    (filterIter it lines).length ≤ it.length ∧
    ∃ (it lines : List (List Char)), filterIter it lines ≠ lines.filter (sentenceFilter (some it) none) := by
  refine ⟨?_, ["MWV".toList], ["$WIMWV,214.8,R,0.1,K,A*28".toList, "$WIMWV,200.0,R,0.2,K,A*28".toList], by decide +kernel⟩
  induction lines generalizing it with
  | nil => simp [filterIter]
  | cons line lines ih =>
    have h := anyIter_length line it
    have h2 := ih (anyIter line it).2
    simp only [filterIter]
    split_ifs with hc
    · rw [if_pos hc] at h
      simp only [List.length_cons]; omega
    · rw [if_neg hc] at h
      omega

end nmea

/-! ## Examples -/

/-- Two rows and two columns. -/
example : ∃ D : Data String Val Ty, arrayHandle 2 [[some (.float 1), some (.float 2)], [some (.float 3), none]]
    ["TWS", "BSP"] = (D, none) ∧ colOf D "BSP" = [some (.float 2), none] ∧ D.nRows = 2 := by
  obtain ⟨D, h, -, -, h4, h5⟩ := C88_array_partial (τ := Ty) (V := Val) (keys := ["TWS", "BSP"])
    (rows := [[some (.float 1), some (.float 2)], [some (.float 3), none]]) (by decide) (by
      intro i hi v w hv hw
      simp only [List.length_cons, List.length_nil] at hi
      interval_cases i <;> simp [arrayColumn] at hv hw
      · rcases hv with rfl | rfl <;> rcases hw with rfl | rfl <;> rfl
      · subst hv hw; rfl)
  exact ⟨D, h, by rw [h5 1 "BSP" rfl]; rfl, h4 (by simp)⟩

/-- A repeated name. -/
example : (arrayHandle 2 [[some (.float 1), some (.float 2)]] ["TWS", "TWS"] : Res (Data String Val Ty)).1.cols
    = [("TWS", [some (.float 2)])] ∧
    (arrayHandle 2 [[some (.float 1), some (.float 2)]] ["TWS", "TWS"] : Res (Data String Val Ty)).2 = none := by decide

/-- A function evaluating the strings `1` and `2`. -/
def exEval : Entry Val → Except PyErr (Option Val) :=
  saveEval (fun _ => none) fun s => if s = ['1'] then .ok (some (.int 1)) else if s = ['2'] then .ok (some (.int 2))
    else if s = [] then .error .syntaxError else .error (.other .valueError)

/-- A rectangular file, one with a short row, one with an empty entry, one with a word. -/
example : (csvHandle exEval id [["a".toList, "b".toList], [['1'], ['2']], [['2'], ['1']]] :
      Res (Data (List Char) Val Ty)).1.cols
      = [("a".toList, [some (.int 1), some (.int 2)]), ("b".toList, [some (.int 2), some (.int 1)])] ∧
    (csvHandle exEval id [["a".toList, "b".toList], [['1']], [['2'], ['1']]] : Res (Data (List Char) Val Ty)).1.cols
      = [("a".toList, [some (.int 1), some (.int 2)]), ("b".toList, [some (.int 1), none])] ∧
    (csvHandle exEval id [["a".toList, "b".toList], [['1'], []]] : Res (Data (List Char) Val Ty)).2
      = some .runtimeError ∧
    (csvHandle exEval id [["a".toList], [['n', 'a', 'n']]] : Res (Data (List Char) Val Ty)).2
      = some .valueError := by decide +kernel

/-- Two sentences of a file, of which the second is filtered out. -/
example : (nmeaHandle (sentenceFilter (some ["MWV".toList]) none) (sentenceDict
      (fun _ => .ok [("Wind angle".toList, some (Val.float 214)), ("Reference".toList, some (.str ['R'])),
        ("Wind speed".toList, some (.float 1))]) (attributeFilter none none)
      (Nmea.postprocess (fun v => decide (v = some (.str ['R']))) (fun v => decide (v = some (.str ['T']))) .ok .ok))
      ["$WIMWV,214.8,R,0.1,K,A*28".toList, "$GPGLL".toList] : Res (Data (List Char) Val Ty)).1.cols
    = [("AWA".toList, [some (.float 214)]), ("AWS".toList, [some (.float 1)])] := by decide +kernel

/-- Names and columns of different number, and a row longer than the header. -/
example : (arrayHandle 2 [[some (.float 1), some (.float 2)]] ["TWS"] : Res (Data String Val Ty)) = (empty, some .valueError) ∧
    (csvHandle exEval id [["a".toList], [['1'], ['2']]] : Res (Data (List Char) Val Ty)) = (empty, some .indexError) :=
  ⟨C88_array_keys (by decide), C88_csv_long _ id exEval ⟨[['1'], ['2']], by simp, by decide⟩⟩

/-- A sentence that cannot be read, and sentences let through or held back by their type. -/
example : (nmeaHandle (fun _ => true) (sentenceDict (fun _ => .error .valueError) (attributeFilter none none)
      (Nmea.postprocess (fun _ => false) (fun _ => false) .ok .ok)) ["$GPGLL".toList] : Res (Data (List Char) Val Ty)).2 ≠ none ∧
    sentenceFilter (some ["MWV".toList]) none "$WIMWV,214.8".toList = true ∧
    sentenceFilter none (some ["MWV".toList]) "$WIMWV,214.8".toList = false :=
  ⟨C89_unreadable (List.mem_singleton_self _) rfl rfl, C89_wanted_partial none (by decide +kernel), C89_unwanted_partial (by decide +kernel)⟩

end Verif.Handler
