import Verif.Lemmas.StdFormat
import Verif.Spec.StdFormat
import Verif.Props.Data
import Verif.Props.DataTypes

/-!
# Properties C08 and C51: renaming and the standard format
-/

set_option linter.unusedSectionVars false
set_option linter.unusedSimpArgs false

namespace Verif.Data

section rename

variable {κ V τ : Type} [DecidableEq κ] [DecidableEq τ] [HasType V τ]

theorem Reachable.wf {D : Data κ V τ} (h : Reachable D) : WF D := by
  induction h with
  | empty => exact wf_empty
  | update _ hu ih => exact wf_update ih hu
  | updateData _ _ hu ih _ => exact wf_update ih hu
  | rename _ hu ih => exact wf_rename ih hu
  | deleteCol _ hu ih => exact wf_deleteCol ih hu
  | deleteRows _ _ _ ih => exact wf_deleteRows ih _
  | getItem _ ih =>
    rename_i item _
    rcases item with m | (_ | ⟨k, ks⟩)
    · exact wf_maskRows ih m
    · exact wf_maskRows ih []
    · exact wf_getSlice ih _

/-- **C05.** The selected columns keep their types, and no types are recorded for columns which are not selected;
masking rows keeps the types of all columns. -/
theorem C05_types {D : Data κ V τ} (h : Reachable D) {ks : List κ} (hks : ks ≠ []) (mask : List Bool) (k : κ) :
    (getItem D (.keys ks)).types.get? k = (if k ∈ ks then D.types.get? k else none) ∧
    (getItem D (.mask mask)).types.get? k = D.types.get? k := by
  refine ⟨?_, rfl⟩
  cases ks with
  | nil => exact absurd rfl hks
  | cons k0 ks =>
    simp only [getItem, getSlice]
    rw [Dict.get?_filterItems _ _ h.wf.nodupT]
    by_cases hk : k ∈ k0 :: ks
    · rw [if_pos hk]
      cases D.types.get? k <;> simp [Option.filter, hk]
    · rw [if_neg hk]
      cases D.types.get? k <;> simp [Option.filter, hk]

example : (getItem exData (.keys ["BSP", "nope"])).types.get? "BSP" = exData.types.get? "BSP" ∧
    (getItem exData (.mask [true, false])).types.get? "TWS" = exData.types.get? "TWS" :=
  ⟨(C05_types exData_reachable (by simp) [] "BSP").1, (C05_types exData_reachable (ks := ["BSP"]) (by simp) _ "TWS").2⟩

/-- **C08.** `rename` to the name of another column raises `ValueError` and changes nothing. -/
theorem C08_rename_no_overwrite (D : Data κ V τ) {a b : κ} (hab : a ≠ b) (hb : b ∈ D.keys) :
    rename D a b = (D, some .valueError) := by
  simp [rename, hab, hb]

/-- **C08.** `rename` to a free name succeeds: the new name has the old contents, the old name is gone, and
all other columns and the number of rows are unchanged. -/
theorem C08_rename {D : Data κ V τ} (h : Reachable D) {a b : κ} (ha : a ∈ D.keys) (hb : b ∉ D.keys) :
    ∃ D', rename D a b = (D', none) ∧ D'.nRows = D.nRows ∧
      (∀ k, k ∈ D'.keys ↔ k = b ∨ (k ∈ D.keys ∧ k ≠ a)) ∧
      colOf D' b = colOf D a ∧ ∀ k, k ≠ a → k ≠ b → colOf D' k = colOf D k := by
  obtain ⟨c, hc⟩ := (Dict.mem_keys_iff _ _).1 ha
  obtain ⟨T, h1, h2⟩ := rename_eq h.wf hc hb
  have hne : a ≠ b := fun e => hb (e ▸ ha)
  have key : ∀ k, Dict.get? (D.cols.del a ++ [(b, c)]) k =
      if k = a then none else if k = b then some c else D.cols.get? k := by
    intro k
    rw [← del_set_new _ _ ha hb, Dict.get?_del _ (Dict.nodup_keys_set _ _ _ h.wf.nodup), Dict.get?_set]
    by_cases e1 : k = a
    · simp [e1]
    · by_cases e2 : k = b
      · simp [e2, hne, Ne.symm hne]
      · simp [e1, e2, Ne.symm e1, Ne.symm e2]
  refine ⟨_, h1, rfl, ?_, ?_, ?_⟩
  · intro k
    simp only [keys, Dict.mem_keys_iff, key]
    by_cases e1 : k = a
    · simp [e1, hne]
    · by_cases e2 : k = b <;> simp [e1, e2, Ne.symm hne]
  · simp [colOf, key, hc, Ne.symm hne]
  · intro k e1 e2
    simp [colOf, key, e1, e2]

end rename

section standard

variable {V τ : Type} [DecidableEq τ] [HasType V τ]

/-- **C08.** If no column name is blank, standardising the keys succeeds and only renames columns: up to
the order of the columns the result is the old object with each name `k` replaced by some `ρ k`, which is
the standard name of `k` or that name with a running number; no two columns get the same name, so no
column is lost. -/
theorem C08_standardise_keys {D : Data (List Char) V τ} (h : Reachable D)
    (hn : ∀ k ∈ D.keys, normKey k ≠ []) :
    ∃ D', standardiseKeys D = (D', none) ∧ D'.nRows = D.nRows ∧ D'.keys.Nodup ∧
      ∃ ρ : List Char → List Char,
        (∀ k ∈ D.keys, ∃ s, standardKey k = .ok s ∧ (ρ k = s ∨ ∃ i, 1 ≤ i ∧ ρ k = controlName s i)) ∧
        D'.cols.Perm (D.cols.map fun p => (ρ p.1, p.2)) := by
  obtain ⟨D', h1, h2, h3, ρ, _, h5, h6⟩ := standardiseLoop h.wf.nodup h.wf (fun _ hk => hk) hn
  exact ⟨D', h1, h3, h2.nodup, ρ, h5, h6⟩

/-- **C08.** The multiset of column contents is preserved by standardising the keys. -/
theorem C08_contents {D D' : Data (List Char) V τ} (h : Reachable D) (hs : standardiseKeys D = (D', none)) :
    (D'.cols.map Prod.snd).Perm (D.cols.map Prod.snd) := by
  have hn := (standardise_ok_iff h.wf).1 (by rw [hs])
  obtain ⟨D1, h1, _, _, ρ, _, h6⟩ := C08_standardise_keys h hn
  rw [hs] at h1
  simp only [Prod.mk.injEq, and_true] at h1
  subst h1
  simpa [Function.comp_def] using h6.map Prod.snd

/-- **C08.** Standardising the keys a second time changes nothing. -/
theorem C08_idempotent {D D' : Data (List Char) V τ} (h : Reachable D) (hs : standardiseKeys D = (D', none)) :
    standardiseKeys D' = (D', none) := by
  have hn := (standardise_ok_iff h.wf).1 (by rw [hs])
  obtain ⟨D1, h1, _, _, ρ, h5, h6⟩ := C08_standardise_keys h hn
  rw [hs] at h1
  simp only [Prod.mk.injEq, and_true] at h1
  subst h1
  refine standardiseFixed ?_
  intro k hk
  have hm := (h6.map Prod.fst).mem_iff.1 hk
  simp only [List.map_map, List.mem_map, Function.comp] at hm
  obtain ⟨p, hp, rfl⟩ := hm
  exact Good.final (h5 p.1 (List.mem_map_of_mem hp))

/-- **C08.** Standardising succeeds exactly if every column name contains something else than white
space and separators (otherwise `IndexError` is raised). -/
theorem C08_succeeds_iff {D : Data (List Char) V τ} (h : Reachable D) :
    (standardiseKeys D).2 = none ↔ ∀ k ∈ D.keys, normKey k ≠ [] := standardise_ok_iff h.wf

end standard

/-- Three clashing synonyms of the wind speed, with a control value name already in use
(columns `TWS`, `wind speed`, `Wind_Speed`, `TWS(Control value 1)`). -/
def exClash : Data (List Char) Val Ty :=
  (fromDict [("TWS".toList, .list [some (.int 1)]), ("wind speed".toList, .list [some (.int 2)]),
    ("Wind_Speed".toList, .list [some (.int 3)]), ("TWS(Control value 1)".toList, .list [some (.int 4)])]).1

example : Reachable exClash ∧ (∀ k ∈ exClash.keys, normKey k ≠ []) ∧
    (standardiseKeys exClash).1.keys = ["TWS".toList, "TWS(Control value 1)".toList,
      "TWS(Control value 2)".toList, "TWS(Control value 3)".toList] := by
  refine ⟨?_, by decide +kernel, by decide +kernel⟩
  exact Reachable.update (D := empty) .empty (Prod.ext rfl (by decide +kernel))

/-- The names of columns that are understood, and their meaning. -/
def columnNames : List (String × List String) :=
  [("TWS", ["wind", "wind speed", "true", "true wind", "true wind speed", "ws", "tws", "wspd"]),
   ("AWS", ["apparent wind speed", "apparent wind", "apparent", "aws"]),
   ("TWA", ["angle", "wind angle", "true angle", "true wind angle", "wa", "twa"]),
   ("AWA", ["apparent wind angle", "apparent angle", "awa"]),
   ("BSP", ["speed", "boat speed", "boat speed knots", "vessel speed", "vessel speed knots", "sp", "bsp",
     "bsps", "water speed", "water speed knots", "wsp"]),
   ("SOG", ["speed over ground", "speed over ground knots", "og", "sog", "spd over grnd"]),
   ("date", ["date", "datestamp", "date stamp"]),
   ("time", ["time", "timestamp", "time stamp"]),
   ("datetime", ["datetime", "date time"]),
   ("lat", ["lat", "latitude"]),
   ("lon", ["lon", "long", "longitude"]),
   ("temp", ["temp", "temperature"]),
   ("dewpoint", ["dewpoint", "dewpt", "dwpt", "dwpoint"]),
   ("humidity", ["rel humidity", "relative humidity", "rel hum", "relative hum", "rhum", "relhum", "hum",
     "humidity"]),
   ("WD", ["wd", "wdir", "winddir"]),
   ("gust", ["wpgt"]),
   ("air pressure", ["pres"]),
   ("total sunshine", ["tsun"])]

/-- **C08.** The meaning of every known name, written in small or capital letters, with any separator between the words, and
with blanks around it. -/
theorem C08_names : ∀ p ∈ columnNames, ∀ name ∈ p.2,
    standardKey name.toList = .ok p.1.toList ∧ standardKey (name.toList.map Char.toUpper) = .ok p.1.toList ∧
    (∀ sep ∈ [',', ';', '_', '-', '+', '&', '\n', '\t'],
      standardKey (name.toList.map fun c => if c = ' ' then sep else c) = .ok p.1.toList) ∧
    standardKey (' ' :: name.toList ++ [' ']) = .ok p.1.toList := by decide +kernel

/-- A blank column name makes the standard format fail with `IndexError`. -/
theorem C08_blank_key_raises :
    ∃ D : Data (List Char) Val Ty, Reachable D ∧ (standardiseKeys D).2 = some .indexError :=
  ⟨(fromDict [("-".toList, .list [some (.int 1)])]).1,
    Reachable.update (D := empty) .empty (Prod.ext rfl (by decide +kernel)), by decide +kernel⟩

/-! ## C51: date and time become one column, numbers keep their value -/

theorem combineAll_ok {ds ts : List (Option Val)} (hd : IsDates ds) (ht : IsTimes ts) :
    combineAll ds ts = .ok (List.zipWith momentOf ds ts) := by
  induction ds generalizing ts with
  | nil => cases ts <;> simp [combineAll]
  | cons d ds ih =>
    cases ts with
    | nil => simp [combineAll]
    | cons t ts =>
      have h1 : combine d t = .ok (momentOf d t) := by
        rcases d with _ | d
        · rfl
        · obtain ⟨x, rfl⟩ := hd d (by simp)
          rcases t with _ | t
          · rfl
          · obtain ⟨y, rfl⟩ := ht t (by simp)
            rfl
      simp only [combineAll, h1, List.zipWith_cons_cons]
      rw [ih (fun v hv => hd v (by simp [hv])) (fun v hv => ht v (by simp [hv]))]

theorem momentOf_type {a b : Option Val} {v : Val} (h : momentOf a b = some v) : typeOf v = Ty.datetime := by
  unfold momentOf at h
  split at h
  · simp only [Option.some.injEq] at h; subst h; rfl
  · simp at h

theorem mem_zipWith_moment {ds ts : List (Option Val)} {v : Val}
    (h : some v ∈ List.zipWith momentOf ds ts) : typeOf v = Ty.datetime := by
  induction ds generalizing ts with
  | nil => simp at h
  | cons d ds ih =>
    cases ts with
    | nil => simp at h
    | cons t ts =>
      simp only [List.zipWith_cons_cons, List.mem_cons] at h
      rcases h with h | h
      · exact momentOf_type h.symm
      · exact ih h

/-- **C51.** If the (renamed) columns contain dates under `"date"`, times under `"time"` and there is no column
`"datetime"` yet, the aggregation replaces both by a column `"datetime"` which holds, row by row, the moment
given by the two; all other columns are unchanged and the object stays rectangular. -/
theorem C51_datetime_partial {D : Data (List Char) Val Ty} (h : Reachable D)
    (hd : kDate ∈ D.keys) (ht : kTime ∈ D.keys) (hn : kDatetime ∉ D.keys)
    (hds : IsDates (colOf D kDate)) (hts : IsTimes (colOf D kTime)) :
    ∃ D', aggregateDatetime D = (D', none) ∧ D'.nRows = D.nRows ∧
      (∀ k, k ∈ D'.keys ↔ k = kDatetime ∨ (k ∈ D.keys ∧ k ≠ kDate ∧ k ≠ kTime)) ∧
      colOf D' kDatetime = List.zipWith momentOf (colOf D kDate) (colOf D kTime) ∧
      (∀ k, k ≠ kDate → k ≠ kTime → k ≠ kDatetime → colOf D' k = colOf D k) ∧
      ∀ k ∈ D'.keys, ((colOf D' k).length : Int) = D'.nRows := by
  obtain ⟨ds, hcd⟩ := (Dict.mem_keys_iff _ _).1 hd
  obtain ⟨ts, hct⟩ := (Dict.mem_keys_iff _ _).1 ht
  rw [colOf_of_get? hcd] at hds ⊢
  rw [colOf_of_get? hct] at hts ⊢
  have hl1 := h.rect.eq _ _ hcd
  have hl2 := h.rect.eq _ _ hct
  have hlen : ((List.zipWith momentOf ds ts).length : Int) = D.maxLen := by
    rw [List.length_zipWith]; omega
  obtain ⟨dt, hty⟩ : ∃ dt, getType (τ := Ty) (List.zipWith momentOf ds ts) = .ok dt := by
    refine getTypeAux_succeeds ?_ ?_
    · intro v _ c hc; simp at hc
    · intro v w hv hw
      rw [mem_zipWith_moment hv, mem_zipWith_moment hw]
  have hcn : D.cols.get? kDatetime = none := (Dict.get?_eq_none_iff _ _).2 hn
  have hext : extend D kDatetime (List.zipWith momentOf ds ts) =
      ({ cols := D.cols.set kDatetime (List.zipWith momentOf ds ts), types := D.types.set kDatetime dt,
         maxLen := D.maxLen }, none) := by
    simp only [extend, hty, hcn]
    rw [max_eq_left (le_of_eq hlen)]
  have hw1 := wf_set h.wf kDatetime (List.zipWith momentOf ds ts) dt D.maxLen
  have hdel1 := deleteCol_eq hw1 (k := kDate) (by simp only [keys, Dict.mem_keys_set]; exact Or.inr hd)
  have hw2 := wf_deleteCol hw1 hdel1
  have hdel2 := deleteCol_eq hw2 (k := kTime) (by
    simp only [keys]
    rw [mem_keys_del hw1.nodup]
    simp only [Dict.mem_keys_set]
    exact ⟨by decide, Or.inr ht⟩)
  have hagg : aggregateDatetime D = (⟨((D.cols.set kDatetime (List.zipWith momentOf ds ts)).del kDate).del kTime,
      ((D.types.set kDatetime dt).del kDate).del kTime, D.maxLen⟩, none) := by
    simp only [aggregateDatetime, hcd, hct, combineAll_ok hds hts, hext, Res.andThen, hdel1, hdel2]
  have key : ∀ k, Dict.get? (((D.cols.set kDatetime (List.zipWith momentOf ds ts)).del kDate).del kTime) k =
      if k = kTime then none else if k = kDate then none else if k = kDatetime then
        some (List.zipWith momentOf ds ts) else D.cols.get? k := by
    intro k
    rw [Dict.get?_del _ hw2.nodup, Dict.get?_del _ hw1.nodup, Dict.get?_set]
    simp only [eq_comm]
  refine ⟨_, hagg, rfl, ?_, ?_, ?_, ?_⟩
  · intro k
    simp only [keys, Dict.mem_keys_iff, key]
    by_cases e1 : k = kTime
    · simp [e1, show kTime ≠ kDatetime by decide]
    · by_cases e2 : k = kDate
      · simp [e2, show kDate ≠ kTime by decide, show kDate ≠ kDatetime by decide]
      · by_cases e3 : k = kDatetime <;> simp [e1, e2, e3, show kDatetime ≠ kTime by decide, show kDatetime ≠ kDate by decide]
  · simp [colOf, key, show kDatetime ≠ kTime by decide, show kDatetime ≠ kDate by decide]
  · intro k e1 e2 e3
    simp [colOf, key, e1, e2, e3]
  · intro k hk
    obtain ⟨c, hc⟩ := (Dict.mem_keys_iff _ _).1 hk
    rw [colOf_of_get? hc]
    simp only [key] at hc
    split at hc
    · simp at hc
    · split at hc
      · simp at hc
      · split at hc
        · simp only [Option.some.injEq] at hc; subst hc; exact hlen
        · exact h.rect.eq _ _ hc

/-- Two rows with a date and a time, the second time is missing. -/
def exDateTime : Data (List Char) Val Ty :=
  (fromDict [(kDate, .list [some (.date 1), some (.date 2)]), (kTime, .list [some (.time 5), none]),
    ("TWS".toList, .list [some (.float 1), some (.float 2)])]).1

example : Reachable exDateTime ∧ kDate ∈ exDateTime.keys ∧ kTime ∈ exDateTime.keys ∧
    kDatetime ∉ exDateTime.keys ∧ IsDates (colOf exDateTime kDate) ∧ IsTimes (colOf exDateTime kTime) ∧
    colOf (aggregateDatetime exDateTime).1 kDatetime = [some (.datetime 1 5), none] := by
  refine ⟨Reachable.update (D := empty) .empty (Prod.ext rfl (by decide +kernel)), by decide +kernel,
    by decide +kernel, by decide +kernel, ?_, ?_, by decide +kernel⟩
  · have e : colOf exDateTime kDate = [some (.date 1), some (.date 2)] := by decide +kernel
    rw [e]; intro v hv; simp at hv; rcases hv with rfl | rfl <;> exact ⟨_, rfl⟩
  · have e : colOf exDateTime kTime = [some (.time 5), none] := by decide +kernel
    rw [e]; intro v hv; simp at hv; subst hv; exact ⟨_, rfl⟩

/-- **C51 is false** if a column `"datetime"` exists besides `"date"` and `"time"`: the new moments are appended
below the old ones, the object is no longer rectangular and iterating over its rows raises. -/
theorem C51_existing_datetime_false :
    ∃ D : Data (List Char) Val Ty, Reachable D ∧ (aggregateDatetime D).2 = none ∧
      (aggregateDatetime D).1.nRows ≠ D.nRows ∧ (aggregateDatetime D).1.rows = none :=
  ⟨(fromDict [(kDate, .list [some (.date 1)]), (kTime, .list [some (.time 5)]),
      (kDatetime, .list [some (.datetime 1 5)]), ("TWS".toList, .list [some (.float 1)])]).1,
    Reachable.update (D := empty) .empty (Prod.ext rfl (by decide +kernel)), by decide +kernel,
    by decide +kernel, by decide +kernel⟩

theorem tryFloats_spec {parse : List Char → Option Rat} {c c' : List (Option Val)}
    (h : tryFloats parse c = some c') :
    c'.map (Option.map (numberOf parse)) = c.map (Option.map (numberOf parse)) ∧
      ∀ v, some v ∈ c' → typeOf v = Ty.float := by
  induction c generalizing c' with
  | nil => simp only [tryFloats, Option.some.injEq] at h; subst h; simp
  | cons x c ih =>
    rcases x with _ | x
    · simp only [tryFloats, Option.map_eq_some_iff] at h
      obtain ⟨a, ha, rfl⟩ := h
      obtain ⟨h1, h2⟩ := ih ha
      refine ⟨by simp [h1], ?_⟩
      intro v hv
      simp only [List.mem_cons, reduceCtorEq, false_or] at hv
      exact h2 v hv
    · simp only [tryFloats] at h
      split at h
      · simp at h
      · rename_i f hf
        simp only [Option.map_eq_some_iff] at h
        obtain ⟨a, ha, rfl⟩ := h
        obtain ⟨h1, h2⟩ := ih ha
        have hx : numberOf parse f = numberOf parse x ∧ typeOf f = Ty.float := by
          cases x <;> simp only [toFloat, Option.some.injEq, Option.map_eq_some_iff, reduceCtorEq] at hf
          case str s => obtain ⟨q, hq, rfl⟩ := hf; exact ⟨hq.symm, rfl⟩
          all_goals subst hf; exact ⟨rfl, rfl⟩
        refine ⟨by simp [h1, hx.1], ?_⟩
        intro v hv
        simp only [List.mem_cons, Option.some.injEq] at hv
        rcases hv with rfl | hv
        · exact hx.2
        · exact h2 v hv

theorem castKey_spec {parse : List Char → Option Rat} {D : Data (List Char) Val Ty} (h : WF D)
    {x : List Char} (hx : x ∈ D.keys) :
    ∃ D', castKey parse D x = (D', none) ∧ WF D' ∧ D'.keys = D.keys ∧ D'.maxLen = D.maxLen ∧
      (∀ k, k ≠ x → colOf D' k = colOf D k) ∧
      (colOf D' x = colOf D x ∨ ∀ v, some v ∈ colOf D' x → typeOf v = Ty.float) ∧
      (colOf D' x).map (Option.map (numberOf parse)) = (colOf D x).map (Option.map (numberOf parse)) := by
  obtain ⟨c, hc⟩ := (Dict.mem_keys_iff _ _).1 hx
  obtain ⟨t, ht⟩ := (Dict.mem_keys_iff _ _).1 (h.typed x hx)
  have triv : ∃ D', (D, (none : Option PyErr)) = (D', none) ∧ WF D' ∧ D'.keys = D.keys ∧ D'.maxLen = D.maxLen ∧
      (∀ k, k ≠ x → colOf D' k = colOf D k) ∧
      (colOf D' x = colOf D x ∨ ∀ v, some v ∈ colOf D' x → typeOf v = Ty.float) ∧
      (colOf D' x).map (Option.map (numberOf parse)) = (colOf D x).map (Option.map (numberOf parse)) :=
    ⟨D, rfl, h, rfl, rfl, fun _ _ => rfl, Or.inl rfl, rfl⟩
  simp only [castKey, ht, hc]
  split
  · cases hf : tryFloats parse c with
    | none => exact triv
    | some l =>
      obtain ⟨h1, h2⟩ := tryFloats_spec hf
      refine ⟨_, rfl, wf_set h _ _ _ _, ?_, rfl, ?_, ?_, ?_⟩
      · simp only [keys]; exact Dict.keys_set_of_mem _ _ _ hx
      · intro k hk
        simp only [colOf]
        rw [Dict.get?_set_ne _ _ (Ne.symm hk)]
      · right
        simpa [colOf] using h2
      · simpa [colOf, hc] using h1
  · exact triv

/-- **C51.** The final casting loop succeeds, keeps the columns, their lengths and the number of rows; each
column keeps the numbers it stands for, and each column is either untouched or consists of floats only. -/
theorem C51_cast {parse : List Char → Option Rat} {D : Data (List Char) Val Ty} (h : Reachable D) :
    ∃ D', Res.forEach (castKey parse) D.keys D = (D', none) ∧ D'.keys = D.keys ∧ D'.nRows = D.nRows ∧
      ∀ k, (colOf D' k = colOf D k ∨ ∀ v, some v ∈ colOf D' k → typeOf v = Ty.float) ∧
        (colOf D' k).map (Option.map (numberOf parse)) = (colOf D k).map (Option.map (numberOf parse)) := by
  suffices H : ∀ (ks : List (List Char)) (hnd : ks.Nodup) (D : Data (List Char) Val Ty), WF D → (∀ k ∈ ks, k ∈ D.keys) →
      ∃ D', Res.forEach (castKey parse) ks D = (D', none) ∧ D'.keys = D.keys ∧ D'.nRows = D.nRows ∧
      (∀ k ∉ ks, colOf D' k = colOf D k) ∧
      ∀ k, (colOf D' k = colOf D k ∨ ∀ v, some v ∈ colOf D' k → typeOf v = Ty.float) ∧
        (colOf D' k).map (Option.map (numberOf parse)) = (colOf D k).map (Option.map (numberOf parse)) by
    obtain ⟨D', h1, h2, h3, _, h5⟩ := H D.keys h.wf.nodup D h.wf (fun _ hk => hk)
    exact ⟨D', h1, h2, h3, h5⟩
  intro ks hnd
  induction ks with
  | nil => intro D _ _; exact ⟨D, rfl, rfl, rfl, fun _ _ => rfl, fun _ => ⟨Or.inl rfl, rfl⟩⟩
  | cons x xs ih =>
    intro D hw hs
    rw [List.nodup_cons] at hnd
    obtain ⟨D1, e1, e2, e3, e4, e5, e6, e7⟩ := castKey_spec (parse := parse) hw (hs x (by simp))
    obtain ⟨D', f1, f2, f3, f4, f5⟩ := ih hnd.2 D1 e2 (fun k hk => e3 ▸ hs k (by simp [hk]))
    refine ⟨D', by simp only [Res.forEach, e1, Res.andThen, f1], f2.trans e3, f3.trans e4, ?_, ?_⟩
    · intro k hk
      simp only [List.mem_cons, not_or] at hk
      rw [f4 k hk.2, e5 k hk.1]
    · intro k
      by_cases hkx : k = x
      · subst hkx
        rw [f4 k hnd.1]
        exact ⟨e6, e7⟩
      · have := f5 k
        rwa [e5 k hkx] at this

example : Reachable exDateTime ∧ (Res.forEach (castKey (fun _ => some 7)) exClash.keys exClash).1.colOf
    "TWS".toList = [some (.float 1)] := by
  refine ⟨Reachable.update (D := empty) .empty (Prod.ext rfl (by decide +kernel)), by decide +kernel⟩

theorem castKey_other {parse : List Char → Option Rat} (D : Data (List Char) Val Ty) {x k : List Char} (h : k ≠ x) :
    (castKey parse D x).1.cols.get? k = D.cols.get? k ∧ (castKey parse D x).1.types.get? k = D.types.get? k := by
  unfold castKey
  split
  · split
    · split
      · exact ⟨Dict.get?_set_ne _ _ (Ne.symm h), Dict.get?_set_ne _ _ (Ne.symm h)⟩
      · exact ⟨rfl, rfl⟩
    · exact ⟨rfl, rfl⟩
  · exact ⟨rfl, rfl⟩

/-- An entry is a number. -/
def IsNumber (v : Val) : Prop := (∃ z, v = .int z) ∨ (∃ q, v = .decimal q) ∨ ∃ q, v = .float q

theorem tryFloats_numbers {parse : List Char → Option Rat} {c : List (Option Val)} (h : ∀ v, some v ∈ c → IsNumber v) :
    ∃ l, tryFloats parse c = some l ∧ ∀ v, some v ∈ l → ∃ q, v = Val.float q := by
  induction c with
  | nil => exact ⟨[], rfl, by simp⟩
  | cons x c ih =>
    obtain ⟨l, h1, h2⟩ := ih fun v hv => h v (List.mem_cons_of_mem _ hv)
    rcases x with _ | x
    · exact ⟨none :: l, by simp [tryFloats, h1], fun v hv => h2 v (by simpa using hv)⟩
    · obtain ⟨q, hq⟩ : ∃ q, toFloat parse x = some (.float q) := by
        rcases h x List.mem_cons_self with ⟨z, rfl⟩ | ⟨q, rfl⟩ | ⟨q, rfl⟩ <;> exact ⟨_, rfl⟩
      refine ⟨some (.float q) :: l, by simp [tryFloats, hq, h1], fun v hv => ?_⟩
      simp only [List.mem_cons, Option.some.injEq] at hv
      rcases hv with rfl | hv
      · exact ⟨q, rfl⟩
      · exact h2 v hv

/-- **C51.** After the casting loop every column of numbers (integers, decimals or floats) consists of floats. -/
theorem C51_floats {parse : List Char → Option Rat} {D : Data (List Char) Val Ty} (h : Reachable D) (ht : ReachableAny D)
    {k : List Char} (hnum : ∀ v, some v ∈ colOf D k → IsNumber v) :
    ∀ v, some v ∈ colOf (Res.forEach (castKey parse) D.keys D).1 k → ∃ q, v = Val.float q := by
  suffices H : ∀ (ks : List (List Char)) (hnd : ks.Nodup) (E : Data (List Char) Val Ty), WF E → (∀ x ∈ ks, x ∈ E.keys) →
      (k ∈ ks → E.cols.get? k = D.cols.get? k ∧ E.types.get? k = D.types.get? k) →
      (k ∉ ks → ∀ v, some v ∈ colOf E k → ∃ q, v = Val.float q) →
      ∀ v, some v ∈ colOf (Res.forEach (castKey parse) ks E).1 k → ∃ q, v = Val.float q by
    refine H D.keys h.wf.nodup D h.wf (fun _ hk => hk) (fun _ => ⟨rfl, rfl⟩) fun hk v hv => ?_
    rw [colOf, (Dict.get?_eq_none_iff _ _).2 hk] at hv
    simp at hv
  intro ks hnd
  induction ks with
  | nil => intro E _ _ _ h0 v hv; exact h0 (by simp) v hv
  | cons x xs ih =>
    intro E hw hs hsame hdone
    rw [List.nodup_cons] at hnd
    obtain ⟨E1, e1, e2, e3, -, e5, -⟩ := castKey_spec (parse := parse) hw (hs x (by simp))
    simp only [Res.forEach, e1, Res.andThen]
    refine ih hnd.2 E1 e2 (fun k hk => e3 ▸ hs k (by simp [hk])) (fun hk => ?_) fun hk v hv => ?_
    · have hkx : k ≠ x := fun e => hnd.1 (e ▸ hk)
      have := castKey_other (parse := parse) E hkx
      rw [e1] at this
      rw [this.1, this.2]
      exact hsame (List.mem_cons_of_mem _ hk)
    · by_cases hkx : k = x
      · subst hkx
        obtain ⟨s1, s2⟩ := hsame List.mem_cons_self
        obtain ⟨c, hc⟩ := (Dict.mem_keys_iff _ _).1 (hs k (by simp))
        have hc' : D.cols.get? k = some c := s1 ▸ hc
        rw [colOf_of_get? hc'] at hnum
        obtain ⟨t, t1, t2⟩ := ht.typed k c hc'
        simp only [castKey, s2, t1, hc] at e1
        obtain ⟨l, l1, l2⟩ := tryFloats_numbers (parse := parse) hnum
        by_cases htt : t = some .int ∨ t = some .str ∨ t = some .decimal
        · rw [if_pos htt, l1] at e1
          simp only [Prod.mk.injEq, and_true] at e1
          subst e1
          simp only [colOf, Dict.get?_set_self, Option.getD_some] at hv
          exact l2 v hv
        · rw [if_neg htt] at e1
          simp only [Prod.mk.injEq, and_true] at e1
          subst e1
          rw [colOf_of_get? hc] at hv
          have := t2 v hv
          rcases hnum v hv with ⟨z, rfl⟩ | ⟨q, rfl⟩ | ⟨q, rfl⟩
          · exact absurd (Or.inl this) htt
          · exact absurd (Or.inr (Or.inr this)) htt
          · exact ⟨q, rfl⟩
      · rw [e5 k hkx] at hv
        exact hdone (by simp [hkx, hk]) v hv

/-- A column of decimals. -/
example : (Res.forEach (castKey (fun _ => none)) ["TWS".toList] (fromDict [("TWS".toList, .list
    [some (.decimal (5 / 2)), none])] : Res (Data (List Char) Val Ty)).1).1.colOf "TWS".toList = [some (.float (5 / 2)), none] := by
  decide +kernel

end Verif.Data
