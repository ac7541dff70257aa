import Verif.Lemmas.DataRows
import Verif.Model.Val

/-!
# Properties C01–C06 of `Data`
-/

namespace Verif.Data

variable {κ V τ : Type} [DecidableEq κ] [DecidableEq τ] [HasType V τ]

/-! ## C01: `Data` stays rectangular -/

/-- The objects a user can obtain from `Data()` by successful calls
(`update`, `/repo/hrosailing/core/data.py:179`; `update` with a `Data`, `:195`; `rename`, `:277`;
`delete`, `:302`; `data[mask]`, `data[keys]`, `:538`), where row indices passed to `delete` are distinct
and exist. -/
inductive Reachable : Data κ V τ → Prop
  | empty : Reachable empty
  | update {D D' : Data κ V τ} {d : Dict κ (Arg V)} {compress : Bool} :
      Reachable D → update D d compress = (D', none) → Reachable D'
  | updateData {D D' other : Data κ V τ} :
      Reachable D → Reachable other → updateData D other = (D', none) → Reachable D'
  | rename {D D' : Data κ V τ} {a b : κ} : Reachable D → rename D a b = (D', none) → Reachable D'
  | deleteCol {D D' : Data κ V τ} {k : κ} : Reachable D → deleteCol D k = (D', none) → Reachable D'
  | deleteRows {D : Data κ V τ} {idx : List Int} : Reachable D → idx.Nodup →
      (∀ i ∈ idx, 0 ≤ i ∧ i < D.nRows) → Reachable (deleteRows D idx)
  | getItem {D : Data κ V τ} {item : Item κ} : Reachable D → Reachable (getItem D item)

theorem Reachable.rect {D : Data κ V τ} (h : Reachable D) : Rect D := by
  induction h with
  | empty => exact rect_empty
  | update _ hu ih => exact rect_update ih.toLe hu
  | updateData _ _ hu ih _ => exact rect_update ih.toLe hu
  | rename _ hu ih => exact rect_rename ih hu
  | deleteCol _ hu ih => exact rect_deleteCol ih hu
  | deleteRows _ hnd hv ih => exact (deleteRows_spec ih hnd hv).1
  | getItem _ ih =>
    rename_i item _
    rcases item with m | (_ | ⟨k, ks⟩)
    · exact rect_maskRows ih m
    · exact rect_maskRows ih []
    · exact rect_getSlice ih _

/-- **C01.** In every reachable object each column has exactly `n_rows` entries, and iterating over the
rows succeeds and yields `n_rows` rows. -/
theorem C01_rectangular {D : Data κ V τ} (h : Reachable D) :
    (∀ k ∈ D.keys, ((colOf D k).length : Int) = D.nRows) ∧
      ∃ rs, D.rows = some rs ∧ (rs.length : Int) = D.nRows :=
  ⟨fun _ hk => h.rect.length_colOf hk, rows_of_rect h.rect⟩

/-- The objects a user can obtain if exceptions are caught and the object is used further. -/
inductive ReachableAny : Data κ V τ → Prop
  | empty : ReachableAny empty
  | update {D : Data κ V τ} (d : Dict κ (Arg V)) (compress : Bool) :
      ReachableAny D → ReachableAny (update D d compress).1
  | extend {D : Data κ V τ} (k : κ) (l : List (Option V)) : ReachableAny D → ReachableAny (extend D k l).1

/-- **C01.** Even after failed (caught) calls of `update`, `extend` or `append`, the next successful
`update` gives a rectangular object. -/
theorem C01_update_restores {D D' : Data κ V τ} (h : ReachableAny D) {d : Dict κ (Arg V)}
    {compress : Bool} (hu : update D d compress = (D', none)) :
    (∀ k ∈ D'.keys, ((colOf D' k).length : Int) = D'.nRows) ∧
      ∃ rs, D'.rows = some rs ∧ (rs.length : Int) = D'.nRows := by
  have hle : Le D := by
    clear hu
    induction h with
    | empty => exact rect_empty.toLe
    | update d c _ ih => exact le_update ih d c
    | extend k l _ ih => exact le_extend ih k l
  have hr := rect_update hle hu
  exact ⟨fun _ hk => hr.length_colOf hk, rows_of_rect hr⟩

/-- A concrete object with two columns of two entries. -/
def exData : Data String Val Ty :=
  (update (update empty [("TWS", .list [some (.int 1), some (.int 2)])] false).1
    [("BSP", .scalar (some (.float 3)))] true).1

theorem exData_reachable : Reachable exData := by
  refine .update (D := (update empty [("TWS", .list [some (.int 1), some (.int 2)])] false).1) ?_
    (d := [("BSP", .scalar (some (.float 3)))]) (compress := true) (by decide)
  exact .update .empty (d := [("TWS", .list [some (.int 1), some (.int 2)])]) (compress := false) (by decide)

example : exData.cols =
    [("TWS", [some (.int 1), some (.int 2)]), ("BSP", [none, some (.float 3)])] := by decide

/-! ## C02: compressing update -/

/-- **C02.** `update` (compressing or not) loses, reorders and invents nothing: the measured values of a
column afterwards are those before, followed by those of the dictionary. -/
theorem C02_update_measured {D D' : Data κ V τ} {d : Dict κ (Arg V)} (hd : (Dict.keys d).Nodup)
    {compress : Bool} (h : update D d compress = (D', none)) (k : κ) :
    measured (colOf D' k) = measured (colOf D k) ++ measured (argOf d k) :=
  update_measured hd h k

/-- **C02**, for a whole stream of dictionaries as processed by the NMEA handler
(`/repo/hrosailing/processing/datahandler.py`): no sentence is lost. -/
theorem C02_stream_measured {ds : List (Dict κ (Arg V))} (hd : ∀ d ∈ ds, (Dict.keys d).Nodup)
    {D D' : Data κ V τ} (h : Res.forEach (fun D d => update D d true) ds D = (D', none)) (k : κ) :
    measured (colOf D' k) = measured (colOf D k) ++ ds.flatMap (fun d => measured (argOf d k)) := by
  induction ds generalizing D with
  | nil => simp only [Res.forEach, Prod.mk.injEq] at h; simp [h.1]
  | cons d ds ih =>
    obtain ⟨D1, h1, h2⟩ := Res.forEach_none_cons h
    rw [ih (fun d' hd' => hd d' (by simp [hd'])) h2, C02_update_measured (hd d (by simp)) h1]
    simp

example : ∃ D', update exData [("BSP", .scalar (some (.float 4))), ("SOG", .list [none, some (.int 1)])] true
      = (D', none) ∧ colOf D' "BSP" = [none, some (.float 3), some (.float 4), none] ∧
    colOf D' "SOG" = [none, none, none, some (.int 1)] := ⟨_, Prod.ext rfl (by decide), by decide, by decide⟩

/-! ## C03: plain update -/

/-- **C03.** `update(d)` keeps the existing rows (a new column is `None` there) and appends as many rows as
the longest value of `d` has entries; there, a column holds its values from `d`, then `None`. -/
theorem C03_update_appends {D D' : Data κ V τ} (hr : Reachable D) {d : Dict κ (Arg V)}
    (hd : (Dict.keys d).Nodup) (h : update D d false = (D', none)) :
    D'.nRows = D.nRows + (longest d : Int) ∧
    (∀ k, k ∈ D'.keys ↔ k ∈ D.keys ∨ k ∈ Dict.keys d) ∧
    ∀ k ∈ D'.keys, ∃ old new : List (Option V), colOf D' k = old ++ new ∧
      (old.length : Int) = D.nRows ∧ new.length = longest d ∧
      (k ∈ D.keys → old = colOf D k) ∧ (k ∉ D.keys → ∀ v ∈ old, v = none) ∧
      new.take (argOf d k).length = argOf d k ∧ ∀ v ∈ new.drop (argOf d k).length, v = none := by
  obtain ⟨h1, h2, h3⟩ := update_plain hd hr.rect h
  refine ⟨h1, h2, fun k hk => ⟨_, _, h3 k hk, ?_, ?_, ?_, ?_, ?_, ?_⟩⟩
  · have hn := hr.rect.nonneg
    unfold nRows
    split
    · rename_i hk; exact hr.rect.length_colOf hk
    · simp; omega
  · have := longest_le (d := d) (k := k)
    simp; omega
  · intro hk; simp [hk]
  · intro hk v hv; simp [hk] at hv; exact hv.2
  · simp
  · intro v hv
    rw [List.drop_append_of_le_length le_rfl] at hv
    simp at hv; exact hv.2

example : ∃ D', update exData [("SOG", .list [some (.int 1), some (.int 1)]), ("TWS", .scalar none)] false
      = (D', none) ∧ D'.nRows = 4 ∧ colOf D' "SOG" = [none, none, some (.int 1), some (.int 1)] :=
  ⟨_, Prod.ext rfl (by decide), by decide, by decide⟩

/-! ## C04: concatenation -/

/-- What the `Data` object `d` contributes to the column `k` of a concatenation. -/
def block (k : κ) (d : Data κ V τ) : List (Option V) :=
  if k ∈ d.keys then colOf d k else List.replicate d.nRows.toNat none

theorem argOf_mapVals (cols : Dict κ (List (Option V))) (k : κ) :
    argOf (Dict.mapVals Arg.list cols) k = (cols.get? k).getD [] := by
  simp only [argOf, Dict.get?_mapVals]
  cases cols.get? k <;> rfl

theorem longest_mapVals_rect {d : Data κ V τ} (h : Rect d) (hne : d.cols = [] → d.maxLen = 0) :
    (longest (Dict.mapVals Arg.list d.cols) : Int) = d.maxLen := by
  have hl := h.length_eq
  have hn := h.nonneg
  have key : ∀ cols : Dict κ (List (Option V)), (∀ p ∈ cols, p.2.length = d.maxLen.toNat) →
      longest (Dict.mapVals Arg.list cols) = if cols = [] then 0 else d.maxLen.toNat := by
    intro cols
    induction cols with
    | nil => intro _; rfl
    | cons p cols ih =>
      intro hp
      have := ih (fun q hq => hp q (by simp [hq]))
      have h1 := hp p (by simp)
      simp only [longest, Dict.mapVals, List.map_cons, List.foldr_cons, Arg.toList] at this ⊢
      rw [this, h1]
      split <;> simp
  rw [key _ hl]
  split
  · rename_i he; rw [hne he]; rfl
  · omega

theorem updateData_spec {D D' d : Data κ V τ} (hD : Rect D) (hd : Rect d)
    (hne : d.cols = [] → d.maxLen = 0) (h : updateData D d = (D', none)) :
    D'.nRows = D.nRows + d.nRows ∧ (∀ k, k ∈ D'.keys ↔ k ∈ D.keys ∨ k ∈ d.keys) ∧
      ∀ k ∈ D'.keys, colOf D' k = block k D ++ block k d := by
  have hnd : (Dict.keys (Dict.mapVals Arg.list d.cols)).Nodup := by simpa using hd.nodup
  obtain ⟨h1, h2, h3⟩ := update_plain hnd hD h
  have hl := longest_mapVals_rect hd hne
  refine ⟨by rw [hl] at h1; exact h1, fun k => by rw [h2]; simp [keys], ?_⟩
  intro k hk
  rw [h3 k hk, argOf_mapVals]
  congr 1
  unfold block
  have hn := hd.nonneg
  by_cases hkd : k ∈ d.keys
  · rw [if_pos hkd]
    have := hd.length_colOf hkd
    change colOf d k ++ List.replicate (_ - (colOf d k).length) none = colOf d k
    have h0 : longest (Dict.mapVals Arg.list d.cols) - (colOf d k).length = 0 := by omega
    rw [h0]; simp
  · rw [if_neg hkd]
    have := colOf_of_not_mem hkd
    change colOf d k ++ List.replicate (_ - (colOf d k).length) none = _
    rw [this]
    simp only [List.length_nil, List.nil_append, nRows]
    congr 1
    omega

theorem forEach_updateData {ds : List (Data κ V τ)} (hds : ∀ d ∈ ds, Rect d ∧ (d.cols = [] → d.maxLen = 0))
    {D D' : Data κ V τ} (hD : Rect D) (h : Res.forEach updateData ds D = (D', none)) :
    D'.nRows = D.nRows + (ds.map nRows).sum ∧
    (∀ k, k ∈ D'.keys ↔ k ∈ D.keys ∨ ∃ d ∈ ds, k ∈ d.keys) ∧
    ∀ k ∈ D'.keys, colOf D' k = block k D ++ ds.flatMap (block k) := by
  induction ds generalizing D with
  | nil =>
    simp only [Res.forEach, Prod.mk.injEq] at h
    obtain ⟨rfl, -⟩ := h
    refine ⟨by simp, by simp, fun k hk => ?_⟩
    simp [block, hk]
  | cons d ds ih =>
    obtain ⟨D1, h1, h2⟩ := Res.forEach_none_cons h
    have hd := hds d (by simp)
    obtain ⟨a1, a2, a3⟩ := updateData_spec hD hd.1 hd.2 h1
    have hD1 : Rect D1 := rect_update hD.toLe h1
    obtain ⟨b1, b2, b3⟩ := ih (fun d' hd' => hds d' (by simp [hd'])) hD1 h2
    refine ⟨by rw [b1, a1]; simp [Int.add_assoc], ?_, ?_⟩
    · intro k; rw [b2, a2]; simp [or_assoc]
    · intro k hk
      rw [b3 k hk]
      simp only [List.flatMap_cons, ← List.append_assoc]
      congr 1
      by_cases hk1 : k ∈ D1.keys
      · have : block k D1 = colOf D1 k := by simp [block, hk1]
        rw [this, a3 k hk1]
      · have hn1 := hD.nonneg
        have hn2 := hd.1.nonneg
        have hD0 : k ∉ D.keys := fun h => hk1 ((a2 k).2 (Or.inl h))
        have hd0 : k ∉ d.keys := fun h => hk1 ((a2 k).2 (Or.inr h))
        simp only [block, hk1, hD0, hd0, if_false, ← List.replicate_add]
        congr 1
        unfold nRows at *
        omega

/-- **C04.** `Data.concatenate` stacks the given tables: the numbers of rows add up, the keys are collected,
and each column consists of the respective blocks (`None` where a table has no such column). -/
theorem C04_concatenate {ds : List (Data κ V τ)} {D' : Data κ V τ}
    (hds : ∀ d ∈ ds, Reachable d ∧ (d.keys = [] → d.nRows = 0))
    (h : concatenate ds = (D', none)) :
    D'.nRows = (ds.map nRows).sum ∧
    (∀ k, k ∈ D'.keys ↔ ∃ d ∈ ds, k ∈ d.keys) ∧
    ∀ k ∈ D'.keys, colOf D' k = ds.flatMap fun d =>
      if k ∈ d.keys then colOf d k else List.replicate d.nRows.toNat none := by
  obtain ⟨h1, h2, h3⟩ := forEach_updateData (D := empty)
    (fun d hd => ⟨(hds d hd).1.rect, fun hc => (hds d hd).2 (by simp [keys, hc])⟩) rect_empty h
  refine ⟨by simpa [nRows, empty] using h1, fun k => by simpa [keys, empty] using h2 k, ?_⟩
  intro k hk
  rw [h3 k hk]
  simp [block, keys, empty, nRows]
  rfl

example : ∃ D', concatenate [exData, exData] = (D', none) ∧ D'.nRows = 4 :=
  ⟨_, Prod.ext rfl (by decide), by decide⟩

/-! ## C05: masks and column selection -/

/-- **C05.** `data[mask]` contains exactly the rows whose mask entry is true, in order. -/
theorem C05_mask {D : Data κ V τ} (h : Reachable D) (hne : D.keys ≠ []) (mask : List Bool)
    {rs : List (Dict κ (Option V))} (hrs : D.rows = some rs) :
    (getItem D (.mask mask)).rows = some (select mask rs) :=
  rows_maskRows h.rect (by rintro h0; exact hne (by simp [keys, h0])) mask hrs

example : (getItem exData (.mask [false, true])).rows =
    some [[("TWS", some (.int 2)), ("BSP", some (.float 3))]] := by decide

/-- **C05** (partial: the full property also covers the empty list of keys, see `C05_empty_keys_false`).
`data[keys]` for a non-empty list of keys has exactly the named columns that exist, unchanged. -/
theorem C05_keys_partial {D : Data κ V τ} (h : Reachable D) {ks : List κ} (hks : ks ≠ []) (k : κ) :
    (getItem D (.keys ks)).cols.get? k = if k ∈ ks then D.cols.get? k else none := by
  cases ks with
  | nil => exact absurd rfl hks
  | cons k0 ks =>
    simp only [getItem, getSlice]
    rw [Dict.get?_filterItems _ _ h.rect.nodup]
    by_cases hk : k ∈ k0 :: ks
    · rw [if_pos hk]
      cases D.cols.get? k <;> simp [Option.filter, hk]
    · rw [if_neg hk]
      cases D.cols.get? k <;> simp [Option.filter, hk]

example : (getItem exData (.keys ["BSP", "nope"])).cols = [("BSP", [none, some (.float 3)])] := by decide

/-- **C05** fails for the empty list of keys: instead of an object without columns, `data[[]]` has all
columns of `data` (but no rows). -/
theorem C05_empty_keys_false : ¬ ∀ (D : Data String Val Ty), Reachable D → ∀ ks k,
    (getItem D (.keys ks)).cols.get? k = if k ∈ ks then D.cols.get? k else none := by
  intro h
  have := h (update empty [("TWS", .list [some (.int 1), some (.int 2)])] false).1
    (.update .empty (d := [("TWS", .list [some (.int 1), some (.int 2)])]) (compress := false) (by decide))
    [] "TWS"
  revert this
  decide

/-! ## C06: deleting rows -/

/-- **C06** (partial: distinct, existing, non-negative indices only; the full statement is refuted by
`C06_delete_false`). `data.delete(indices)` removes exactly the listed rows. -/
theorem C06_delete_partial {D : Data κ V τ} (h : Reachable D) {idx : List Int} (hnd : idx.Nodup)
    (hv : ∀ i ∈ idx, 0 ≤ i ∧ i < D.nRows) {rs : List (Dict κ (Option V))} (hrs : D.rows = some rs) :
    (deleteRows D idx).rows = some (without idx rs) ∧
      (deleteRows D idx).nRows = ((without idx rs).length : Int) := by
  obtain ⟨h1, h2⟩ := deleteRows_spec h.rect hnd hv
  have h3 := h2 rs hrs
  refine ⟨h3, ?_⟩
  obtain ⟨rs', hr', hl⟩ := rows_of_rect h1
  rw [h3, Option.some.injEq] at hr'
  rw [hr']; exact hl.symm

example : (deleteRows exData [0]).rows =
    some [[("TWS", some (.int 2)), ("BSP", some (.float 3))]] := by decide

/-- **C06** is false in general: with a repeated index a row that was not listed is lost from the iteration,
because `n_rows` is decreased once per list element. -/
theorem C06_delete_false : ¬ ∀ (D : Data String Val Ty), Reachable D → ∀ (idx : List Int) rs,
    D.rows = some rs → (deleteRows D idx).rows = some (without idx rs) := by
  intro h
  have := h (update empty [("TWS", .list [some (.int 1), some (.int 2)])] false).1
    (.update .empty (d := [("TWS", .list [some (.int 1), some (.int 2)])]) (compress := false) (by decide))
    [0, 0] [[("TWS", some (.int 1))], [("TWS", some (.int 2))]] (by decide)
  revert this
  decide

/-- **C06** also fails for an index that does not exist: the last row silently disappears from the
iteration although no row was removed. -/
theorem C06_delete_missing_index_false : ¬ ∀ (D : Data String Val Ty), Reachable D → ∀ (idx : List Int) rs,
    idx.Nodup → D.rows = some rs → (deleteRows D idx).rows = some (without idx rs) := by
  intro h
  have := h (update empty [("TWS", .list [some (.int 1), some (.int 2)])] false).1
    (.update .empty (d := [("TWS", .list [some (.int 1), some (.int 2)])]) (compress := false) (by decide))
    [7] [[("TWS", some (.int 1))], [("TWS", some (.int 2))]] (by decide) (by decide)
  revert this
  decide

end Verif.Data
