import Verif.Props.Data

/-!
# Property C07: `strip`
-/

set_option linter.unusedSectionVars false
set_option linter.unusedSimpArgs false

namespace Verif.Data

variable {κ V τ : Type} [DecidableEq κ] [DecidableEq τ] [HasType V τ]

/-! ### lemmas about the scanning loops -/

/-- Row `i` of a table consists of `None` only. -/
def BlankAt (cols : Dict κ (List (Option V))) (i : Nat) : Prop := ∀ p ∈ cols, p.2[i]? = some none

theorem allNoneAt_true {cols : Dict κ (List (Option V))} {i : Nat} (h : BlankAt cols i) :
    allNoneAt cols (i : Int) = .ok true := by
  induction cols with
  | nil => rfl
  | cons p cols ih =>
    obtain ⟨k, c⟩ := p
    have h1 := h (k, c) (by simp)
    simp only [allNoneAt, pyIndex_nat, h1]
    exact ih (fun q hq => h q (by simp [hq]))

theorem allNoneAt_false {cols : Dict κ (List (Option V))} {i : Nat}
    (hlen : ∀ p ∈ cols, i < p.2.length) (h : ¬ BlankAt cols i) :
    allNoneAt cols (i : Int) = .ok false := by
  induction cols with
  | nil => exact absurd (fun p hp => absurd hp (by simp)) h
  | cons p cols ih =>
    obtain ⟨k, c⟩ := p
    have h1 := hlen (k, c) (by simp)
    simp only [allNoneAt, pyIndex_nat]
    rw [List.getElem?_eq_getElem h1]
    cases hc : c[i] with
    | some v => rfl
    | none =>
      simp only
      refine ih (fun q hq => hlen q (by simp [hq])) ?_
      intro hb
      apply h
      intro q hq
      rcases List.mem_cons.1 hq with rfl | hq
      · simp only; rw [List.getElem?_eq_getElem h1, hc]
      · exact hb q hq

theorem scanLoop_up {cols : Dict κ (List (Option V))} {n i j fuel : Nat}
    (hlen : ∀ p ∈ cols, p.2.length = n) (hij : i ≤ j) (hj : j < n)
    (hblank : ∀ l, i ≤ l → l < j → BlankAt cols l) (hnb : ¬ BlankAt cols j) (hf : j - i < fuel) :
    scanLoop cols 1 fuel (i : Int) = some (.ok (j : Int)) := by
  induction fuel generalizing i with
  | zero => omega
  | succ fuel ih =>
    by_cases h : i = j
    · subst h
      rw [scanLoop, allNoneAt_false (fun p hp => by rw [hlen p hp]; exact hj) hnb]
    · rw [scanLoop, allNoneAt_true (hblank i le_rfl (by omega))]
      have := ih (i := i + 1) (by omega) (fun l h1 h2 => hblank l (by omega) h2) (by omega)
      simp only
      exact_mod_cast this

theorem scanLoop_down {cols : Dict κ (List (Option V))} {n i j fuel : Nat}
    (hlen : ∀ p ∈ cols, p.2.length = n) (hij : j ≤ i) (hi : i < n)
    (hblank : ∀ l, j < l → l ≤ i → BlankAt cols l) (hnb : ¬ BlankAt cols j) (hf : i - j < fuel) :
    scanLoop cols (-1) fuel (i : Int) = some (.ok (j : Int)) := by
  induction fuel generalizing i with
  | zero => omega
  | succ fuel ih =>
    by_cases h : i = j
    · subst h
      rw [scanLoop, allNoneAt_false (fun p hp => by rw [hlen p hp]; exact hi) hnb]
    · rw [scanLoop, allNoneAt_true (hblank i (by omega) le_rfl)]
      have h0 : (i : Int) + -1 = ((i - 1 : Nat) : Int) := by omega
      simp only [h0]
      exact ih (i := i - 1) (by omega) (by omega) (fun l h1 h2 => hblank l h1 (by omega)) (by omega)

theorem stripCols_get? {D : Data κ V τ} (hr : Rect D) (k : κ) :
    (stripCols D).cols.get? k = (D.cols.get? k).filter (fun c => ! c.all Option.isNone) := by
  simp only [stripCols]
  exact Dict.get?_filterItems (fun _ v => ! v.all Option.isNone) D.cols hr.nodup k

theorem rect_stripCols {D : Data κ V τ} (hr : Rect D) : Rect (stripCols D) := by
  refine ⟨(Dict.keys_filterItems_sublist (fun (_ : κ) (v : List (Option V)) => ! v.all Option.isNone) D.cols).nodup hr.nodup,
    hr.nonneg, ?_⟩
  intro k c hk
  rw [stripCols_get? hr] at hk
  cases hc : D.cols.get? k with
  | none => simp [hc, Option.filter] at hk
  | some c' =>
    rw [hc, Option.filter] at hk
    split at hk
    · simp only [Option.some.injEq] at hk; subst hk; exact hr.eq k _ hc
    · simp at hk

/-! ## the property -/

/-- **C07** fails: on every object whose entries are all `None` (in particular on `Data()`), `strip()` never
returns. -/
theorem C07_strip_diverges {D : Data κ V τ} (h : ∀ p ∈ D.cols, ∀ v ∈ p.2, v = none) (fuel : Nat) :
    stripAll fuel D = none := by
  have h0 : (stripCols D).cols = [] := by
    simp only [stripCols, Dict.filterItems, List.filter_eq_nil_iff]
    intro p hp
    have := h p hp
    simp only [Bool.not_eq_true', Bool.not_eq_false, List.all_eq_true]
    intro v hv
    rw [this v hv]; rfl
  have hloop : ∀ fuel i, scanLoop ([] : Dict κ (List (Option V))) 1 fuel i = none := by
    intro fuel
    induction fuel with
    | zero => intro i; rfl
    | succ fuel ih => intro i; simp only [scanLoop, allNoneAt]; exact ih _
  simp only [stripAll, stripRows, h0, hloop]

example : ∀ fuel, stripAll fuel (empty : Data String Val Ty) = none :=
  fun fuel => C07_strip_diverges (by simp [empty]) fuel

/-- **C07** fails: `strip()` does not adapt `n_rows`, so iterating over the rows of the stripped object
raises `IndexError`. -/
theorem C07_n_rows_false : ¬ ∀ (D D' : Data String Val Ty) (fuel : Nat), Reachable D →
    stripAll fuel D = some (D', none) → ∃ rs, D'.rows = some rs := by
  intro h
  let D : Data String Val Ty := (update empty [("TWS", .list [none, some (.int 2)])] false).1
  have hD : Reachable D :=
    .update .empty (d := [("TWS", .list [none, some (.int 2)])]) (compress := false) (by decide)
  have := h D ⟨[("TWS", [some (.int 2)])], [("TWS", some .int)], 2⟩ 5 hD (by decide)
  revert this
  have : Data.rows (⟨[("TWS", [some (.int 2)])], [("TWS", some .int)], 2⟩ : Data String Val Ty) = none := by
    decide
  rw [this]; simp

/-- **C07** (partial: only for data with at least one measured value; and without the claim that `n_rows` is
the number of remaining rows, which is false by `C07_n_rows_false`). `strip()` returns; it removes exactly the columns
without measured values, and from the others a prefix of length `a` and everything after position `a + l`,
all of it `None`; the first and the last remaining row contain a measured value. -/
theorem C07_strip_partial {D : Data κ V τ} (hr : Reachable D) {k₀ : κ} {v₀ : V}
    (hv₀ : some v₀ ∈ colOf D k₀) :
    ∃ (fuel : Nat) (D' : Data κ V τ) (a l : Nat), stripAll fuel D = some (D', none) ∧
      (∀ k, k ∈ D'.keys ↔ ∃ v, some v ∈ colOf D k) ∧
      (∀ k ∈ D'.keys, colOf D' k = ((colOf D k).drop a).take l ∧ (colOf D' k).length = l) ∧
      (∀ k, (∀ v ∈ (colOf D k).take a, v = none) ∧ ∀ v ∈ (colOf D k).drop (a + l), v = none) ∧
      (∃ k v, (colOf D' k).head? = some (some v)) ∧ (∃ k v, (colOf D' k).getLast? = some (some v)) := by
  classical
  have hrect := hr.rect
  have hrS := rect_stripCols hrect
  set S := stripCols D with hS
  obtain ⟨n, hn⟩ : ∃ n : Nat, D.maxLen = n := ⟨D.maxLen.toNat, by have := hrect.nonneg; omega⟩
  have hSn : S.maxLen = n := hn
  have hlenS : ∀ p ∈ S.cols, p.2.length = n := by
    intro p hp; have := hrS.length_eq p hp; omega
  -- columns of S
  have hgetS : ∀ k c, S.cols.get? k = some c ↔ D.cols.get? k = some c ∧ ∃ v, some v ∈ c := by
    intro k c
    rw [hS, stripCols_get? hrect]
    cases hk : D.cols.get? k with
    | none => simp [Option.filter]
    | some c' =>
      rw [Option.filter]
      have hall : (! c'.all Option.isNone) = true ↔ ∃ v, some v ∈ c' := by
        simp only [Bool.not_eq_true', Bool.eq_false_iff, ne_eq, List.all_eq_true, not_forall]
        constructor
        · rintro ⟨x, hx, hxn⟩
          cases x with
          | none => simp at hxn
          | some v => exact ⟨v, hx⟩
        · rintro ⟨v, hv⟩; exact ⟨some v, hv, by simp⟩
      split
      · rename_i ht
        rw [hall] at ht
        constructor
        · intro h; simp only [Option.some.injEq] at h; subst h; exact ⟨rfl, ht⟩
        · rintro ⟨h, -⟩; exact h
      · rename_i ht
        rw [hall] at ht
        constructor
        · intro h; simp at h
        · rintro ⟨h, hv⟩; simp only [Option.some.injEq] at h; subst h; exact absurd hv ht
  -- a non-blank row
  have hnonblank : ∃ i, i < n ∧ ¬ BlankAt S.cols i := by
    cases hk : D.cols.get? k₀ with
    | none => simp [colOf, hk] at hv₀
    | some c =>
      rw [colOf_of_get? hk] at hv₀
      obtain ⟨i, hi, hie⟩ := List.getElem_of_mem hv₀
      have hc : S.cols.get? k₀ = some c := (hgetS _ _).2 ⟨hk, _, hv₀⟩
      have hlen := hlenS _ (Dict.mem_of_get? hc)
      refine ⟨i, by simp only at hlen; omega, ?_⟩
      intro hb
      have := hb _ (Dict.mem_of_get? hc)
      simp only at this
      rw [List.getElem?_eq_getElem hi, hie] at this
      simp at this
  -- first and last non-blank row
  let a := Nat.find hnonblank
  have ha := Nat.find_spec hnonblank
  have hamin : ∀ l, l < a → BlankAt S.cols l := by
    intro l hl
    have := Nat.find_min hnonblank hl
    by_contra hb
    exact this ⟨by have := ha.1; omega, hb⟩
  let b := Nat.findGreatest (fun i => ¬ BlankAt S.cols i) (n - 1)
  have hab : a ≤ b := Nat.le_findGreatest (by have := ha.1; omega) ha.2
  have hbspec : ¬ BlankAt S.cols b := Nat.findGreatest_spec (P := fun i => ¬ BlankAt S.cols i)
    (m := a) (by have := ha.1; omega) ha.2
  have hble : b ≤ n - 1 := Nat.findGreatest_le _
  have hnpos : 0 < n := by have := ha.1; omega
  have hbmax : ∀ l, b < l → l ≤ n - 1 → BlankAt S.cols l := by
    intro l h1 h2
    have := Nat.findGreatest_is_greatest h1 h2
    simpa using this
  have hup : scanLoop S.cols 1 (n + 1) ((0 : Nat) : Int) = some (.ok (a : Int)) :=
    scanLoop_up hlenS (Nat.zero_le _) ha.1 (fun l _ hl => hamin l hl) ha.2 (by have := ha.1; omega)
  have hdown : scanLoop S.cols (-1) (n + 1) ((n - 1 : Nat) : Int) = some (.ok (b : Int)) :=
    scanLoop_down hlenS hble (by omega) hbmax hbspec (by omega)
  have hstart : S.maxLen - 1 = ((n - 1 : Nat) : Int) := by rw [hSn]; omega
  let D' : Data κ V τ := { S with cols := Dict.mapVals (fun c => pySlice c (a : Int) ((b : Int) + 1)) S.cols }
  have hD'get : ∀ k c, S.cols.get? k = some c → D'.cols.get? k = some ((c.drop a).take (b + 1 - a)) := by
    intro k c hc
    simp only [D', Dict.get?_mapVals, hc, Option.map_some, Option.some.injEq]
    have h1 : sliceBound c.length ((b : Int) + 1) = b + 1 := by simp only [sliceBound]; split <;> omega
    have h2 : sliceBound c.length (a : Int) = a := by simp only [sliceBound]; split <;> omega
    rw [pySlice, h1, h2, List.drop_take]
  have hD'keys : ∀ k, k ∈ D'.keys ↔ k ∈ S.keys := by
    intro k; simp only [keys, D', Dict.keys_mapVals]
  have hDcol : ∀ k c, S.cols.get? k = some c → colOf D k = c := by
    intro k c hc; exact colOf_of_get? ((hgetS k c).1 hc).1
  have hkeys : ∀ k, k ∈ D'.keys ↔ ∃ v, some v ∈ colOf D k := by
    intro k
    rw [hD'keys]
    constructor
    · intro hk
      obtain ⟨c, hc⟩ := (Dict.mem_keys_iff _ _).1 hk
      rw [hDcol k c hc]; exact ((hgetS k c).1 hc).2
    · rintro ⟨v, hv⟩
      cases hk : D.cols.get? k with
      | none => simp [colOf, hk] at hv
      | some c =>
        rw [colOf_of_get? hk] at hv
        exact (Dict.mem_keys_iff _ _).2 ⟨c, (hgetS k c).2 ⟨hk, v, hv⟩⟩
  have hcol : ∀ k ∈ D'.keys, colOf D' k = ((colOf D k).drop a).take (b + 1 - a) ∧
      (colOf D k).length = n ∧ (colOf D' k).length = b + 1 - a := by
    intro k hk
    obtain ⟨c, hc⟩ := (Dict.mem_keys_iff _ _).1 ((hD'keys k).1 hk)
    have hl := hlenS _ (Dict.mem_of_get? hc)
    simp only at hl
    rw [colOf_of_get? (hD'get k c hc), hDcol k c hc]
    refine ⟨rfl, hl, ?_⟩
    simp only [List.length_take, List.length_drop]; omega
  -- entries of the non-blank rows
  have hentry : ∀ i, i < n → ¬ BlankAt S.cols i → ∃ k ∈ D'.keys, ∃ v, (colOf D k)[i]? = some (some v) := by
    intro i hi hb
    simp only [BlankAt, not_forall] at hb
    obtain ⟨p, hp, hne⟩ := hb
    have hl := hlenS p hp
    have hc := Dict.get?_of_mem hrS.nodup hp
    refine ⟨p.1, (hD'keys _).2 ((Dict.mem_keys_iff _ _).2 ⟨_, hc⟩), ?_⟩
    rw [hDcol _ _ hc]
    have hi' : i < p.2.length := by omega
    rw [List.getElem?_eq_getElem hi'] at hne ⊢
    cases hx : p.2[i] with
    | none => rw [hx] at hne; exact absurd rfl hne
    | some v => exact ⟨v, rfl⟩
  refine ⟨n + 1, D', a, b + 1 - a, ?_, hkeys, fun k hk => ⟨(hcol k hk).1, (hcol k hk).2.2⟩, ?_, ?_, ?_⟩
  · simp only [stripAll, stripRows, ← hS]
    have hup' : scanLoop S.cols 1 (n + 1) 0 = some (.ok (a : Int)) := by simpa using hup
    rw [hup', hstart, hdown]
  · intro k
    by_cases hk : k ∈ D'.keys
    · obtain ⟨c, hc⟩ := (Dict.mem_keys_iff _ _).1 ((hD'keys k).1 hk)
      have hl := hlenS _ (Dict.mem_of_get? hc)
      simp only at hl
      rw [hDcol k c hc]
      constructor
      · intro v hv
        obtain ⟨i, hi, rfl⟩ := List.getElem_of_mem hv
        simp only [List.length_take] at hi
        have := hamin i (by omega) _ (Dict.mem_of_get? hc)
        simp only at this
        rw [List.getElem?_eq_getElem (by omega)] at this
        simpa using this
      · intro v hv
        obtain ⟨i, hi, rfl⟩ := List.getElem_of_mem hv
        simp only [List.length_drop] at hi
        have := hbmax (a + (b + 1 - a) + i) (by omega) (by omega) _ (Dict.mem_of_get? hc)
        simp only at this
        rw [List.getElem?_eq_getElem (by omega)] at this
        simpa using this
    · have hnone : ∀ v ∈ colOf D k, v = none := by
        intro v hv
        cases v with
        | none => rfl
        | some v => exact absurd ((hkeys k).2 ⟨v, hv⟩) hk
      exact ⟨fun v hv => hnone v (List.mem_of_mem_take hv), fun v hv => hnone v (List.mem_of_mem_drop hv)⟩
  · obtain ⟨k, hk, v, hv⟩ := hentry a ha.1 ha.2
    refine ⟨k, v, ?_⟩
    rw [(hcol k hk).1, List.head?_take, if_neg (by omega), List.head?_drop]
    exact hv
  · obtain ⟨k, hk, v, hv⟩ := hentry b (by omega) hbspec
    refine ⟨k, v, ?_⟩
    rw [List.getLast?_eq_getElem?, (hcol k hk).2.2, (hcol k hk).1]
    rw [List.getElem?_take_of_lt (by omega), List.getElem?_drop]
    rw [← hv]
    congr 1
    omega

example : ∃ D', stripAll 5 (update empty [("A", .list [none, some (.int 2), none, some (.int 1), none]),
      ("B", .list [none, none])] false : Res (Data String Val Ty)).1 = some (D', none) ∧
    D'.cols = [("A", [some (.int 2), none, some (.int 1)])] ∧ D'.nRows = 5 :=
  ⟨⟨[("A", [some (.int 2), none, some (.int 1)])], _, _⟩, by rfl, by decide, by decide⟩

end Verif.Data
