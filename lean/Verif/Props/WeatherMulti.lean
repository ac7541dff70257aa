import Mathlib.Data.List.Basic
import Mathlib.Tactic.Common
import Verif.Lemmas.Dict
import Verif.Model.WeatherMulti

/-!
# Properties C64, C65, C66: combined weather models, NetCDF files, weather files
-/

namespace Verif.Weather

section multi

variable {κ V P : Type} [DecidableEq κ]

theorem get?_dictUpdate {d e : Dict κ V} (he : (Dict.keys e).Nodup) (k : κ) :
    Dict.get? (dictUpdate d e) k = ((Dict.get? e k).orElse fun _ => Dict.get? d k) := by
  induction e generalizing d with
  | nil => rfl
  | cons p e ih =>
    obtain ⟨h1, h2⟩ := List.nodup_cons.1 he
    change Dict.get? (dictUpdate (d.set p.1 p.2) e) k = _
    rw [ih h2, Dict.get?_set]
    obtain ⟨a, v⟩ := p
    simp only [Dict.get?_cons]
    by_cases hk : a = k
    · subst hk
      rw [(Dict.get?_eq_none_iff e a).2 h1]; simp
    · simp [hk]

/-- The answers of those submodels that do not raise. -/
def answers (models : List (P → Except PyErr (Dict κ V))) (p : P) : List (Dict κ V) :=
  models.filterMap fun m => (m p).toOption

/-- The value of a key in the last dictionary that has it. -/
def lastValue (l : List (Dict κ V)) (k : κ) : Option V := l.reverse.findSome? fun d => Dict.get? d k

theorem multiLoop_spec {sensitive : Bool} {p : P} {models : List (P → Except PyErr (Dict κ V))} {d d' : Dict κ V}
    (hnd : ∀ m ∈ models, ∀ w, m p = .ok w → (Dict.keys w).Nodup)
    (h : multiLoop sensitive p models d = .ok d') (k : κ) :
    Dict.get? d' k = ((lastValue (answers models p) k).orElse fun _ => Dict.get? d k) := by
  induction models generalizing d with
  | nil => simp only [multiLoop, Except.ok.injEq] at h; subst h; rfl
  | cons m ms ih =>
    unfold multiLoop at h
    have ih' := fun {d} => ih (d := d) (fun m' hm' => hnd m' (by simp [hm']))
    cases hm : m p with
    | ok w =>
      simp only [hm] at h
      have he : answers (m :: ms) p = w :: answers ms p := by simp [answers, hm, Except.toOption]
      rw [ih' h, get?_dictUpdate (hnd m (by simp) w hm), he]
      simp only [lastValue, List.reverse_cons, List.findSome?_append, List.findSome?_cons, List.findSome?_nil]
      generalize Dict.get? w k = x
      cases x <;> cases List.findSome? (fun d => Dict.get? d k) (answers ms p).reverse <;> rfl
    | error e =>
      simp only [hm] at h
      have he : answers (m :: ms) p = answers ms p := by simp [answers, hm, Except.toOption]
      rw [he]
      split at h
      · split at h
        · simp at h
        · exact ih' h
      · simp at h

/-- **C64.** If `get_weather` of a combined model returns, then each key has the value of the last submodel that
answers and provides this key. -/
theorem C64_last_wins {sensitive : Bool} {p : P} {models : List (P → Except PyErr (Dict κ V))} {d' : Dict κ V}
    (hnd : ∀ m ∈ models, ∀ w, m p = .ok w → (Dict.keys w).Nodup)
    (h : multiWeather sensitive models p = .ok d') (k : κ) :
    Dict.get? d' k = (models.filterMap fun m => (m p).toOption).reverse.findSome? fun d => Dict.get? d k := by
  rw [multiLoop_spec hnd h k]
  change Option.orElse (lastValue (answers models p) k) _ = lastValue (answers models p) k
  cases lastValue (answers models p) k <;> rfl

/-- **C64** (partial: the documentation also promises this for `NotImplementedError`, see
`C64_not_implemented_false`). Submodels raising `ValueError`, `TypeError` or `KeyError` are ignored: the call
succeeds and gives the same as without these submodels. -/
theorem C64_ignore_partial {p : P} {models : List (P → Except PyErr (Dict κ V))}
    (h : ∀ m ∈ models, ∀ e, m p = .error e → e = .valueError ∨ e = .typeError ∨ e = .keyError) :
    (∃ d, multiWeather false models p = .ok d) ∧
    multiWeather false models p = multiWeather false (models.filter fun m => (m p).toOption.isSome) p := by
  have key : ∀ d, (∃ d', multiLoop false p models d = .ok d') ∧
      multiLoop false p models d = multiLoop false p (models.filter fun m => (m p).toOption.isSome) d := by
    induction models with
    | nil => intro d; exact ⟨⟨d, rfl⟩, rfl⟩
    | cons m ms ih =>
      intro d
      have ih' := ih (fun m' hm' => h m' (by simp [hm']))
      cases hm : m p with
      | ok w =>
        have : (m :: ms).filter (fun m => (m p).toOption.isSome) = m :: ms.filter fun m => (m p).toOption.isSome := by
          simp [hm, Except.toOption]
        rw [this]
        simp only [multiLoop, hm]
        exact ih' _
      | error e =>
        have : (m :: ms).filter (fun m => (m p).toOption.isSome) = ms.filter fun m => (m p).toOption.isSome := by
          simp [hm, Except.toOption]
        rw [this]
        have hc : caught e = true := by rcases h m (by simp) e hm with rfl | rfl | rfl <;> rfl
        simp only [multiLoop, hm, hc, if_true, Bool.false_eq_true, if_false]
        exact ih' d
  exact key []

/-- **C64.** With `exception_sensitive`, the exception of the first raising submodel is raised. -/
theorem C64_sensitive {p : P} {models : List (P → Except PyErr (Dict κ V))} {e : PyErr} :
    multiWeather true models p = .error e ↔
      ∃ pre m post, models = pre ++ m :: post ∧ m p = .error e ∧ ∀ m' ∈ pre, ∃ w, m' p = .ok w := by
  have key : ∀ d, multiLoop true p models d = .error e ↔
      ∃ pre m post, models = pre ++ m :: post ∧ m p = .error e ∧ ∀ m' ∈ pre, ∃ w, m' p = .ok w := by
    induction models with
    | nil => intro d; simp [multiLoop]
    | cons m ms ih =>
      intro d
      cases hm : m p with
      | ok w =>
        simp only [multiLoop, hm]
        rw [ih]
        constructor
        · rintro ⟨pre, m', post, rfl, h1, h2⟩
          refine ⟨m :: pre, m', post, rfl, h1, ?_⟩
          intro q hq
          rcases List.mem_cons.1 hq with rfl | hq
          · exact ⟨w, hm⟩
          · exact h2 q hq
        · rintro ⟨pre, m', post, he, h1, h2⟩
          cases pre with
          | nil => simp only [List.nil_append, List.cons.injEq] at he; rw [← he.1, hm] at h1; simp at h1
          | cons q pre =>
            simp only [List.cons_append, List.cons.injEq] at he
            exact ⟨pre, m', post, he.2, h1, fun q' hq' => h2 q' (by simp [hq'])⟩
      | error e' =>
        have h0 : multiLoop true p (m :: ms) d = .error e' := by simp [multiLoop, hm]
        rw [h0]
        simp only [Except.error.injEq]
        constructor
        · rintro rfl; exact ⟨[], m, ms, rfl, hm, by simp⟩
        · rintro ⟨pre, m', post, he, h1, h2⟩
          cases pre with
          | nil =>
            simp only [List.nil_append, List.cons.injEq] at he
            rw [← he.1, hm] at h1; simpa using h1
          | cons q pre =>
            simp only [List.cons_append, List.cons.injEq] at he
            obtain ⟨w, hw⟩ := h2 q (by simp)
            rw [← he.1, hm] at hw; simp at hw
  exact key []

example : multiWeather false [fun _ : Unit => .ok [("TWS", 1), ("TWA", 2)], fun _ => .error .keyError,
    fun _ => .ok [("TWS", 3), ("T", 4)]] () = .ok [("TWS", 3), ("TWA", 2), ("T", 4)] := by decide

example : multiWeather true [fun _ : Unit => .ok [("TWS", 1)], fun _ => .error .keyError,
    fun _ => .error .typeError] () = .error .keyError := by decide

/-- **C64** is false for `NotImplementedError`, which the documentation lists among the ignored exceptions. -/
theorem C64_not_implemented_false (p : P) (w : Dict κ V) :
    multiWeather false [fun _ : P => .ok w, fun _ => .error .runtimeError] p = .error .runtimeError := by
  simp [multiWeather, multiLoop, caught]

end multi

/-! ### C65 -/

section netcdf

variable {κ V : Type} [DecidableEq κ]

/-- **C65.** The index used for reading the file belongs to the coordinate of the grid point, whether the file is in
ascending or descending order. -/
theorem C65_coordinate {K : Type} (file : List K) (flipped : Bool) {idx : Nat} (h : idx < file.length) :
    file[fileIdx flipped (gridCoords flipped file).length idx]? = (gridCoords flipped file)[idx]? := by
  cases flipped with
  | false => simp [fileIdx, gridCoords]
  | true =>
    simp only [fileIdx, gridCoords, if_true, List.length_reverse]
    rw [List.getElem?_reverse h, Nat.sub_sub, Nat.sub_sub, Nat.add_comm]

/-- **C65.** The grid coordinates are ascending for a file that is strictly monotone in either direction. -/
theorem C65_ascending {K : Type} [LinearOrder K] {file : List K} (hne : file ≠ [])
    (h : file.Pairwise (· < ·) ∨ file.Pairwise (· > ·)) :
    ∃ b, isFlipped file = .ok b ∧ (gridCoords b file).Pairwise (· < ·) := by
  have hl := List.getLast?_eq_some_getLast hne
  have hh := List.head?_eq_some_head hne
  refine ⟨decide (file.getLast hne < file.head hne), by simp only [isFlipped, hl, hh], ?_⟩
  match file, hne with
  | [a], _ => simp [gridCoords]
  | a :: b :: l, hne =>
    have hm : (a :: b :: l).getLast hne ∈ b :: l := by
      rw [List.getLast_cons (by simp)]; exact List.getLast_mem _
    rcases h with h | h
    · have := (List.pairwise_cons.1 h).1 _ hm
      simp only [List.head_cons, gridCoords, not_lt.2 this.le, decide_false, Bool.false_eq_true, if_false]
      exact h
    · have := (List.pairwise_cons.1 h).1 _ hm
      simp only [List.head_cons, gridCoords, show (a :: b :: l).getLast hne < a from this, decide_true, if_true]
      rw [List.pairwise_reverse]
      exact h

/-- The index belonging to a dimension. -/
def coordIdx (further : Dict κ Nat) (t la lo : Nat) : Coord κ → Option Nat
  | .time => some t
  | .lat => some la
  | .lon => some lo
  | .other n => further.get? n

theorem varIdxs_spec (further : Dict κ Nat) (t la lo : Nat) (cs : List (Coord κ)) :
    varIdxs further t la lo cs = match cs.mapM (coordIdx further t la lo) with
      | some is => .ok is
      | none => .error .runtimeError := by
  induction cs with
  | nil => rfl
  | cons c cs ih =>
    rw [List.mapM_cons]
    unfold varIdxs
    rw [ih]
    cases c with
    | other n =>
      simp only [coordIdx]
      cases further.get? n <;> cases cs.mapM (coordIdx further t la lo) <;> rfl
    | _ => simp only [coordIdx]; cases cs.mapM (coordIdx further t la lo) <;> rfl

/-- **C65.** Each attribute is read at the index tuple given by the order of its own dimensions. -/
theorem C65_entries (further : Dict κ Nat) (fla flo : Bool) (nLats nLons : Nat) (vars : List (Var κ V))
    (t la lo : Nat) {r : List V} (h : netGetData further fla flo nLats nLons vars t la lo = .ok r) :
    r.length = vars.length ∧ ∀ (i : Nat) (v : Var κ V), vars[i]? = some v →
      ∃ is, v.dims.mapM (coordIdx further t (fileIdx fla nLats la) (fileIdx flo nLons lo)) = some is ∧
        r[i]? = some (v.entry is) := by
  unfold netGetData at h
  induction vars generalizing r with
  | nil => simp only [netData, Except.ok.injEq] at h; subst h; simp
  | cons v vs ih =>
    unfold netData at h
    rw [varIdxs_spec] at h
    cases hv : v.dims.mapM (coordIdx further t (fileIdx fla nLats la) (fileIdx flo nLons lo)) with
    | none => simp [hv] at h
    | some is =>
      simp only [hv] at h
      cases hr : netData further t (fileIdx fla nLats la) (fileIdx flo nLons lo) vs with
      | error e => simp [hr] at h
      | ok r' =>
        simp only [hr, Except.ok.injEq] at h
        subst h
        obtain ⟨i1, i2⟩ := ih hr
        refine ⟨by simp [i1], fun i w hw => ?_⟩
        cases i with
        | zero => simp only [List.getElem?_cons_zero, Option.some.injEq] at hw; subst hw; exact ⟨is, hv, rfl⟩
        | succ i => simpa using i2 i w (by simpa using hw)

/-- **C65.** Reading fails, with `NotImplementedError`, exactly if some variable has a further dimension without a given
index. -/
theorem C65_fails_iff (further : Dict κ Nat) (fla flo : Bool) (nLats nLons : Nat) (vars : List (Var κ V))
    (t la lo : Nat) :
    netGetData further fla flo nLats nLons vars t la lo = .error .runtimeError ↔
      ∃ v ∈ vars, ∃ n, Coord.other n ∈ v.dims ∧ n ∉ Dict.keys further := by
  have key : ∀ cs : List (Coord κ), cs.mapM (coordIdx further t (fileIdx fla nLats la) (fileIdx flo nLons lo)) = none ↔
      ∃ n, Coord.other n ∈ cs ∧ n ∉ Dict.keys further := by
    intro cs
    induction cs with
    | nil => simp
    | cons c cs ih =>
      rw [List.mapM_cons]
      cases c with
      | other n =>
        simp only [coordIdx]
        cases hg : further.get? n with
        | none =>
          rw [Dict.get?_eq_none_iff] at hg
          simp only [Option.bind_eq_bind, Option.bind_none, true_iff]
          exact ⟨n, by simp, hg⟩
        | some i =>
          have hn := (Dict.mem_keys_iff further n).2 ⟨i, hg⟩
          simp only [Option.bind_eq_bind, Option.bind_some]
          constructor
          · intro h
            have : cs.mapM (coordIdx further t (fileIdx fla nLats la) (fileIdx flo nLons lo)) = none := by
              cases hc : cs.mapM (coordIdx further t (fileIdx fla nLats la) (fileIdx flo nLons lo)) with
              | none => rfl
              | some x => rw [hc] at h; simp at h
            obtain ⟨m, h1, h2⟩ := ih.1 this
            exact ⟨m, by simp [h1], h2⟩
          · rintro ⟨m, h1, h2⟩
            rcases List.mem_cons.1 h1 with h1 | h1
            · simp only [Coord.other.injEq] at h1; subst h1; exact absurd hn h2
            · rw [ih.2 ⟨m, h1, h2⟩]; rfl
      | _ =>
        simp only [coordIdx, Option.bind_eq_bind, Option.bind_some, List.mem_cons, reduceCtorEq, false_or]
        rw [← ih]
        cases cs.mapM (coordIdx further t (fileIdx fla nLats la) (fileIdx flo nLons lo)) <;> simp
  unfold netGetData
  induction vars with
  | nil => simp [netData]
  | cons v vs ih =>
    unfold netData
    rw [varIdxs_spec]
    have hk := key v.dims
    cases hv : v.dims.mapM (coordIdx further t (fileIdx fla nLats la) (fileIdx flo nLons lo)) with
    | none =>
      obtain ⟨n, h1, h2⟩ := hk.1 hv
      simp only [true_iff]
      exact ⟨v, by simp, n, h1, h2⟩
    | some is =>
      have hno : ¬ ∃ n, Coord.other n ∈ v.dims ∧ n ∉ Dict.keys further := by rw [← hk, hv]; simp
      simp only [List.mem_cons, exists_eq_or_imp, hno, false_or]
      refine Iff.trans ?_ ih
      cases netData further t (fileIdx fla nLats la) (fileIdx flo nLons lo) vs <;> simp

example : netGetData [("level", 3)] true false 3 4
    [⟨[.lon, .lat, .time], fun l => l⟩, ⟨[.time, .other "level"], fun l => l⟩] 7 0 1 =
    .ok [[1, 2, 7], [7, 3]] := by decide

example : netGetData [] true false 3 4 [⟨[.time, .other "level"], fun l => l⟩] 7 0 1 = .error .runtimeError := by
  decide

end netcdf

/-! ### C66 -/

section file

variable {κ K T S : Type}

/-- **C66** (partial: for times that survive formatting; `"%d.%m.%Y:%X"` has no fractions of a second, see
`C66_fraction_false`). A weather model read from a file written by `to_file` has the same data, times, latitudes,
longitudes and attributes. -/
theorem C66_round_trip_partial (fmt : T → S) (parse : S → Option T) (data : List (List (List (List K))))
    (times : List T) (lats lons : List K) (attrs : List κ) (h : ∀ t ∈ times, parse (fmt t) = some t) :
    fromFile parse (toFile fmt data times lats lons attrs) = .ok (data, times, lats, lons, attrs) := by
  have : (times.map fmt).mapM parse = some times := by
    induction times with
    | nil => rfl
    | cons t ts ih =>
      rw [List.map_cons, List.mapM_cons, h t (by simp), ih (fun t' ht' => h t' (by simp [ht']))]
      rfl
  simp [fromFile, toFile, this]

/-- **C66.** Whatever a format with whole seconds does, it cannot restore two different times that it formats
equally: for one of them the model read back differs. -/
theorem C66_fraction_false (fmt : T → S) (parse : S → Option T) {t t' : T} (hne : t ≠ t') (hf : fmt t = fmt t')
    (data : List (List (List (List K)))) (lats lons : List K) (attrs : List κ) :
    ¬ ∀ times : List T, fromFile parse (toFile fmt data times lats lons attrs) = .ok (data, times, lats, lons, attrs) := by
  intro h
  have h1 := h [t]
  have h2 := h [t']
  simp only [toFile, List.map_cons, List.map_nil, hf] at h1 h2
  rw [h1] at h2
  simp only [Except.ok.injEq, Prod.mk.injEq, List.cons.injEq, and_true, true_and] at h2
  exact hne h2

/-- Times in microseconds, formatted with whole seconds. -/
example : fromFile (fun s : Nat => some (s * 1000000)) (toFile (fun t : Nat => t / 1000000) [[[[(7 : Int)]]]]
    [3000000, 5000000] [1] [2] ["TWS"]) = .ok ([[[[7]]]], [3000000, 5000000], [1], [2], ["TWS"]) := rfl

example : fromFile (fun s : Nat => some (s * 1000000)) (toFile (fun t : Nat => t / 1000000) [[[[(7 : Int)]]]]
    [3500000] [1] [2] ["TWS"]) = .ok ([[[[7]]]], [3000000], [1], [2], ["TWS"]) := rfl

end file

end Verif.Weather
