import Verif.Model.InfluenceData
import Verif.Lemmas.Dict
import Verif.Lemmas.Fold
import Mathlib.Data.Rat.Defs
import Mathlib.Tactic.Ring
import Verif.Props.Convex

/-!
# Properties C102 and C103: true wind data, and influences in `cruise`
-/

namespace Verif.InflData

variable {K : Type}

/-! ### C102 -/

theorem rows3_getElem {a b c : List K} (h1 : a.length = b.length) (h2 : b.length = c.length) :
    (rows3 a b c).length = a.length ∧ ∀ (i : Nat) x y z, a[i]? = some x → b[i]? = some y → c[i]? = some z →
      (rows3 a b c)[i]? = some [x, y, z] := by
  induction a generalizing b c with
  | nil =>
    refine ⟨rfl, ?_⟩
    intro i x y z h
    simp at h
  | cons x a ih =>
    match b, c, h1, h2 with
    | y :: b, z :: c, h1, h2 =>
      simp only [List.length_cons, Nat.add_right_cancel_iff] at h1 h2
      obtain ⟨hl, hi⟩ := ih h1 h2
      refine ⟨by simp [rows3, hl], ?_⟩
      intro i x' y' z' hx hy hz
      cases i with
      | zero =>
        simp only [List.getElem?_cons_zero, Option.some.injEq] at hx hy hz
        simp [rows3, hx, hy, hz]
      | succ i =>
        simp only [List.getElem?_cons_succ] at hx hy hz
        simp only [rows3, List.getElem?_cons_succ]
        exact hi i x' y' z' hx hy hz

/-- The name of the boat speed: `"BSP"`, or `"SOG"` if there is no `"BSP"`. -/
def Speed (d : Dict String (Col K)) (key : String) : Prop :=
  key = "BSP" ∧ "BSP" ∈ Dict.keys d ∨ key = "SOG" ∧ "BSP" ∉ Dict.keys d

theorem speed_eq {d : Dict String (Col K)} {key : String} (h : Speed d key) :
    (if "BSP" ∈ Dict.keys d then "BSP" else "SOG") = key := by
  rcases h with ⟨rfl, h⟩ | ⟨rfl, h⟩
  · exact if_pos h
  · exact if_neg h

theorem mem_of_get {d : Dict String (Col K)} {k : String} {c : Col K} (h : d.get? k = some c) : k ∈ Dict.keys d :=
  (Dict.mem_keys_iff _ _).2 ⟨c, h⟩

/-- **C102**, for lists: the result has one row for each measurement, which contains the true wind speed, the true wind
angle and the boat speed (`"BSP"` if there is one, otherwise `"SOG"`), whatever other columns there are. What is missing: see
`C102_array_false` and `C102_single_false`. -/
theorem C102_true_partial (toTrue) {d : Dict String (Col K)} {a b c : List K} {key : String} (hs : Speed d key)
    (ha : d.get? "TWS" = some (.list a)) (hb : d.get? "TWA" = some (.list b)) (hc : d.get? key = some (.list c))
    (h1 : a.length = b.length) (h2 : b.length = c.length) :
    ∃ rows, trueWindData toTrue d = .ok (.rows rows) ∧ rows.length = a.length ∧
      ∀ (i : Nat) x y z, a[i]? = some x → b[i]? = some y → c[i]? = some z → rows[i]? = some [x, y, z] := by
  refine ⟨rows3 a b c, ?_, rows3_getElem h1 h2⟩
  unfold trueWindData
  simp only
  rw [if_pos ⟨mem_of_get hb, mem_of_get ha⟩, speed_eq hs, ha]
  simp only [toNumpy]
  rw [ha, hb, hc]
  simp only [Col.entries, h1, h2, and_self, if_true]
  rfl

/-- **C102**: without true wind, the rows of apparent wind speed, apparent wind angle and boat speed are converted. -/
theorem C102_apparent (toTrue) {d : Dict String (Col K)} {a b c : Col K} {key : String} (hs : Speed d key)
    (hn : "TWS" ∉ Dict.keys d ∨ "TWA" ∉ Dict.keys d)
    (ha : d.get? "AWS" = some a) (hb : d.get? "AWA" = some b) (hc : d.get? key = some c)
    (h1 : a.entries.length = b.entries.length) (h2 : b.entries.length = c.entries.length) :
    ∃ rows, trueWindData toTrue d = (toTrue rows).map .rows ∧ rows.length = a.entries.length ∧
      ∀ (i : Nat) x y z, a.entries[i]? = some x → b.entries[i]? = some y → c.entries[i]? = some z →
        rows[i]? = some [x, y, z] := by
  refine ⟨rows3 a.entries b.entries c.entries, ?_, rows3_getElem h1 h2⟩
  unfold trueWindData
  simp only
  rw [if_neg (by rintro ⟨h, h'⟩; rcases hn with hn | hn <;> exact absurd ‹_› hn),
    if_pos ⟨mem_of_get hb, mem_of_get ha⟩, speed_eq hs]
  simp only [toNumpy]
  rw [ha, hb, hc]
  simp only [h1, h2, and_self, if_true]

/-- **C102**: lists of different lengths raise a `ValueError`. -/
theorem C102_lengths (toTrue) {d : Dict String (Col K)} {a b c : List K} {key : String} (hs : Speed d key)
    (ha : d.get? "TWS" = some (.list a)) (hb : d.get? "TWA" = some (.list b)) (hc : d.get? key = some (.list c))
    (h : ¬ (a.length = b.length ∧ b.length = c.length)) : trueWindData toTrue d = .error .valueError := by
  unfold trueWindData
  simp only
  rw [if_pos ⟨mem_of_get hb, mem_of_get ha⟩, speed_eq hs, ha]
  simp only [toNumpy]
  rw [ha, hb, hc]
  simp only
  rw [if_neg (show ¬ ((Col.list a).entries.length = (Col.list b).entries.length ∧
    (Col.list b).entries.length = (Col.list c).entries.length) from h)]
  rfl

/-- **C102**: data without a complete wind raises a `ValueError`, data without boat speed a `KeyError`. -/
theorem C102_missing (toTrue) (d : Dict String (Col K)) :
    (("TWS" ∉ Dict.keys d ∨ "TWA" ∉ Dict.keys d) → ("AWS" ∉ Dict.keys d ∨ "AWA" ∉ Dict.keys d) →
      trueWindData toTrue d = .error .valueError) ∧
    ("BSP" ∉ Dict.keys d → "SOG" ∉ Dict.keys d → (("TWS" ∈ Dict.keys d ∧ "TWA" ∈ Dict.keys d) ∨
      ("AWS" ∈ Dict.keys d ∧ "AWA" ∈ Dict.keys d)) → trueWindData toTrue d = .error .keyError) := by
  constructor
  · intro h1 h2
    unfold trueWindData
    simp only
    rw [if_neg (by tauto), if_neg (by tauto)]
  · intro h1 h2 h3
    have hn : d.get? "SOG" = none := (Dict.get?_eq_none_iff _ _).2 h2
    have hk : ∀ k1 k2, toNumpy d k1 k2 "SOG" = .error .keyError := by
      intro k1 k2
      unfold toNumpy
      rw [hn]
      cases d.get? k1 <;> cases d.get? k2 <;> rfl
    unfold trueWindData
    simp only
    rw [if_neg h1]
    by_cases ht : "TWA" ∈ Dict.keys d ∧ "TWS" ∈ Dict.keys d
    · rw [if_pos ht]
      obtain ⟨a, ha⟩ := (Dict.mem_keys_iff _ _).1 ht.2
      obtain ⟨b, hb⟩ := (Dict.mem_keys_iff _ _).1 ht.1
      rw [ha, hb, hn]
      cases a with
      | list l => simp only [hk]; rfl
      | array l => rfl
      | single x => rfl
    · rw [if_neg ht, if_pos (by tauto), hk]

/-- **C102 is false** for arrays: the result has three rows with all wind speeds, all wind angles and all boat speeds, not
one row for each measurement. -/
theorem C102_array_false (toTrue) {d : Dict String (Col K)} {a b c : List K} {key : String} (hs : Speed d key)
    (ha : d.get? "TWS" = some (.array a)) (hb : d.get? "TWA" = some (.array b)) (hc : d.get? key = some (.array c))
    (h1 : a.length = b.length) (h2 : b.length = c.length) : trueWindData toTrue d = .ok (.rows [a, b, c]) := by
  unfold trueWindData
  simp only
  rw [if_pos ⟨mem_of_get hb, mem_of_get ha⟩, speed_eq hs, ha, hb, hc]
  simp only [stack, Col.entries, h1, h2, and_self, if_true]

/-- Three measurements given as arrays are misread without any exception: the first row of the result, which should be the
first measurement, consists of the three wind speeds. -/
example : trueWindData (K := Rat) (fun _ => .error .otherError) [("TWS", .array [10, 11, 12]), ("TWA", .array [40, 50, 60]),
    ("BSP", .array [5, 6, 7])] = .ok (.rows [[10, 11, 12], [40, 50, 60], [5, 6, 7]]) ∧
    trueWindData (K := Rat) (fun _ => .error .otherError) [("TWS", .list [10, 11, 12]), ("TWA", .list [40, 50, 60]),
    ("BSP", .list [5, 6, 7])] = .ok (.rows [[10, 40, 5], [11, 50, 6], [12, 60, 7]]) := by
  constructor <;> decide +kernel

/-- **C102 is false** for single numbers: the result has one dimension, while apparent winds give an array with one row. -/
theorem C102_single_false (toTrue) {d : Dict String (Col K)} {a b c : K} {key : String} (hs : Speed d key)
    (ha : d.get? "TWS" = some (.single a)) (hb : d.get? "TWA" = some (.single b)) (hc : d.get? key = some (.single c)) :
    trueWindData toTrue d = .ok (.flat [a, b, c]) := by
  unfold trueWindData
  simp only
  rw [if_pos ⟨mem_of_get hb, mem_of_get ha⟩, speed_eq hs, ha, hb, hc]
  rfl

/-! ### C103 -/

theorem get_prepared {ws wa : List K} {d d' : Dict String (Val K)} (h : prepare ws wa (some d) = .ok d') :
    d'.get? "TWS" = some (.list (List.replicate wa.length (.array ws))) ∧ d'.get? "TWA" = some (.array wa) ∧
      ∀ k v, k ≠ "TWS" → k ≠ "TWA" → d.get? k = some v → d'.get? k = some (.list (List.replicate wa.length v)) := by
  simp only [prepare, Except.ok.injEq] at h
  subst h
  refine ⟨?_, ?_, ?_⟩
  · rw [Dict.get?_set_ne _ _ (by decide)]
    simp
  · simp
  · intro k v h1 h2 hk
    rw [Dict.get?_set_ne _ _ (Ne.symm h2), Dict.get?_set_ne _ _ (Ne.symm h1), Dict.get?_mapVals, hk]
    rfl

theorem prepare_ok (ws wa : List K) (d : Dict String (Val K)) : ∃ d', prepare ws wa (some d) = .ok d' := ⟨_, rfl⟩

theorem zip_replicate {α β : Type} (x : α) (l : List β) : (List.replicate l.length x).zip l = l.map fun y => (x, y) := by
  induction l with
  | nil => rfl
  | cons y l ih => simp [List.replicate_succ, ih]

theorem speedsAt_eq [DecidableEq K] {wa bsp : List K} (hn : wa.Nodup) {i : Nat} {angle b : K} (hi : wa[i]? = some angle)
    (hb : bsp[i]? = some b) : speedsAt wa bsp angle = [b] := by
  have hlt : i < wa.length := (List.getElem?_eq_some_iff.1 hi).1
  have : (List.range wa.length).filter (fun j => decide (wa[j]? = some angle)) = [i] := by
    have e : ∀ j ∈ List.range wa.length, decide (wa[j]? = some angle) = decide (j = i) := by
      intro j hj
      have hj' := List.mem_range.1 hj
      by_cases h : j = i
      · subst h; simp [hi]
      · rw [decide_eq_false h, decide_eq_false_iff_not]
        intro h'
        exact h ((List.getElem?_inj hj' hn).1 (h'.trans hi.symm))
    rw [List.filter_congr e]
    have hnd : ((List.range wa.length).filter fun j => decide (j = i)).Nodup := List.nodup_range.filter _
    have hm : i ∈ (List.range wa.length).filter fun j => decide (j = i) := by simp [hlt]
    have hall : ∀ j ∈ (List.range wa.length).filter (fun j => decide (j = i)), j = i := by
      intro j hj
      simpa using (List.mem_filter.1 hj).2
    rcases hl : (List.range wa.length).filter (fun j => decide (j = i)) with _ | ⟨x, _ | ⟨y, r⟩⟩
    · rw [hl] at hm; simp at hm
    · rw [hl] at hall
      rw [hall x (by simp)]
    · rw [hl] at hall hnd
      have h1 := hall x (by simp)
      have h2 := hall y (by simp)
      simp [h1, h2] at hnd
  unfold speedsAt
  rw [this]
  simp [hb]

/-- **C103**, for influence models which return one boat speed for each angle: the time is computed with the boat speed that
was returned for the angle of the direction. What is missing: the models of the library, see `C103_identity_false`. -/
theorem C103_speeds_partial [DecidableEq K] {wa bsp : List K} (hn : wa.Nodup) {i : Nat} {angle b : K}
    (hi : wa[i]? = some angle) (hb : bsp[i]? = some b) : speedsAt wa bsp angle = [b] :=
  speedsAt_eq hn hi hb

/-- **C103**: with one wind speed for each angle the `IdentityInfluenceModel` returns the boat speeds of the curve. -/
theorem C103_identity_scalars (f : K → K → K) {d : Dict String (Val K)} {ws wa : List K}
    (h1 : d.get? "TWS" = some (.list (ws.map .num))) (h2 : d.get? "TWA" = some (.array wa)) :
    addIdentity f d = .ok (List.zipWith (fun w a => [f w a]) ws wa) := by
  unfold addIdentity
  rw [h1, h2]
  simp only
  have e : (ws.map Val.num).zip wa = (ws.zip wa).map fun p => (Val.num p.1, p.2) := by
    rw [List.zip_map_left]
    rfl
  rw [e, List.mapM_map, mapM_ok_of (g := fun p => [f p.1 p.2])]
  · rw [List.map_zip_eq_zipWith]
    rfl
  · intro p _
    rfl

example : addIdentity (fun w a => w - a) [("TWS", .list [.num 8, .num (9 : Rat)]), ("TWA", .array [1, 2])] =
    .ok (List.zipWith (fun w a => [w - a]) [8, 9] [1, 2]) :=
  C103_identity_scalars _ (ws := [8, 9]) rfl rfl

/-- **C103 is false** for curves with the `IdentityInfluenceModel`: for each direction, the boat speed at the first angle of
the slice (0 degrees) is used, since the model gets the array of all wind speeds of the slice for each angle and returns a
matrix. -/
theorem C103_identity_false [DecidableEq K] (f : K → K → K) (w a0 : K) (wa : List K) (hn : (a0 :: wa).Nodup)
    (d : Dict String (Val K)) :
    ∃ d' speeds, prepare (List.replicate (wa.length + 1) w) (a0 :: wa) (some d) = .ok d' ∧ addIdentity f d' = .ok speeds ∧
      ∀ angle ∈ a0 :: wa, speedsAt (a0 :: wa) speeds.flatten angle = [f w a0] := by
  obtain ⟨d', hd'⟩ := prepare_ok (List.replicate (wa.length + 1) w) (a0 :: wa) d
  obtain ⟨h1, h2, _⟩ := get_prepared hd'
  refine ⟨d', (a0 :: wa).map fun a => List.replicate (wa.length + 1) (f w a), hd', ?_, ?_⟩
  · unfold addIdentity
    rw [h1, h2]
    simp only
    rw [zip_replicate]
    rw [mapM_ok_of (g := fun p => List.replicate (wa.length + 1) (f w p.2))]
    · simp [List.map_map, Function.comp_def]
    · intro p hp
      obtain ⟨a, _, rfl⟩ := List.mem_map.1 hp
      simp [curveCall]
  · intro angle hm
    obtain ⟨i, hi, he⟩ := List.getElem_of_mem hm
    refine speedsAt_eq hn (i := i) (by rw [List.getElem?_eq_some_iff]; exact ⟨hi, he⟩) ?_
    simp only [List.map_cons, List.flatten_cons]
    rw [List.getElem?_append_left (by simpa using hi), List.getElem?_replicate, if_pos (by simpa using hi)]

/-- With a slice of three angles, the boat speed used for 240 degrees is the one at 0 degrees. -/
example : (match prepare (K := Rat) [8, 8, 8] [0, 120, 240] (some []) with
    | .error _ => []
    | .ok d => match addIdentity (fun w a => w + a) d with
      | .error _ => []
      | .ok speeds => speedsAt [0, 120, 240] speeds.flatten 240) = [8] := by decide +kernel

/-- **C103 is false**: the dictionary of the caller is changed. Used for another call, all of its values are lists of lists
of the value which was given. -/
theorem C103_changed_false {ws wa ws' wa' : List K} {d d1 d2 : Dict String (Val K)}
    (h1 : prepare ws wa (some d) = .ok d1) (h2 : prepare ws' wa' (some d1) = .ok d2) {k : String} {v : Val K}
    (hT : k ≠ "TWS") (hA : k ≠ "TWA") (hv : d.get? k = some v) :
    d1.get? k = some (.list (List.replicate wa.length v)) ∧
      d2.get? k = some (.list (List.replicate wa'.length (.list (List.replicate wa.length v)))) :=
  ⟨(get_prepared h1).2.2 k v hT hA hv, (get_prepared h2).2.2 k _ hT hA ((get_prepared h1).2.2 k v hT hA hv)⟩

/-- **C103 is false** without influence data, though it is optional: an `AttributeError` is raised. -/
theorem C103_none_false (ws wa : List K) : prepare ws wa none = .error .attributeError := rfl

example : ∃ d1, prepare (K := Rat) [8, 8] [0, 180] (some [("WVHGT", .num 2)]) = .ok d1 ∧
    d1.get? "WVHGT" = some (.list [.num 2, .num 2]) := ⟨_, rfl, rfl⟩

open Convex in
/-- **C103 is false**: the directions and the proportion of their durations do not depend on the influence model. -/
theorem C103_directions_false {n : Nat} {σ : Type} [DecidableEq σ] {vert : List (Fin n)} {wa bsp : Fin n → ℝ} {sails : Option (Fin n → σ)}
    {heading dist l : ℝ} {d1 d2 : Direction σ} {i1 i2 : Fin n} (hwa : Function.Injective wa)
    (hd : convexDirection vert wa bsp sails heading = .ok [d1, d2])
    (h1 : d1.angle = wa i1) (h2 : d2.angle = wa i2) (p1 : d1.proportion = some l) (p2 : d2.proportion = some (1 - l))
    (hl : 0 ≤ l ∧ l ≤ 1) (hdist : 0 ≤ dist) (bspI : Fin n → ℝ) (hb1 : 0 < bspI i1) (hb2 : 0 < bspI i2) :
    ∃ t1 t2 : ℝ, cruiseInfluence vert wa bsp bspI sails heading dist = .ok [(wa i1, some t1), (wa i2, some t2)] ∧
      t1 * (1 - l) = t2 * l ∧ t1 * bspI i1 + t2 * bspI i2 = dist := by
  obtain ⟨t1, t2, ht, _, _, hs, hp⟩ := C72_length_partial hwa h1 h2 p1 p2 hl hb1 hb2 hdist
  refine ⟨t1, t2, ?_, hp, hs⟩
  unfold cruiseInfluence
  rw [hd]
  exact ht

open Convex in
/-- The course to a heading of 45 degrees with an influence which makes the boat 1000 times faster at 90 degrees: the boat
sails for the same time at 0 and at 90 degrees, so it moves 1000 times further to the side than ahead. -/
example (bspI : Fin 4 → ℝ) (h0 : bspI 0 = 1) (h1 : bspI 1 = 1000) :
    ∃ t : ℝ, cruiseInfluence sqVertices sqWa sqBsp bspI (some sqSails) 45 1001 =
      .ok [(sqWa 0, some t), (sqWa 1, some t)] ∧ t * bspI 0 = 1 ∧ t * bspI 1 = 1000 := by
  obtain ⟨t1, t2, h, hp, hs⟩ := C103_directions_false (l := 1 / 2) (dist := 1001) sqMono.injective sqTwo rfl rfl rfl
    (by norm_num) (by norm_num) (by norm_num) bspI (by rw [h0]; norm_num) (by rw [h1]; norm_num)
  rw [h0, h1] at hs
  have e : t2 = t1 := by linarith
  have e1 : t1 = 1 := by rw [e] at hs; linarith
  refine ⟨1, ?_, by rw [h0]; norm_num, by rw [h1]; norm_num⟩
  rw [h, e, e1]

end Verif.InflData
