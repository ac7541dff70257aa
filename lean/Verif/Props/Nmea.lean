import Mathlib.Data.List.Induction
import Mathlib.Data.Rat.Floor
import Mathlib.Algebra.Order.Floor.Ring
import Mathlib.Tactic.FieldSimp
import Mathlib.Tactic.Linarith
import Mathlib.Tactic.Ring
import Verif.Lemmas.Dict
import Verif.Model.Nmea
import Verif.Model.StdFormat

/-!
# Properties C50, C70: decoding of NMEA sentences
-/

set_option linter.unusedSectionVars false

namespace Verif.Nmea

/-! ### C50: positions -/

section
variable {K : Type} [Field K] [LinearOrder K] [IsStrictOrderedRing K] [FloorRing K]

/-- **C50.** A position given as degrees and minutes is decoded to degrees and a fraction of 60. -/
theorem C50_position (degrees : Nat) {minutes : K} (h0 : 0 ≤ minutes) (h1 : minutes < 60) :
    fromNmea (100 * (degrees : K) + minutes) = (degrees : K) + minutes / 60 := by
  have hd : (0 : K) ≤ degrees := Nat.cast_nonneg degrees
  have hfl : ⌊(100 * (degrees : K) + minutes) / 100⌋ = (degrees : Int) := by
    rw [Int.floor_eq_iff]
    constructor
    · rw [le_div_iff₀ (by norm_num)]; push_cast; linarith
    · rw [div_lt_iff₀ (by norm_num)]; push_cast; linarith
  have htr : trunc ((100 * (degrees : K) + minutes) / 100) = (degrees : Int) := by
    rw [trunc, if_pos (by positivity), hfl]
  rw [fromNmea, htr]
  push_cast
  ring

end

example : fromNmea (5412 + 1 / 2 : Rat) = 54 + (12 + 1 / 2) / 60 := by decide +kernel

section
variable {V : Type}

/-- **C50** is false for the hemisphere: the position is the same for both hemispheres, e.g. for north and south. -/
theorem C50_hemisphere_false (isR isT : V → Bool) (conv stamp : V → Except PyErr V) (north south v v' : V)
    (hv : conv v = .ok v') :
    ∃ d d', postprocess isR isT conv stamp [("Latitude".toList, v), ("Latitude Direction".toList, north)] = .ok d ∧
      postprocess isR isT conv stamp [("Latitude".toList, v), ("Latitude Direction".toList, south)] = .ok d' ∧
      d.get? "lat".toList = some v' ∧ d'.get? "lat".toList = some v' := by
  refine ⟨[("Latitude Direction".toList, north), ("lat".toList, v')],
    [("Latitude Direction".toList, south), ("lat".toList, v')], ?_, ?_, ?_, ?_⟩
  · simp [postprocess, windPart, coordPart, timePart, Dict.get?, Dict.set, Dict.del, hv]
  · simp [postprocess, windPart, coordPart, timePart, Dict.get?, Dict.set, Dict.del, hv]
  · simp [Dict.get?]
  · simp [Dict.get?]

end

/-! ### C50: times -/

/-- The character of a digit. -/
def dig (d : Fin 10) : Char := Char.ofNat (48 + d)

theorem digitVal_dig (d : Fin 10) : digitVal (dig d) = some d.val := by
  revert d; decide

theorem dig_ne_dot (d : Fin 10) : dig d ≠ '.' := by
  revert d; decide

/-- The number written by a list of digits. -/
def value (ds : List (Fin 10)) : Nat := ds.foldl (fun n d => 10 * n + d.val) 0

theorem parseDigits_dig (acc : Nat) (ds : List (Fin 10)) :
    parseDigits acc (ds.map dig) = some (ds.foldl (fun n d => 10 * n + d.val) acc) := by
  induction ds generalizing acc with
  | nil => rfl
  | cons d ds ih => simp [parseDigits, digitVal_dig, ih]

theorem pyInt_dig {ds : List (Fin 10)} (h : ds ≠ []) : pyInt (ds.map dig) = .ok (value ds) := by
  cases ds with
  | nil => exact absurd rfl h
  | cons d ds =>
    have := parseDigits_dig 0 (d :: ds)
    simp only [List.map_cons] at this ⊢
    simp only [pyInt, this, value]

/-- The two digits of a number below 100. -/
def two (n : Nat) : List (Fin 10) := [⟨n / 10 % 10, Nat.mod_lt _ (by norm_num)⟩, ⟨n % 10, Nat.mod_lt _ (by norm_num)⟩]

theorem value_two {n : Nat} (h : n < 100) : value (two n) = n := by
  simp only [value, two, List.foldl_cons, List.foldl_nil]
  omega

/-- The string `hhmmss.f…` -/
def timeString (h m s : Nat) (f : List (Fin 10)) : List Char :=
  (two h ++ two m ++ two s).map dig ++ '.' :: f.map dig

theorem takeWhile_dig (f : List (Fin 10)) : (f.map dig).takeWhile (· ≠ '.') = f.map dig := by
  induction f with
  | nil => rfl
  | cons d f ih => simpa [dig_ne_dot] using ih

theorem dropWhile_dig (f : List (Fin 10)) (rest : List Char) :
    (f.map dig ++ '.' :: rest).dropWhile (· ≠ '.') = '.' :: rest := by
  induction f with
  | nil => simp
  | cons d f ih => simpa [dig_ne_dot] using ih

theorem afterDot_timeString (h m s : Nat) (f : List (Fin 10)) : afterDot (timeString h m s f) = .ok (f.map dig) := by
  rw [afterDot, timeString, dropWhile_dig]
  simp only [takeWhile_dig]

/-- What the handler makes of a time. -/
theorem timeFromNmea_eq {h m s : Nat} (hh : h < 100) (hm : m < 100) (hs : s < 100) {f : List (Fin 10)} (hf : f ≠ []) :
    timeFromNmea (timeString h m s f) = carry h m s (value f) := by
  have e1 : (timeString h m s f).take 2 = (two h).map dig := by simp [timeString, two]
  have e2 : ((timeString h m s f).drop 2).take 2 = (two m).map dig := by simp [timeString, two]
  have e3 : ((timeString h m s f).drop 4).take 2 = (two s).map dig := by simp [timeString, two]
  have hne : ∀ n, two n ≠ [] := by intro n; simp [two]
  unfold timeFromNmea
  rw [e1, e2, e3, pyInt_dig (hne h), pyInt_dig (hne m), pyInt_dig (hne s), value_two hh, value_two hm, value_two hs,
    afterDot_timeString]
  simp only [pyInt_dig hf]

theorem value_lt (f : List (Fin 10)) : value f < 10 ^ f.length := by
  have key : ∀ (f : List (Fin 10)) (acc : Nat),
      f.foldl (fun n d => 10 * n + d.val) acc < (acc + 1) * 10 ^ f.length := by
    intro f
    induction f with
    | nil => intro acc; simp
    | cons d f ih =>
      intro acc
      simp only [List.foldl_cons, List.length_cons]
      refine lt_of_lt_of_le (ih _) ?_
      have : 10 * acc + d.val + 1 ≤ (acc + 1) * 10 := by have := d.isLt; omega
      calc (10 * acc + d.val + 1) * 10 ^ f.length ≤ ((acc + 1) * 10) * 10 ^ f.length := Nat.mul_le_mul_right _ this
        _ = (acc + 1) * 10 ^ (f.length + 1) := by ring
  simpa [value] using key f 0

/-- **C50** (partial: six digits for the fraction of a second, or only zeros; see `C50_fraction_false`). A time is decoded to
this time of day including the fraction of a second. -/
theorem C50_time_partial {h m s : Nat} (hh : h < 24) (hm : m < 60) (hs : s < 60) {f : List (Fin 10)}
    (hf : f.length = 6 ∨ (f ≠ [] ∧ value f = 0)) :
    ∃ t, timeFromNmea (timeString h m s f) = .ok t ∧ t.hour = h ∧ t.minute = m ∧ t.second = s ∧
      (t.microsecond : Rat) / 10 ^ 6 = (value f : Rat) / 10 ^ f.length := by
  have hne : f ≠ [] := by
    rcases hf with hf | hf
    · intro e; subst e; simp at hf
    · exact hf.1
  have hv : value f < 1000000 := by
    rcases hf with hf | hf
    · have := value_lt f; rw [hf] at this; exact this
    · rw [hf.2]; norm_num
  refine ⟨⟨h, m, s, value f⟩, ?_, rfl, rfl, rfl, ?_⟩
  · rw [timeFromNmea_eq (by omega) (by omega) (by omega) hne]
    simp only [carry, if_neg (show ¬ 60 ≤ s by omega), if_neg (show ¬ 60 ≤ m by omega), mkTime]
    rw [if_pos ⟨hh, hm, hs, hv⟩]
  · rcases hf with hf | hf
    · rw [hf]
    · simp [hf.2]

example : timeFromNmea "123456.250000".toList = .ok ⟨12, 34, 56, 250000⟩ := by decide +kernel
example : timeFromNmea "235960.000000".toList = .error .valueError := by decide +kernel
example : timeFromNmea "225960.000000".toList = .ok ⟨23, 0, 0, 0⟩ := by decide +kernel

theorem mkTime_ok {h m s us : Nat} {t : Time} (ht : mkTime h m s us = .ok t) :
    t = ⟨h, m, s, us⟩ ∧ h < 24 ∧ m < 60 ∧ s < 60 := by
  unfold mkTime at ht
  split at ht
  · rename_i hc
    simp only [Except.ok.injEq] at ht
    exact ⟨ht.symm, hc.1, hc.2.1, hc.2.2.1⟩
  · simp at ht

/-- **C50.** Seconds and minutes above 59 are carried over: a decoded time is the same number of seconds after midnight. -/
theorem C50_carry {h m s us : Nat} {t : Time} (ht : carry h m s us = .ok t) :
    t.hour * 3600 + t.minute * 60 + t.second = h * 3600 + m * 60 + s ∧ t.microsecond = us ∧
    t.hour < 24 ∧ t.minute < 60 ∧ t.second < 60 := by
  unfold carry at ht
  obtain ⟨rfl, h1, h2, h3⟩ := mkTime_ok ht
  refine ⟨?_, rfl, h1, h2, h3⟩
  simp only
  split_ifs <;> omega

/-- **C50.** Carrying over succeeds exactly if the time is before the end of the day. -/
theorem C50_carry_succeeds (h m s us : Nat) :
    (∃ t, carry h m s us = .ok t) ↔ h * 3600 + m * 60 + s < 86400 ∧ us < 1000000 := by
  constructor
  · rintro ⟨t, ht⟩
    obtain ⟨h1, h2, h3, h4, h5⟩ := C50_carry ht
    refine ⟨by omega, ?_⟩
    by_contra hc
    unfold carry mkTime at ht
    rw [if_neg (fun h => hc h.2.2.2)] at ht
    cases ht
  · rintro ⟨h1, h2⟩
    unfold carry mkTime
    simp only
    rw [if_pos]
    · exact ⟨_, rfl⟩
    · split_ifs <;> omega

example : carry 22 59 60 0 = .ok ⟨23, 0, 0, 0⟩ := by decide +kernel

/-- **C50** is false for fractions of a second with one to five digits: they are taken for a number of microseconds. -/
theorem C50_fraction_false {h m s : Nat} (hh : h < 24) (hm : m < 60) (hs : s < 60) {f : List (Fin 10)} (hf : f.length < 6)
    (hv : value f ≠ 0) :
    ∃ t, timeFromNmea (timeString h m s f) = .ok t ∧
      (t.microsecond : Rat) / 10 ^ 6 ≠ (value f : Rat) / 10 ^ f.length := by
  have hne : f ≠ [] := by intro e; subst e; exact hv rfl
  have hlt : value f < 1000000 := lt_of_lt_of_le (value_lt f) (by
    calc 10 ^ f.length ≤ 10 ^ 6 := Nat.pow_le_pow_right (by norm_num) (by omega)
      _ = 1000000 := by norm_num)
  refine ⟨⟨h, m, s, value f⟩, ?_, ?_⟩
  · rw [timeFromNmea_eq (by omega) (by omega) (by omega) hne]
    simp only [carry, if_neg (show ¬ 60 ≤ s by omega), if_neg (show ¬ 60 ≤ m by omega), mkTime]
    rw [if_pos ⟨hh, hm, hs, hlt⟩]
  · simp only
    have hpos : (0 : Rat) < value f := by exact_mod_cast Nat.pos_of_ne_zero hv
    apply ne_of_lt
    apply div_lt_div_of_pos_left hpos (by positivity)
    exact pow_lt_pow_right₀ (by norm_num) hf

example : timeFromNmea "120000.5".toList = .ok ⟨12, 0, 0, 5⟩ := by decide +kernel

/-- **C50** is false for times without a fraction: they cannot be decoded. -/
theorem C50_no_fraction_false (h m s : Nat) (hh : h < 100) (hm : m < 100) (hs : s < 100) :
    timeFromNmea ((two h ++ two m ++ two s).map dig) = .error .indexError := by
  have e1 : ((two h ++ two m ++ two s).map dig).take 2 = (two h).map dig := by simp [two]
  have e2 : (((two h ++ two m ++ two s).map dig).drop 2).take 2 = (two m).map dig := by simp [two]
  have e3 : (((two h ++ two m ++ two s).map dig).drop 4).take 2 = (two s).map dig := by simp [two]
  have hne : ∀ n, two n ≠ [] := by intro n; simp [two]
  have e4 : afterDot ((two h ++ two m ++ two s).map dig) = .error .indexError := by
    have : ((two h ++ two m ++ two s).map dig).dropWhile (· ≠ '.') = [] := by
      simp [two, dig_ne_dot]
    rw [afterDot, this]
  unfold timeFromNmea
  rw [e1, e2, e3, pyInt_dig (hne h), pyInt_dig (hne m), pyInt_dig (hne s), e4]

/-! ### C70 -/

section
variable {V : Type}

theorem coordPart_get {conv : V → Except PyErr V} {source target : Key} {d d' : Dict Key V} (hd : (Dict.keys d).Nodup)
    (h : coordPart conv source target d = .ok d') {k : Key} (h1 : k ≠ source) (h2 : k ≠ target) :
    (Dict.keys d').Nodup ∧ d'.get? k = d.get? k := by
  unfold coordPart at h
  split at h
  · simp only [Except.ok.injEq] at h; subst h; exact ⟨hd, rfl⟩
  · split at h
    · simp at h
    · simp only [Except.ok.injEq] at h
      subst h
      refine ⟨Dict.nodup_keys_del _ _ (Dict.nodup_keys_set _ _ _ hd), ?_⟩
      rw [Dict.get?_del _ (Dict.nodup_keys_set _ _ _ hd), Dict.get?_set]
      rw [if_neg (Ne.symm h1), if_neg (Ne.symm h2)]

theorem timePart_get {stamp : V → Except PyErr V} {d d' : Dict Key V} (h : timePart stamp d = .ok d') {k : Key}
    (h1 : k ≠ "Timestamp".toList) : d'.get? k = d.get? k := by
  unfold timePart at h
  split at h
  · simp only [Except.ok.injEq] at h; subst h; rfl
  · split at h
    · simp at h
    · simp only [Except.ok.injEq] at h
      subst h
      rw [Dict.get?_set, if_neg (Ne.symm h1)]

/-- Keys which have nothing to do with position or time are not changed after the treatment of the wind. -/
theorem postprocess_get {isR isT : V → Bool} {conv stamp : V → Except PyErr V} {d d' : Dict Key V}
    (hd : (Dict.keys (windPart isR isT d)).Nodup) (h : postprocess isR isT conv stamp d = .ok d') {k : Key}
    (h1 : k ∉ (["Latitude".toList, "lat".toList, "Longitude".toList, "lon".toList, "Timestamp".toList] : List Key)) :
    d'.get? k = (windPart isR isT d).get? k := by
  simp only [List.mem_cons, List.not_mem_nil, or_false, not_or] at h1
  obtain ⟨k1, k2, k3, k4, k5⟩ := h1
  unfold postprocess at h
  split at h
  · simp at h
  · rename_i d1 hd1
    split at h
    · simp at h
    · rename_i d2 hd2
      obtain ⟨n1, g1⟩ := coordPart_get hd hd1 k1 k2
      obtain ⟨-, g2⟩ := coordPart_get n1 hd2 k3 k4
      rw [timePart_get h k5, g2, g1]

/-- Treatment of the wind with a complete sentence. -/
theorem windPart_eq {isR isT : V → Bool} {d : Dict Key V} {wa ref ws : V} (h1 : d.get? "Wind angle".toList = some wa)
    (h2 : d.get? "Reference".toList = some ref) (h3 : d.get? "Wind speed".toList = some ws) :
    windPart isR isT d = (((if isR ref then (d.set "AWA".toList wa).set "AWS".toList ws
      else if isT ref then (d.set "TWA".toList wa).set "TWS".toList ws
      else d).del "Reference".toList).del "Wind angle".toList).del "Wind speed".toList := by
  rw [windPart, h1, h2, h3]

theorem get?_del3 {d : Dict Key V} (hd : (Dict.keys d).Nodup) (a b c k : Key) :
    (((d.del a).del b).del c).get? k = if k = a ∨ k = b ∨ k = c then none else d.get? k := by
  have h1 := Dict.nodup_keys_del d a hd
  have h2 := Dict.nodup_keys_del _ b h1
  rw [Dict.get?_del _ h2, Dict.get?_del _ h1, Dict.get?_del _ hd]
  by_cases e1 : k = a <;> by_cases e2 : k = b <;> by_cases e3 : k = c <;> simp_all [eq_comm]

/-- **C70** (partial: sentences with wind angle, wind speed and reference; see `C70_wanted_false`). Wind with reference `R`
is stored as apparent wind, wind with reference `T` as true wind, and not otherwise; the raw entries are removed; other
entries which are neither position nor time are kept. -/
theorem C70_reference_partial {isR isT : V → Bool} {conv stamp : V → Except PyErr V} {d d' : Dict Key V}
    (hd : (Dict.keys d).Nodup) {wa ref ws : V} (h1 : d.get? "Wind angle".toList = some wa)
    (h2 : d.get? "Reference".toList = some ref) (h3 : d.get? "Wind speed".toList = some ws)
    (h : postprocess isR isT conv stamp d = .ok d') :
    (isR ref = true → d'.get? "AWA".toList = some wa ∧ d'.get? "AWS".toList = some ws ∧
      d'.get? "TWA".toList = d.get? "TWA".toList ∧ d'.get? "TWS".toList = d.get? "TWS".toList) ∧
    (isR ref = false → isT ref = true → d'.get? "TWA".toList = some wa ∧ d'.get? "TWS".toList = some ws ∧
      d'.get? "AWA".toList = d.get? "AWA".toList ∧ d'.get? "AWS".toList = d.get? "AWS".toList) ∧
    d'.get? "Reference".toList = none ∧ d'.get? "Wind angle".toList = none ∧ d'.get? "Wind speed".toList = none ∧
    (∀ k, k ∉ (["Latitude".toList, "lat".toList, "Longitude".toList, "lon".toList, "Timestamp".toList, "AWA".toList,
      "AWS".toList, "TWA".toList, "TWS".toList, "Reference".toList, "Wind angle".toList, "Wind speed".toList] : List Key) →
      d'.get? k = d.get? k) := by
  have hw := windPart_eq (isR := isR) (isT := isT) h1 h2 h3
  have hn1 : ∀ a b : Key, (Dict.keys ((d.set a wa).set b ws)).Nodup :=
    fun a b => Dict.nodup_keys_set _ _ _ (Dict.nodup_keys_set _ _ _ hd)
  have hn2 : (Dict.keys (if isR ref then (d.set "AWA".toList wa).set "AWS".toList ws
      else if isT ref then (d.set "TWA".toList wa).set "TWS".toList ws else d)).Nodup := by
    split_ifs
    · exact hn1 _ _
    · exact hn1 _ _
    · exact hd
  have hn3 : (Dict.keys (windPart isR isT d)).Nodup := by
    rw [hw]
    exact Dict.nodup_keys_del _ _ (Dict.nodup_keys_del _ _ (Dict.nodup_keys_del _ _ hn2))
  have hget : ∀ k, (windPart isR isT d).get? k = if k = "Reference".toList ∨ k = "Wind angle".toList ∨ k = "Wind speed".toList
      then none else Dict.get? (if isR ref then (d.set "AWA".toList wa).set "AWS".toList ws
      else if isT ref then (d.set "TWA".toList wa).set "TWS".toList ws else d) k := by
    intro k; rw [hw, get?_del3 hn2]
  refine ⟨?_, ?_, ?_, ?_, ?_, ?_⟩
  · intro hr
    refine ⟨?_, ?_, ?_, ?_⟩ <;>
      rw [postprocess_get hn3 h (by decide), hget, if_neg (by decide), if_pos hr, Dict.get?_set, Dict.get?_set]
    · rw [if_neg (by decide), if_pos rfl]
    · rw [if_pos rfl]
    · rw [if_neg (by decide), if_neg (by decide)]
    · rw [if_neg (by decide), if_neg (by decide)]
  · intro hr ht
    refine ⟨?_, ?_, ?_, ?_⟩ <;>
      rw [postprocess_get hn3 h (by decide), hget, if_neg (by decide), if_neg (by rw [hr]; decide), if_pos ht, Dict.get?_set,
        Dict.get?_set]
    · rw [if_neg (by decide), if_pos rfl]
    · rw [if_pos rfl]
    · rw [if_neg (by decide), if_neg (by decide)]
    · rw [if_neg (by decide), if_neg (by decide)]
  · rw [postprocess_get hn3 h (by decide), hget, if_pos (by decide)]
  · rw [postprocess_get hn3 h (by decide), hget, if_pos (by decide)]
  · rw [postprocess_get hn3 h (by decide), hget, if_pos (by decide)]
  · intro k hk
    simp only [List.mem_cons, List.not_mem_nil, or_false, not_or] at hk
    obtain ⟨k1, k2, k3, k4, k5, k6, k7, k8, k9, k10, k11, k12⟩ := hk
    have hk5 : k ∉ (["Latitude".toList, "lat".toList, "Longitude".toList, "lon".toList, "Timestamp".toList] : List Key) := by
      simp only [List.mem_cons, List.not_mem_nil, or_false, not_or]
      exact ⟨k1, k2, k3, k4, k5⟩
    have hk3 : ¬ (k = "Reference".toList ∨ k = "Wind angle".toList ∨ k = "Wind speed".toList) := by
      simp only [not_or]
      exact ⟨k10, k11, k12⟩
    rw [postprocess_get hn3 h hk5, hget, if_neg hk3]
    split_ifs
    · rw [Dict.get?_set_ne _ _ (Ne.symm k7), Dict.get?_set_ne _ _ (Ne.symm k6)]
    · rw [Dict.get?_set_ne _ _ (Ne.symm k9), Dict.get?_set_ne _ _ (Ne.symm k8)]
    · rfl

/-- A sentence with apparent wind. -/
def exFields : List (Key × String) :=
  [("Wind angle".toList, "45"), ("Reference".toList, "R"), ("Wind speed".toList, "12"), ("Wind Speed Units".toList, "N")]

example : postprocess (· = "R") (· = "T") .ok .ok exFields =
    .ok [("Wind Speed Units".toList, "N"), ("AWA".toList, "45"), ("AWS".toList, "12")] := by decide +kernel

/-- **C70** is false if only one of wind angle and wind speed is wanted: with `wanted_attributes=["AWS"]` the apparent wind
speed of the sentence keeps its name, for which the standard format has the key of the true wind speed. -/
theorem C70_wanted_false :
    ∃ d, postprocess (· = "R") (· = "T") .ok .ok (parsedDict ["AWS".toList] exFields) = .ok d ∧
      d.get? "AWS".toList = none ∧ d.get? "Wind speed".toList = some "12" ∧
      standardKey "Wind speed".toList = .ok "TWS".toList := by
  refine ⟨[("Reference".toList, "R"), ("Wind speed".toList, "12")], ?_, ?_, ?_, ?_⟩ <;> decide +kernel

/-- Names which have nothing to do with the wind keep their entries. -/
theorem windPart_other {isR isT : V → Bool} {d : Dict Key V} (hd : (Dict.keys d).Nodup) :
    (Dict.keys (windPart isR isT d)).Nodup ∧ ∀ k, k ∉ (["AWA".toList, "AWS".toList, "TWA".toList, "TWS".toList,
      "Reference".toList, "Wind angle".toList, "Wind speed".toList] : List Key) → (windPart isR isT d).get? k = d.get? k := by
  unfold windPart
  split
  · rename_i wa ref ws _ _ _
    have hn2 : (Dict.keys (if isR ref then (d.set "AWA".toList wa).set "AWS".toList ws
        else if isT ref then (d.set "TWA".toList wa).set "TWS".toList ws else d)).Nodup := by
      split_ifs
      · exact Dict.nodup_keys_set _ _ _ (Dict.nodup_keys_set _ _ _ hd)
      · exact Dict.nodup_keys_set _ _ _ (Dict.nodup_keys_set _ _ _ hd)
      · exact hd
    refine ⟨Dict.nodup_keys_del _ _ (Dict.nodup_keys_del _ _ (Dict.nodup_keys_del _ _ hn2)), ?_⟩
    intro k hk
    simp only [List.mem_cons, List.not_mem_nil, or_false, not_or] at hk
    obtain ⟨k1, k2, k3, k4, k5, k6, k7⟩ := hk
    show Dict.get? (Dict.del (Dict.del (Dict.del _ _) _) _) k = _
    rw [get?_del3 hn2, if_neg (by rintro (h | h | h); exacts [k5 h, k6 h, k7 h])]
    split_ifs
    · rw [Dict.get?_set_ne _ _ (Ne.symm k2), Dict.get?_set_ne _ _ (Ne.symm k1)]
    · rw [Dict.get?_set_ne _ _ (Ne.symm k4), Dict.get?_set_ne _ _ (Ne.symm k3)]
    · rfl
  · exact ⟨hd, fun _ _ => rfl⟩

theorem coordPart_target {conv : V → Except PyErr V} {source target : Key} (hne : source ≠ target) {d d' : Dict Key V}
    (hd : (Dict.keys d).Nodup) (h : coordPart conv source target d = .ok d') :
    (Dict.keys d').Nodup ∧ d'.get? source = none ∧
      ∀ v, d.get? source = some v → ∃ v', conv v = .ok v' ∧ d'.get? target = some v' := by
  unfold coordPart at h
  split at h
  · rename_i hn
    simp only [Except.ok.injEq] at h; subst h
    exact ⟨hd, hn, fun v hv => by rw [hn] at hv; cases hv⟩
  · rename_i w hw
    split at h
    · simp at h
    · rename_i w' hw'
      simp only [Except.ok.injEq] at h
      subst h
      have hn := Dict.nodup_keys_set d target w' hd
      refine ⟨Dict.nodup_keys_del _ _ hn, ?_, ?_⟩
      · rw [Dict.get?_del _ hn, if_pos rfl]
      · intro v hv
        rw [hw] at hv
        cases hv
        exact ⟨w', hw', by rw [Dict.get?_del _ hn, if_neg hne, Dict.get?_set_self]⟩

/-- **C50.** What is stored for a sentence: the decoded latitude and longitude under the names `lat` and `lon` instead of the
encoded ones, and the decoded time in place of the encoded one. -/
theorem C50_entries {isR isT : V → Bool} {conv stamp : V → Except PyErr V} {d d' : Dict Key V}
    (hd : (Dict.keys d).Nodup) (h : postprocess isR isT conv stamp d = .ok d') :
    (∀ v, d.get? "Latitude".toList = some v → ∃ v', conv v = .ok v' ∧ d'.get? "lat".toList = some v') ∧
    (∀ v, d.get? "Longitude".toList = some v → ∃ v', conv v = .ok v' ∧ d'.get? "lon".toList = some v') ∧
    (∀ v, d.get? "Timestamp".toList = some v → ∃ v', stamp v = .ok v' ∧ d'.get? "Timestamp".toList = some v') ∧
    d'.get? "Latitude".toList = none ∧ d'.get? "Longitude".toList = none := by
  obtain ⟨w1, w2⟩ := windPart_other (isR := isR) (isT := isT) hd
  unfold postprocess at h
  split at h
  · simp at h
  · rename_i d1 hd1
    split at h
    · simp at h
    · rename_i d2 hd2
      obtain ⟨n1, a1, a2⟩ := coordPart_target (by decide) w1 hd1
      obtain ⟨-, b1, b2⟩ := coordPart_target (by decide) n1 hd2
      refine ⟨?_, ?_, ?_, ?_, ?_⟩
      · intro v hv
        obtain ⟨v', e1, e2⟩ := a2 v (by rw [w2 _ (by decide), hv])
        exact ⟨v', e1, by rw [timePart_get h (by decide), (coordPart_get n1 hd2 (by decide) (by decide)).2, e2]⟩
      · intro v hv
        obtain ⟨v', e1, e2⟩ := b2 v (by
          rw [(coordPart_get w1 hd1 (by decide) (by decide)).2, w2 _ (by decide), hv])
        exact ⟨v', e1, by rw [timePart_get h (by decide), e2]⟩
      · intro v hv
        have hv2 : d2.get? "Timestamp".toList = some v := by
          rw [(coordPart_get n1 hd2 (by decide) (by decide)).2, (coordPart_get w1 hd1 (by decide) (by decide)).2,
            w2 _ (by decide), hv]
        rw [timePart, hv2] at h
        simp only at h
        split at h
        · simp at h
        · rename_i v' e
          simp only [Except.ok.injEq] at h
          subst h
          exact ⟨v', e, Dict.get?_set_self _ _ _⟩
      · rw [timePart_get h (by decide), (coordPart_get n1 hd2 (by decide) (by decide)).2, a1]
      · rw [timePart_get h (by decide), b1]

example : postprocess (· = "R") (· = "T") (fun s => .ok (s ++ "°")) (fun s => .ok (s ++ " h"))
    [("Latitude".toList, "54"), ("Longitude".toList, "10"), ("Timestamp".toList, "12")] =
    .ok [("Timestamp".toList, "12 h"), ("lat".toList, "54°"), ("lon".toList, "10°")] := by decide +kernel

/-- **C89.** With wanted attributes a sentence yields the fields with the names that belong to them; of several fields with
the same name the last one counts. -/
theorem C89_parsed (wanted : List Key) (fields : List (Key × V)) (k : Key) :
    (k ∉ wantedNmea wanted → (parsedDict wanted fields).get? k = none) ∧
    (k ∉ fields.map Prod.fst → (parsedDict wanted fields).get? k = none) ∧
    ∀ l₁ v l₂, k ∈ wantedNmea wanted → fields = l₁ ++ (k, v) :: l₂ → k ∉ l₂.map Prod.fst →
      (parsedDict wanted fields).get? k = some v := by
  have step : ∀ (l : List (Key × V)) (f : Key × V), parsedDict wanted (l ++ [f]) =
      if f.1 ∈ wantedNmea wanted then (parsedDict wanted l).set f.1 f.2 else parsedDict wanted l := by
    intro l f
    simp only [parsedDict, List.filter_append, List.filter_cons, List.filter_nil]
    split_ifs <;> simp_all [List.foldl_append]
  have h1 : k ∉ wantedNmea wanted → (parsedDict wanted fields).get? k = none := by
    intro hk
    induction fields using List.reverseRecOn with
    | nil => rfl
    | append_singleton l f ih =>
      rw [step]
      split_ifs with h
      · rw [Dict.get?_set_ne, ih]
        rintro rfl
        exact hk h
      · exact ih
  have h2 : ∀ l₁ : List (Key × V), ∀ l₂ : List (Key × V), k ∉ l₂.map Prod.fst →
      (parsedDict wanted (l₁ ++ l₂)).get? k = (parsedDict wanted l₁).get? k := by
    intro l₁ l₂
    induction l₂ using List.reverseRecOn with
    | nil => simp
    | append_singleton l f ih =>
      intro hk
      simp only [List.map_append, List.map_cons, List.map_nil, List.mem_append, List.mem_singleton, not_or] at hk
      rw [← List.append_assoc, step]
      split_ifs with h
      · rw [Dict.get?_set_ne _ _ (fun e => hk.2 e.symm), ih hk.1]
      · exact ih hk.1
  refine ⟨h1, fun hk => by simpa [parsedDict] using h2 [] fields hk, ?_⟩
  rintro l₁ v l₂ hk rfl hl
  rw [List.append_cons, h2 _ _ hl, step, if_pos hk, Dict.get?_set_self]

example : parsedDict ["AWS".toList] (exFields ++ [("Wind speed".toList, "13")]) =
    [("Reference".toList, "R"), ("Wind speed".toList, "13")] := by decide +kernel

end

/-- **C50.** A time with less than five digits before its dot has no seconds and is refused with a `ValueError`. -/
theorem C50_short {s : List Char} (h : s.length ≤ 4) : timeFromNmea s = .error .valueError := by
  have hnil : (s.drop 4).take 2 = [] := by simp [List.drop_eq_nil_of_le h]
  have hv : ∀ l e, pyInt l = .error e → e = .valueError := by
    intro l e hl
    unfold pyInt at hl
    split at hl
    · simpa using hl.symm
    · split at hl <;> simp at hl
      exact hl.symm
  unfold timeFromNmea
  split
  · rename_i e he
    rw [hv _ _ he]
  · split
    · rename_i e he
      rw [hv _ _ he]
    · rw [hnil]
      rfl

example : timeFromNmea "1234".toList = .error .valueError := by decide +kernel

end Verif.Nmea
