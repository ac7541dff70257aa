import Verif.Model.NetDims
import Verif.Props.WeatherMulti

/-!
# Property C165: dimensions of weather variables
-/

namespace Verif.Weather

/-- The description of a variable by netCDF4: its type in the first line, in the second line kind, name and, in brackets, the
dimensions, and further lines. -/
def description (head kind name : Letters) (dims : List Letters) (tail : Letters) : Letters :=
  head ++ '\n' :: (kind ++ ' ' :: (name ++ '(' :: (List.intercalate [',', ' '] dims ++ ')' :: '\n' :: tail)))

/-- Names that can be read: without blanks, line ends and opening brackets, and neither beginning nor ending with a comma or a
closing bracket. -/
def Readable (d : Letters) : Prop :=
  ' ' ∉ d ∧ '\n' ∉ d ∧ '(' ∉ d ∧ (∀ c, d.head? = some c → c ≠ ',' ∧ c ≠ ')') ∧ ∀ c, d.getLast? = some c → c ≠ ',' ∧ c ≠ ')'

theorem splitAtChar_absent {c : Char} {s : Letters} (h : c ∉ s) : splitAtChar c s = [s] := by
  induction s with
  | nil => rfl
  | cons x xs ih =>
    simp only [List.mem_cons, not_or] at h
    rw [splitAtChar, if_neg (fun e => h.1 e.symm), ih h.2]

theorem splitAtChar_append {c : Char} {a : Letters} (h : c ∉ a) (b : Letters) :
    splitAtChar c (a ++ c :: b) = a :: splitAtChar c b := by
  induction a with
  | nil => simp [splitAtChar]
  | cons x xs ih =>
    simp only [List.mem_cons, not_or] at h
    rw [List.cons_append, splitAtChar, if_neg (fun e => h.1 e.symm), ih h.2]

theorem dropWhile_stays {p : Char → Bool} {s : Letters} (h : ∀ c, s.head? = some c → p c = false) : s.dropWhile p = s := by
  cases s with
  | nil => rfl
  | cons x xs => rw [List.dropWhile_cons_of_neg (by rw [h x rfl]; decide)]

/-- Trailing characters are stripped. -/
theorem stripChars_readable {d : Letters} (h : Readable d) {e : Letters} (he : ∀ c ∈ e, c = ',' ∨ c = ')') :
    stripChars [',', ')'] (d ++ e) = d := by
  obtain ⟨-, -, -, h1, h2⟩ := h
  unfold stripChars
  rcases d with _ | ⟨x, xs⟩
  · have : (e.dropWhile fun c => decide (c ∈ [',', ')'])) = [] := by
      induction e with
      | nil => rfl
      | cons c cs ih =>
        rw [List.dropWhile_cons_of_pos (by simpa using he c (by simp))]
        exact ih fun x hx => he x (List.mem_cons_of_mem _ hx)
    rw [List.nil_append, this]; rfl
  · have hx := h1 x rfl
    rw [dropWhile_stays (s := x :: xs ++ e) (by
      intro c hc
      simp only [List.cons_append, List.head?_cons, Option.some.injEq] at hc
      subst hc; simp [hx.1, hx.2]), List.reverse_append]
    rw [List.dropWhile_append_of_pos (by
      intro c hc
      simpa using he c (List.mem_reverse.1 hc))]
    rw [dropWhile_stays (by
      intro c hc
      rw [List.head?_reverse] at hc
      have := h2 c hc
      simp [this.1, this.2]), List.reverse_reverse]

theorem dimensionName_later {d : Letters} (h : Readable d) {e : Letters} (he : ∀ c ∈ e, c = ',' ∨ c = ')') :
    dimensionName (d ++ e) = d := by
  unfold dimensionName
  rw [if_neg, stripChars_readable h he]
  simp only [List.mem_append, not_or]
  refine ⟨h.2.2.1, fun hc => ?_⟩
  rcases he _ hc with e | e <;> exact absurd e (by decide)

theorem dimensionName_first {name d : Letters} (hn : '(' ∉ name) (h : Readable d) {e : Letters} (he : ∀ c ∈ e, c = ',' ∨ c = ')') :
    dimensionName (name ++ '(' :: (d ++ e)) = d := by
  unfold dimensionName
  have hb : '(' ∉ d ++ e := by
    simp only [List.mem_append, not_or]
    refine ⟨h.2.2.1, fun hc => ?_⟩
    rcases he _ hc with e | e <;> exact absurd e (by decide)
  rw [if_pos (by simp), splitAtChar_append hn, splitAtChar_absent hb]
  exact stripChars_readable h he

theorem intercalate_two (d d' : Letters) (ds : List Letters) :
    List.intercalate [',', ' '] (d :: d' :: ds) = d ++ ',' :: ' ' :: List.intercalate [',', ' '] (d' :: ds) := by
  simp [List.intercalate, List.intersperse]

/-- The words between the brackets. -/
theorem words_dims {d : Letters} {ds : List Letters} (hd : ∀ x ∈ d :: ds, Readable x) {p : Letters} (hp : ' ' ∉ p) {f : Letters → Letters}
    (hf : ∀ e, (∀ c ∈ e, c = ',' ∨ c = ')') → f (p ++ (d ++ e)) = d) :
    ∃ w ws, splitAtChar ' ' (p ++ (List.intercalate [',', ' '] (d :: ds) ++ [')'])) = w :: ws ∧ f w = d ∧ ws.map dimensionName = ds := by
  induction ds generalizing d p f with
  | nil =>
    refine ⟨p ++ (d ++ [')']), [], ?_, hf _ (by simp), rfl⟩
    rw [splitAtChar_absent]
    · simp [List.intercalate, List.intersperse]
    · have := (hd d (by simp)).1
      simp [List.intercalate, List.intersperse, hp, this]
  | cons d' ds ih =>
    obtain ⟨w, ws, h1, h2, h3⟩ := ih (d := d') (p := []) (fun x hx => hd x (List.mem_cons_of_mem _ hx)) (by simp)
      (f := dimensionName) (fun e he => dimensionName_later (hd d' (by simp)) he)
    refine ⟨p ++ (d ++ [',']), w :: ws, ?_, hf _ (by simp), by rw [List.map_cons, h2, h3]⟩
    rw [intercalate_two]
    have e : p ++ (d ++ ',' :: ' ' :: List.intercalate [',', ' '] (d' :: ds) ++ [')']) =
        (p ++ (d ++ [','])) ++ ' ' :: ([] ++ (List.intercalate [',', ' '] (d' :: ds) ++ [')'])) := by simp
    rw [e, splitAtChar_append, h1]
    have := (hd d (by simp)).1
    simp [hp, this]

/-- **C165.** The dimensions of a variable with at least one dimension are read correctly, if no name contains blanks, line ends
or opening brackets and no dimension begins or ends with a comma or a closing bracket. -/
theorem C165_dimensions_partial {head kind name : Letters} {dims : List Letters} (tail : Letters) (hh : '\n' ∉ head)
    (hk : ' ' ∉ kind ∧ '\n' ∉ kind) (hn : ' ' ∉ name ∧ '\n' ∉ name ∧ '(' ∉ name) (hd : ∀ d ∈ dims, Readable d) (hne : dims ≠ []) :
    getDimensions (description head kind name dims tail) = .ok dims := by
  rcases dims with _ | ⟨d, ds⟩
  · exact absurd rfl hne
  obtain ⟨w, ws, h1, h2, h3⟩ := words_dims hd (p := name ++ ['(']) (by simp [hn.1]) (f := dimensionName) (by
    intro e he
    have := dimensionName_first hn.2.2 (hd d (by simp)) he
    simpa using this)
  have hl : '\n' ∉ List.intercalate [',', ' '] (d :: ds) := by
    clear h1 h2 h3 hne
    induction ds generalizing d with
    | nil => simpa [List.intercalate, List.intersperse] using (hd d (by simp)).2.1
    | cons d' ds ih =>
      rw [intercalate_two]
      simp only [List.mem_append, List.mem_cons, not_or]
      exact ⟨(hd d (by simp)).2.1, by decide, by decide, ih d' (fun x hx => hd x (List.mem_cons_of_mem _ hx))⟩
  have e : description head kind name (d :: ds) tail =
      head ++ '\n' :: ((kind ++ ' ' :: ((name ++ ['(']) ++ (List.intercalate [',', ' '] (d :: ds) ++ [')']))) ++ '\n' :: tail) := by
    simp [description]
  unfold getDimensions
  rw [e, splitAtChar_append hh, splitAtChar_append (by
    simp only [List.mem_append, List.mem_cons, List.not_mem_nil, or_false, not_or]
    exact ⟨hk.2, by decide, ⟨hn.2.1, by decide⟩, hl, by decide⟩)]
  simp only [List.getElem?_cons_succ, List.getElem?_cons_zero]
  rw [splitAtChar_append hk.1, h1, List.drop_succ_cons, List.drop_zero, List.map_cons, h2, h3]

example : getDimensions "<class 'netCDF4._netCDF4.Variable'>\nint16 u10(time, latitude, longitude)\n    units: m s**-1".toList =
    .ok ["time".toList, "latitude".toList, "longitude".toList] := by decide +kernel

/-- **C165 is false** for variables without dimensions (e.g. the description `crs` of the coordinate system in many files): they are
said to have one dimension with an empty name. -/
theorem C165_scalar_false {head kind name : Letters} (tail : Letters) (hh : '\n' ∉ head) (hk : ' ' ∉ kind ∧ '\n' ∉ kind)
    (hn : ' ' ∉ name ∧ '\n' ∉ name ∧ '(' ∉ name) : getDimensions (description head kind name [] tail) = .ok [[]] := by
  have e : description head kind name [] tail = head ++ '\n' :: ((kind ++ ' ' :: (name ++ '(' :: [')'])) ++ '\n' :: tail) := by
    simp [description, List.intercalate]
  unfold getDimensions
  rw [e, splitAtChar_append hh, splitAtChar_append (by
    simp only [List.mem_append, List.mem_cons, List.not_mem_nil, or_false, not_or]
    exact ⟨hk.2, by decide, hn.2.1, by decide, by decide⟩)]
  simp only [List.getElem?_cons_succ, List.getElem?_cons_zero]
  rw [splitAtChar_append hk.1, splitAtChar_absent (by simp [hn.1])]
  have : dimensionName (name ++ '(' :: [')']) = [] := by
    have r : Readable [] := ⟨by simp, by simp, by simp, by simp, by simp⟩
    have := dimensionName_first hn.2.2 r (e := [')']) (by simp)
    simpa using this
  simp [this]

example : getDimensions "<class 'netCDF4._netCDF4.Variable'>\nint32 crs()\n".toList = .ok ["".toList] := by decide +kernel

/-- **C165 is false** for names with blanks and with brackets. -/
theorem C165_names_false :
    getDimensions (description "<class>".toList "float32".toList "wind speed".toList ["time".toList, "lat".toList] []) =
        .ok ["wind".toList, "time".toList, "lat".toList] ∧
      getDimensions (description "<class>".toList "float32".toList "u(10)".toList ["time".toList, "lat".toList] []) =
        .ok ["10".toList, "lat".toList] ∧
      getDimensions (description "<class>".toList "float32".toList "u".toList ["time".toList, "sea level".toList] []) =
        .ok ["time".toList, "sea".toList, "level".toList] := by decide +kernel

/-- Texts of one line raise `IndexError`. -/
theorem C165_one_line {s : Letters} (h : '\n' ∉ s) : getDimensions s = .error .indexError := by
  unfold getDimensions
  rw [splitAtChar_absent h]
  rfl

example : getDimensions "u10".toList = .error .indexError := by decide +kernel

/-- **C165.** The data of a file described in this way is that of its actual dimensions. -/
theorem C165_data_partial {V : Type} (lat lon time : Letters) (further : Dict Letters Nat) (fla flo : Bool) (nLats nLons : Nat)
    {file : List (Letters × (List Nat → V))} {actual : List (List Letters × (List Nat → V))}
    (h : List.Forall₂ (fun v a => v.2 = a.2 ∧ ∃ head kind name tail, '\n' ∉ head ∧ (' ' ∉ kind ∧ '\n' ∉ kind) ∧
      (' ' ∉ name ∧ '\n' ∉ name ∧ '(' ∉ name) ∧ (∀ d ∈ a.1, Readable d) ∧ a.1 ≠ [] ∧ v.1 = description head kind name a.1 tail)
      file actual) (t la lo : Nat) :
    describedGetData lat lon time further fla flo nLats nLons file t la lo =
      netGetData further fla flo nLats nLons (actual.map fun a => ⟨a.1.map (coordOf lat lon time), a.2⟩) t la lo := by
  unfold describedGetData netGetData
  generalize fileIdx fla nLats la = la'
  generalize fileIdx flo nLons lo = lo'
  induction h with
  | nil => rfl
  | @cons v a vs as hva hs ih =>
    obtain ⟨he, head, kind, name, tail, g1, g2, g3, g4, g5, g6⟩ := hva
    rw [describedData, g6, C165_dimensions_partial tail g1 g2 g3 g4 g5]
    simp only [List.map_cons, netData, ih, he]
    rcases varIdxs further t la' lo' (a.1.map (coordOf lat lon time)) with _ | is
    · rfl
    · rcases netData further t la' lo' (as.map fun a => ⟨a.1.map (coordOf lat lon time), a.2⟩) with _ | r <;> rfl

/-- The indices of dimensions with given names. -/
theorem varIdxs_names {lat lon time : Letters} (hd : lat ≠ lon ∧ lat ≠ time ∧ lon ≠ time) {further : Dict Letters Nat} {idx : Letters → Nat}
    {dims : List Letters} (hf : ∀ d ∈ dims, d ≠ lat → d ≠ lon → d ≠ time → further.get? d = some (idx d)) :
    varIdxs further (idx time) (idx lat) (idx lon) (dims.map (coordOf lat lon time)) = .ok (dims.map idx) := by
  induction dims with
  | nil => rfl
  | cons d ds ih =>
    have ih := ih fun x hx => hf x (List.mem_cons_of_mem _ hx)
    simp only [List.map_cons]
    by_cases h1 : d = lat
    · simp [varIdxs, coordOf, h1, ih]
    · by_cases h2 : d = lon
      · subst h2
        simp [varIdxs, coordOf, Ne.symm hd.1, ih]
      · by_cases h3 : d = time
        · subst h3
          simp [varIdxs, coordOf, Ne.symm hd.2.1, Ne.symm hd.2.2, ih]
        · have := hf d (by simp) h1 h2 h3
          simp [varIdxs, coordOf, h1, h2, h3, this, ih]

/-- **C165.** The entry read for a variable has, in the place of each of its dimensions, the index of the grid point for this
dimension: that of the time, that of the latitude and that of the longitude (counted from the end if the axis was flipped) and
the given ones for further dimensions. -/
theorem C165_entry_partial {V : Type} {lat lon time : Letters} (hd : lat ≠ lon ∧ lat ≠ time ∧ lon ≠ time) {further : Dict Letters Nat}
    (fla flo : Bool) (nLats nLons : Nat) {head kind name : Letters} {dims : List Letters} (tail : Letters) (hh : '\n' ∉ head)
    (hk : ' ' ∉ kind ∧ '\n' ∉ kind) (hn : ' ' ∉ name ∧ '\n' ∉ name ∧ '(' ∉ name) (hr : ∀ d ∈ dims, Readable d) (hne : dims ≠ [])
    (entry : List Nat → V) {t la lo : Nat} {idx : Letters → Nat} (ht : idx time = t)
    (hla : idx lat = if fla then nLats - la - 1 else la) (hlo : idx lon = if flo then nLons - lo - 1 else lo)
    (hf : ∀ d ∈ dims, d ≠ lat → d ≠ lon → d ≠ time → further.get? d = some (idx d)) :
    describedGetData lat lon time further fla flo nLats nLons [(description head kind name dims tail, entry)] t la lo =
      .ok [entry (dims.map idx)] := by
  have h1 : fileIdx fla nLats la = idx lat := hla.symm
  have h2 : fileIdx flo nLons lo = idx lon := hlo.symm
  unfold describedGetData
  rw [h1, h2, ← ht, describedData, C165_dimensions_partial tail hh hk hn hr hne]
  simp only [varIdxs_names hd hf, describedData]

example : describedGetData "lat".toList "lon".toList "time".toList [("level".toList, 5)] true true 3 4
    [("<class>\nint16 u10(lon, level, time, lat)\n".toList, fun l => l)] 7 0 1 = .ok [[2, 5, 7, 2]] := by decide +kernel

/-- **C165 is false** for files with a variable without dimensions: no weather can be read from them, `NotImplementedError` is raised
at all grid points, unless an index for the dimension with the empty name is given. -/
theorem C165_scalar_file_false {V : Type} (lat lon time : Letters) (hlat : lat ≠ []) (hlon : lon ≠ []) (htime : time ≠ [])
    {further : Dict Letters Nat} (hf : further.get? [] = none) (fla flo : Bool) (nLats nLons : Nat) {head kind name : Letters}
    (tail : Letters) (hh : '\n' ∉ head) (hk : ' ' ∉ kind ∧ '\n' ∉ kind) (hn : ' ' ∉ name ∧ '\n' ∉ name ∧ '(' ∉ name)
    (entry : List Nat → V) (vars : List (Letters × (List Nat → V))) (t la lo : Nat) :
    describedGetData lat lon time further fla flo nLats nLons ((description head kind name [] tail, entry) :: vars) t la lo =
      .error .runtimeError := by
  unfold describedGetData
  rw [describedData]
  simp only [C165_scalar_false tail hh hk hn, List.map_cons, List.map_nil, coordOf]
  rw [if_neg (Ne.symm hlat), if_neg (Ne.symm hlon), if_neg (Ne.symm htime)]
  simp [varIdxs, hf]

example : describedGetData "latitude".toList "longitude".toList "time".toList [] true false 3 4
    [("<class>\nint16 u10(time, latitude, longitude)\n".toList, fun l => l)] 7 0 1 = .ok [[7, 2, 1]] ∧
    describedGetData "latitude".toList "longitude".toList "time".toList [] true false 3 4
    [("<class>\nint16 crs()\n".toList, fun l => l), ("<class>\nint16 u10(time, latitude, longitude)\n".toList, fun l => l)] 7 0 1 =
      .error .runtimeError := by decide +kernel

end Verif.Weather
