import Verif.Props.WeatherError
import Verif.Props.Sharp2
import Verif.Props.NetDims

/-!
# Exact conditions for properties C144 and C165

Where affine weather is reproduced, and which names of dimensions are read correctly.
-/

set_option linter.unusedSectionVars false

namespace Verif.Weather

section Error

variable {K : Type} [Field K] [LinearOrder K] [IsStrictOrderedRing K] {κ : Type}

theorem snap_inside {g : List K} {x : K} (h : Inside g x) : Inside g (snap g x) := by
  unfold snap
  split_ifs with hm
  · cases g with
    | nil => cases hm
    | cons a g => exact ⟨⟨a, by simp, le_rfl⟩, a, by simp, le_rfl⟩
  · exact h

/-- **C144.** For all points inside of the grid, grid values or not: the result is the weather at the point in which every coordinate
that is a grid value is replaced by the first grid value, up to the variation of the weather over one cell. -/
theorem C144_everywhere {G : Gridded κ K} (hG : G.Valid) {a : Nat} {W : K → K → K → K} {δ ω Δt Δla Δlo : K}
    (hs : G.Samples a W δ) (ht : 0 ≤ Δt) (hla : 0 ≤ Δla) (hlo : 0 ≤ Δlo) (mt : Mesh G.times Δt) (mla : Mesh G.lats Δla)
    (mlo : Mesh G.lons Δlo) {t la lo : K} (h1 : Inside G.times t) (h2 : Inside G.lats la) (h3 : Inside G.lons lo)
    (hω : ∀ t' la' lo', |t' - snap G.times t| ≤ Δt → |la' - snap G.lats la| ≤ Δla → |lo' - snap G.lons lo| ≤ Δlo →
      |W t' la' lo' - W (snap G.times t) (snap G.lats la) (snap G.lons lo)| ≤ ω) :
    ∃ vals, getWeather G t la lo = .ok (G.attrs.zip vals) ∧ vals.length = G.attrs.length ∧
      |vals.getD a 0 - W (snap G.times t) (snap G.lats la) (snap G.lons lo)| ≤ ω + δ := by
  obtain ⟨vals, v1, v2, v3⟩ := C43_actual hG h1 h2 h3
  refine ⟨vals, v1, v2, ?_⟩
  have := affine_bounds hG.times mt (snap_inside h1) ht (lo := W (snap G.times t) (snap G.lats la) (snap G.lons lo) - (ω + δ))
    (hi := W (snap G.times t) (snap G.lats la) (snap G.lons lo) + (ω + δ))
    (f := fun i => affine G.lats (fun j => affine G.lons (fun k => G.stored i j k a) (snap G.lons lo)) (snap G.lats la)) fun i t' hi ht' =>
      affine_bounds hG.lats mla (snap_inside h2) hla fun j la' hj hla' =>
        affine_bounds hG.lons mlo (snap_inside h3) hlo fun k lo' hk hlo' => by
          have e1 := abs_le.1 (hs i j k t' la' lo' hi hj hk)
          have e2 := abs_le.1 (hω t' la' lo' ht' hla' hlo')
          exact ⟨by linarith [e1.1, e2.1], by linarith [e1.2, e2.2]⟩
  rw [v3, abs_le]
  exact ⟨by linarith [this.1], by linarith [this.2]⟩

/-- **C144.** Affine weather, stored exactly, is reproduced at a point inside of the grid if and only if it does not change between the
point and the one in which every coordinate that is a grid value is replaced by the first grid value. -/
theorem C144_affine_exactly {G : Gridded κ K} (hG : G.Valid) {a : Nat} {c0 c1 c2 c3 : K}
    (hs : G.Samples a (fun t la lo => c0 + c1 * t + c2 * la + c3 * lo) 0) {t la lo : K} (h1 : Inside G.times t)
    (h2 : Inside G.lats la) (h3 : Inside G.lons lo) :
    ∃ vals, getWeather G t la lo = .ok (G.attrs.zip vals) ∧ vals.length = G.attrs.length ∧
      vals.getD a 0 = c0 + c1 * snap G.times t + c2 * snap G.lats la + c3 * snap G.lons lo ∧
      (vals.getD a 0 = c0 + c1 * t + c2 * la + c3 * lo ↔
        c1 * (t - snap G.times t) + c2 * (la - snap G.lats la) + c3 * (lo - snap G.lons lo) = 0) := by
  obtain ⟨vals, v1, v2, v3⟩ := C43_actual hG h1 h2 h3
  have hv : vals.getD a 0 = c0 + c1 * snap G.times t + c2 * snap G.lats la + c3 * snap G.lons lo := by
    rw [v3, affine_linear hG.times (snap_inside h1) (p := c1) (q := c0 + c2 * snap G.lats la + c3 * snap G.lons lo)]
    · ring
    intro i t' hi
    rw [affine_linear hG.lats (snap_inside h2) (p := c2) (q := c0 + c1 * t' + c3 * snap G.lons lo)]
    · ring
    intro j la' hj
    rw [affine_linear hG.lons (snap_inside h3) (p := c3) (q := c0 + c1 * t' + c2 * la')]
    · ring
    intro k lo' hk
    have := abs_nonpos_iff.1 (hs i j k t' la' lo' hi hj hk)
    linarith
  refine ⟨vals, v1, v2, hv, ?_⟩
  rw [hv]
  constructor <;> intro h <;> linarith

/-- At the grid value `1/2` the affine weather is off by `1/2`, at the first one and between grid values it is not. -/
example : getWeather (clock 4) (1 / 2) 50 1 = .ok [("TWS", 0)] ∧ getWeather (clock 4) 0 50 1 = .ok [("TWS", 0)] ∧
    getWeather (clock 4) (5 / 8) 50 1 = .ok [("TWS", 5 / 8)] ∧ snap (clock 4).times (1 / 2) = 0 ∧
    snap (clock 4).times (5 / 8) = 5 / 8 := by decide +kernel

example : ∃ vals, getWeather (clock 4) (1 / 2) 50 1 = .ok ((clock 4).attrs.zip vals) ∧
    |vals.getD 0 0 - snap (clock 4).times (1 / 2)| ≤ 1 / 4 + 0 := by
  have hm : Mesh (clock 4).times (1 / 4) := by simpa using clock_mesh (n := 4) (by decide)
  have hone : ∀ x : ℚ, Mesh [x] 0 := by
    intro x i a b ha hb
    simp at hb
  obtain ⟨vals, h1, -, h2⟩ := C144_everywhere (clock_valid (n := 4) (by decide)) (clock_samples 4) (ω := 1 / 4) (Δt := 1 / 4) (Δla := 0) (Δlo := 0)
    (by norm_num) le_rfl le_rfl hm (hone 50) (hone 1) (t := 1 / 2) (la := 50) (lo := 1)
    ⟨⟨0, by decide +kernel, by norm_num⟩, 1, by decide +kernel, by norm_num⟩
    ⟨⟨50, by simp [clock], le_rfl⟩, 50, by simp [clock], le_rfl⟩ ⟨⟨1, by simp [clock], le_rfl⟩, 1, by simp [clock], le_rfl⟩
    (fun t' _ _ h _ _ => h)
  exact ⟨vals, h1, h2⟩

end Error

section Names

theorem splitAtChar_ne_nil (c : Char) (s : Letters) : splitAtChar c s ≠ [] := by
  cases s with
  | nil => simp [splitAtChar]
  | cons x xs =>
    rw [splitAtChar]
    split
    · simp
    · split <;> simp

theorem splitAtChar_length (c : Char) (s : Letters) : (splitAtChar c s).length = s.count c + 1 := by
  induction s with
  | nil => rfl
  | cons x xs ih =>
    rw [splitAtChar]
    split
    · rename_i h; subst h
      simp [ih]
    · rename_i h
      rw [List.count_cons_of_ne (fun e => h e)]
      split
      · rename_i e; exact absurd e (splitAtChar_ne_nil c xs)
      · rename_i e; rw [e] at ih
        simpa using ih

/-- The pieces do not contain the separator. -/
theorem splitAtChar_pieces (c : Char) (s : Letters) : ∀ p ∈ splitAtChar c s, c ∉ p := by
  induction s with
  | nil => simp [splitAtChar]
  | cons x xs ih =>
    rw [splitAtChar]
    split
    · intro p hp
      rcases List.mem_cons.1 hp with rfl | hp
      · simp
      · exact ih p hp
    · rename_i h
      split
      · intro p hp
        simp only [List.mem_singleton] at hp
        subst hp
        simpa using fun e => h e.symm
      · rename_i e
        rw [e] at ih
        intro p hp
        rcases List.mem_cons.1 hp with rfl | hp
        · simp only [List.mem_cons, not_or]
          exact ⟨fun e => h e.symm, ih _ (by simp)⟩
        · exact ih p (List.mem_cons_of_mem _ hp)

theorem stripChars_sub {cs : List Char} {s : Letters} {c : Char} (h : c ∈ stripChars cs s) : c ∈ s := by
  unfold stripChars at h
  have h1 := (List.dropWhile_suffix _).subset (List.mem_reverse.1 h)
  exact (List.dropWhile_suffix _).subset (List.mem_reverse.1 h1)

theorem stripChars_last {cs : List Char} {s : Letters} {c : Char} (h : (stripChars cs s).getLast? = some c) : c ∉ cs := by
  unfold stripChars at h
  rw [List.getLast?_reverse] at h
  have := List.head?_dropWhile_not (fun c => decide (c ∈ cs)) (s.dropWhile fun c => decide (c ∈ cs)).reverse
  rw [h] at this
  simpa using this

theorem stripChars_head {cs : List Char} {s : Letters} {c : Char} (h : (stripChars cs s).head? = some c) : c ∉ cs := by
  have hp : stripChars cs s <+: s.dropWhile fun c => decide (c ∈ cs) := by
    unfold stripChars
    rw [← List.reverse_suffix, List.reverse_reverse]
    exact List.dropWhile_suffix _
  obtain ⟨r, hr⟩ := hp
  have := List.head?_dropWhile_not (fun c => decide (c ∈ cs)) s
  rw [← hr] at this
  generalize stripChars cs s = u at h this
  cases u with
  | nil => simp at h
  | cons y ys =>
    simp only [List.head?_cons, Option.some.injEq] at h
    subst h
    simpa using this

/-- What is read as a name never contains an opening bracket and neither begins nor ends with a comma or a closing bracket. -/
theorem dimensionName_shape (c : Letters) : '(' ∉ dimensionName c ∧
    (∀ x, (dimensionName c).head? = some x → x ≠ ',' ∧ x ≠ ')') ∧ ∀ x, (dimensionName c).getLast? = some x → x ≠ ',' ∧ x ≠ ')' := by
  refine ⟨?_, fun x hx => ?_, fun x hx => ?_⟩
  · intro h
    have := stripChars_sub h
    split_ifs at this with hb
    · rw [List.getD_eq_getElem?_getD] at this
      cases e : (splitAtChar '(' c)[1]? with
      | none => rw [e] at this; simp at this
      | some p =>
        rw [e] at this
        exact splitAtChar_pieces '(' c p (List.mem_of_getElem? e) this
    · exact hb this
  · simpa using stripChars_head hx
  · simpa using stripChars_last hx

theorem intercalate_count (d : Letters) (ds : List Letters) :
    (List.intercalate [',', ' '] (d :: ds)).count ' ' = ((d :: ds).map fun x => x.count ' ').sum + ds.length := by
  induction ds generalizing d with
  | nil => simp [List.intercalate, List.intersperse]
  | cons d' ds ih =>
    rw [intercalate_two, List.count_append, List.count_cons_of_ne (by decide), List.count_cons_self, ih]
    simp only [List.map_cons, List.sum_cons, List.length_cons]
    omega

theorem intercalate_no_line {dims : List Letters} (h : ∀ d ∈ dims, '\n' ∉ d) : '\n' ∉ List.intercalate [',', ' '] dims := by
  induction dims with
  | nil => simp [List.intercalate]
  | cons d ds ih =>
    cases ds with
    | nil => simpa [List.intercalate, List.intersperse] using h d (by simp)
    | cons d' ds =>
      rw [intercalate_two]
      simp only [List.mem_append, List.mem_cons, not_or]
      exact ⟨h d (by simp), by decide, by decide, ih fun x hx => h x (List.mem_cons_of_mem _ hx)⟩

/-- The words of the second line after the kind. -/
theorem getDimensions_words {head kind name : Letters} (dims : List Letters) (tail : Letters) (hh : '\n' ∉ head)
    (hk : ' ' ∉ kind ∧ '\n' ∉ kind) (hn : '\n' ∉ name) (hd : ∀ d ∈ dims, '\n' ∉ d) :
    getDimensions (description head kind name dims tail) =
      .ok ((splitAtChar ' ' (name ++ '(' :: (List.intercalate [',', ' '] dims ++ [')']))).map dimensionName) := by
  have e : description head kind name dims tail =
      head ++ '\n' :: ((kind ++ ' ' :: (name ++ '(' :: (List.intercalate [',', ' '] dims ++ [')']))) ++ '\n' :: tail) := by
    simp [description]
  unfold getDimensions
  rw [e, splitAtChar_append hh, splitAtChar_append (by
    simp only [List.mem_append, List.mem_cons, List.not_mem_nil, or_false, not_or]
    exact ⟨hk.2, by decide, hn, by decide, intercalate_no_line hd, by decide⟩)]
  simp only [List.getElem?_cons_succ, List.getElem?_cons_zero]
  rw [splitAtChar_append hk.1, List.drop_succ_cons, List.drop_zero]

/-- **C165.** The dimensions of a variable, whose name is without opening brackets, are read correctly if and only if there is at
least one dimension, the name contains no blank, and the names of the dimensions contain neither blanks nor opening brackets and
do not begin or end with commas or closing brackets. -/
theorem C165_exactly {head kind name : Letters} {dims : List Letters} (tail : Letters) (hh : '\n' ∉ head)
    (hk : ' ' ∉ kind ∧ '\n' ∉ kind) (hn : '\n' ∉ name ∧ '(' ∉ name) (hd : ∀ d ∈ dims, '\n' ∉ d) :
    getDimensions (description head kind name dims tail) = .ok dims ↔ dims ≠ [] ∧ ' ' ∉ name ∧ ∀ d ∈ dims, Readable d := by
  constructor
  · intro h
    rw [getDimensions_words dims tail hh hk hn.1 hd, Except.ok.injEq] at h
    have hl := congrArg List.length h
    rw [List.length_map, splitAtChar_length, List.count_append, List.count_cons_of_ne (by decide), List.count_append] at hl
    cases dims with
    | nil => simp at hl
    | cons d ds =>
      rw [intercalate_count] at hl
      have h1 : List.count ' ' [')'] = 0 := by decide
      rw [h1, List.length_cons] at hl
      have hb : name.count ' ' = 0 ∧ ((d :: ds).map fun x => x.count ' ').sum = 0 := by omega
      refine ⟨by simp, List.count_eq_zero.1 hb.1, fun x hx => ?_⟩
      have hx0 : x.count ' ' = 0 := by
        have := hb.2
        rw [List.sum_eq_zero_iff] at this
        exact this _ (List.mem_map_of_mem hx)
      rw [← h] at hx
      obtain ⟨c, -, rfl⟩ := List.mem_map.1 hx
      have hs := dimensionName_shape c
      refine ⟨List.count_eq_zero.1 hx0, ?_, hs⟩
      exact hd _ (by rw [← h]; exact hx)
  · rintro ⟨h1, h2, h3⟩
    exact C165_dimensions_partial tail hh hk ⟨h2, hn.1, hn.2⟩ h3 h1

/-- **C165.** The dimensions of a variable are read correctly, whatever (readable) names they have, if and only if its name contains
neither blanks nor opening brackets. -/
theorem C165_name_exactly {head kind name : Letters} (tail : Letters) (hh : '\n' ∉ head) (hk : ' ' ∉ kind ∧ '\n' ∉ kind)
    (hn : '\n' ∉ name) :
    (∀ dims : List Letters, dims ≠ [] → (∀ d ∈ dims, Readable d) → getDimensions (description head kind name dims tail) = .ok dims) ↔
      ' ' ∉ name ∧ '(' ∉ name := by
  constructor
  · intro h
    have hr : ∀ x : Char, x = 'x' ∨ x = 'y' → Readable [x] := by
      rintro x (rfl | rfl) <;> simp [Readable]
    have key : ∀ x : Char, x = 'x' ∨ x = 'y' →
        (splitAtChar ' ' (name ++ '(' :: ([x] ++ [')']))).map dimensionName = [[x]] := by
      intro x hx
      have := h [[x]] (by simp) (by simpa using hr x hx)
      rw [getDimensions_words _ _ hh hk hn (by simpa using (hr x hx).2.1), Except.ok.injEq] at this
      simpa [List.intercalate, List.intersperse] using this
    have hb : ' ' ∉ name := by
      have := congrArg List.length (key 'x' (Or.inl rfl))
      rw [List.length_map, splitAtChar_length, List.count_append] at this
      simp only [List.length_singleton] at this
      exact List.count_eq_zero.1 (by omega)
    refine ⟨hb, fun hp => ?_⟩
    obtain ⟨p, q, rfl, hpq⟩ := List.eq_append_cons_of_mem hp
    have first : ∀ x : Char, x = 'x' ∨ x = 'y' → dimensionName (p ++ '(' :: (q ++ '(' :: [x, ')'])) = [x] := by
      intro x hx
      have := key x hx
      rw [splitAtChar_absent] at this
      · simpa using this
      · rcases hx with rfl | rfl <;> simpa using hb
    have piece : ∃ r, ∀ z, (splitAtChar '(' (q ++ '(' :: z)).head? = some r := by
      by_cases hq : '(' ∈ q
      · obtain ⟨q1, q2, rfl, hq1⟩ := List.eq_append_cons_of_mem hq
        exact ⟨q1, fun z => by rw [List.append_assoc, List.cons_append, splitAtChar_append hq1, List.head?_cons]⟩
      · exact ⟨q, fun z => by rw [splitAtChar_append hq, List.head?_cons]⟩
    obtain ⟨r, hr'⟩ := piece
    have same : ∀ z, dimensionName (p ++ '(' :: (q ++ '(' :: z)) = stripChars [',', ')'] r := by
      intro z
      unfold dimensionName
      rw [if_pos (by simp), splitAtChar_append hpq, List.getD_cons_succ, List.getD_eq_getElem?_getD, ← List.head?_eq_getElem?, hr' z,
        Option.getD_some]
    have := (same _).symm.trans (first 'x' (Or.inl rfl)) |>.symm.trans ((same _).symm.trans (first 'y' (Or.inr rfl)))
    simp at this
  · rintro ⟨h1, h2⟩ dims hne hd
    exact C165_dimensions_partial tail hh hk ⟨h1, hn, h2⟩ hd hne

/-- The dimension of a variable `u(x)` is read correctly only if it is called `x` as well. -/
example : getDimensions (description "<class>".toList "int16".toList "u(x)".toList ["x".toList] []) = .ok ["x".toList] ∧
    getDimensions (description "<class>".toList "int16".toList "u(x)".toList ["y".toList] []) = .ok ["x".toList] ∧
    Readable "y".toList := by
  refine ⟨by decide +kernel, by decide +kernel, by decide, by decide, by decide, ?_, ?_⟩ <;> simp

example : ¬ Readable "level (m)".toList ∧
    getDimensions (description "<class>".toList "int16".toList "u".toList ["level (m)".toList, "lat".toList] []) =
      .ok ["level".toList, "m".toList, "lat".toList] := by
  refine ⟨fun h => h.1 (by decide), by decide +kernel⟩

end Names

end Verif.Weather
