import Verif.Spec.Style
/-!
# Style tables
-/
namespace Oxml
open Spec

theorem findOrPush_prefix {α : Type} (h : α → Nat) (l : List α) (x : α) {i : Nat} {y : α} (hy : l[i]? = some y) :
    (findOrPush h l x).1[i]? = some y := by
  unfold findOrPush
  split
  · exact hy
  · rw [List.getElem?_append_left]
    · exact hy
    · exact (List.getElem?_eq_some_iff.mp hy).1

theorem findOrPush_get {α : Type} {h : α → Nat} {l : List α} {x : α} (hc : ∀ y ∈ l, h y = h x → y = x) :
    (findOrPush h l x).1[(findOrPush h l x).2]? = some x := by
  unfold findOrPush
  split
  · rename_i i hi
    obtain ⟨hl, hp, _⟩ := List.findIdx?_eq_some_iff_getElem.mp hi
    simp only
    rw [List.getElem?_eq_getElem hl]
    congr 1
    exact hc _ (List.getElem_mem hl) (by simpa using hp)
  · simp

theorem findOrPush_le {α : Type} (h : α → Nat) (l : List α) (x : α) : (findOrPush h l x).2 ≤ l.length := by
  unfold findOrPush
  split
  · rename_i i hi
    obtain ⟨hl, _⟩ := List.findIdx?_eq_some_iff_getElem.mp hi
    exact Nat.le_of_lt hl
  · exact Nat.le_refl _

/-- Asking again, in a longer table, finds the same position and adds nothing. -/
theorem findOrPush_again {α : Type} (h : α → Nat) (l m : List α) (x : α) (hm : ∀ (i : Nat) (y : α), (findOrPush h l x).1[i]? = some y → m[i]? = some y) :
    findOrPush h m x = (m, (findOrPush h l x).2) ∧ present? h m x = true := by
  have key : m.findIdx? (fun y => h y = h x) = some (findOrPush h l x).2 := by
    unfold findOrPush at hm ⊢
    split at hm
    · rename_i i hi
      obtain ⟨hl, hp, hlt⟩ := List.findIdx?_eq_some_iff_getElem.mp hi
      simp only
      rw [List.findIdx?_eq_some_iff_getElem]
      have hg := hm i l[i] (List.getElem?_eq_getElem hl)
      obtain ⟨h1, h2⟩ := List.getElem?_eq_some_iff.mp hg
      refine ⟨h1, by rw [h2]; exact hp, ?_⟩
      intro j hj
      have hjl : j < l.length := by omega
      obtain ⟨h3, h4⟩ := List.getElem?_eq_some_iff.mp (hm j l[j] (List.getElem?_eq_getElem hjl))
      rw [h4]; exact hlt j hj
    · rename_i hn
      simp only
      rw [List.findIdx?_eq_some_iff_getElem]
      have hg := hm l.length x (by simp)
      obtain ⟨h1, h2⟩ := List.getElem?_eq_some_iff.mp hg
      refine ⟨h1, by rw [h2]; simp, ?_⟩
      intro j hj
      obtain ⟨h3, h4⟩ := List.getElem?_eq_some_iff.mp (hm j l[j] (by rw [List.getElem?_append_left hj]; exact List.getElem?_eq_getElem hj))
      rw [h4]
      have := List.findIdx?_eq_none_iff.mp hn l[j] (List.getElem_mem hj)
      simpa using this
  refine ⟨?_, ?_⟩
  · unfold findOrPush
    rw [key]
    rfl
  · unfold present?
    obtain ⟨h1, h2, _⟩ := List.findIdx?_eq_some_iff_getElem.mp key
    rw [List.any_eq_true]
    exact ⟨_, List.getElem_mem h1, h2⟩

/-- What a successful request returns. -/
theorem getStyleId_ok {b : Build} {hs : Hashes} {st st' : Styles} {s : StyleSetting} {id : Nat} (h : getStyleId b hs st s = .ok (st', id)) :
    ∃ nf n a, numFmtPart b hs st.numFmts s = .ok (nf, n, a) ∧
      st'.numFmts = nf ∧ st'.fonts = (findOrPush hs.font st.fonts s.font).1 ∧ st'.fills = (findOrPush hs.fill st.fills s.fill).1 ∧
      st'.borders = (findOrPush hs.border st.borders s.border).1 ∧ st'.styleXfs = (findOrPush hs.xf st.styleXfs (requestedXf hs st s n a)).1 ∧
      st'.xfs = (findOrPush hs.xf st.xfs (finalXf hs st s n a)).1 ∧
      id = asU32 (findOrPush hs.xf st.xfs (finalXf hs st s n a)).2 := by
  unfold getStyleId at h
  split at h
  · cases h
  · rename_i nf n a hn
    simp only [Except.ok.injEq, Prod.mk.injEq] at h
    obtain ⟨rfl, rfl⟩ := h
    exact ⟨nf, n, a, hn, rfl, rfl, rfl, rfl, rfl, rfl, rfl⟩

/-- Number formats are only appended. -/
theorem numFmtPart_prefix {b : Build} {hs : Hashes} {t nf : List NumFmt} {s : StyleSetting} {n a : Nat}
    (h : numFmtPart b hs t s = .ok (nf, n, a)) {i : Nat} {y : NumFmt} (hy : t[i]? = some y) : nf[i]? = some y := by
  unfold numFmtPart at h
  split at h
  · split at h
    · cases h
    · split at h
      · split at h
        · cases h
        · cases h; exact hy
      · cases h
        rw [List.getElem?_append_left (List.getElem?_eq_some_iff.mp hy).1]
        exact hy
  · cases h; exact hy

/-- Later tables extend earlier ones. -/
structure Extends (st st' : Styles) : Prop where
  numFmts : ∀ (i : Nat) (y : NumFmt), st.numFmts[i]? = some y → st'.numFmts[i]? = some y
  fonts : ∀ (i : Nat) (y : Font), st.fonts[i]? = some y → st'.fonts[i]? = some y
  fills : ∀ (i : Nat) (y : Fill), st.fills[i]? = some y → st'.fills[i]? = some y
  borders : ∀ (i : Nat) (y : Border), st.borders[i]? = some y → st'.borders[i]? = some y
  styleXfs : ∀ (i : Nat) (y : Xf), st.styleXfs[i]? = some y → st'.styleXfs[i]? = some y
  xfs : ∀ (i : Nat) (y : Xf), st.xfs[i]? = some y → st'.xfs[i]? = some y

theorem Extends.refl (st : Styles) : Extends st st := ⟨fun _ _ h => h, fun _ _ h => h, fun _ _ h => h, fun _ _ h => h, fun _ _ h => h, fun _ _ h => h⟩

theorem Extends.trans {a b c : Styles} (h1 : Extends a b) (h2 : Extends b c) : Extends a c :=
  ⟨fun i y h => h2.numFmts i y (h1.numFmts i y h), fun i y h => h2.fonts i y (h1.fonts i y h), fun i y h => h2.fills i y (h1.fills i y h),
   fun i y h => h2.borders i y (h1.borders i y h), fun i y h => h2.styleXfs i y (h1.styleXfs i y h), fun i y h => h2.xfs i y (h1.xfs i y h)⟩

theorem getStyleId_extends {b : Build} {hs : Hashes} {st st' : Styles} {s : StyleSetting} {id : Nat} (h : getStyleId b hs st s = .ok (st', id)) :
    Extends st st' := by
  obtain ⟨nf, n, a, hn, h1, h2, h3, h4, h5, h6, _⟩ := getStyleId_ok h
  refine ⟨?_, ?_, ?_, ?_, ?_, ?_⟩
  · intro i y hy; rw [h1]; exact numFmtPart_prefix hn hy
  · intro i y hy; rw [h2]; exact findOrPush_prefix _ _ _ hy
  · intro i y hy; rw [h3]; exact findOrPush_prefix _ _ _ hy
  · intro i y hy; rw [h4]; exact findOrPush_prefix _ _ _ hy
  · intro i y hy; rw [h5]; exact findOrPush_prefix _ _ _ hy
  · intro i y hy; rw [h6]; exact findOrPush_prefix _ _ _ hy

theorem requests_extends (b : Build) (hs : Hashes) (reqs : List StyleSetting) (st : Styles) : Extends st (requests b hs st reqs) := by
  induction reqs generalizing st with
  | nil => exact Extends.refl st
  | cons s rest ih =>
    rw [requests]
    split
    · exact ih st
    · rename_i st' id h
      exact (getStyleId_extends h).trans (ih st')

theorem LooksAs.mono {st st' : Styles} {id : Nat} {s : StyleSetting} (h : LooksAs st id s) (he : Extends st st') : LooksAs st' id s := by
  obtain ⟨xf, font, fill, border, h1, h2, h3, h4, h5⟩ := h
  exact ⟨xf, font, fill, border, he.xfs _ _ h1, he.fonts _ _ h2, he.fills _ _ h3, he.borders _ _ h4, h5⟩

theorem asU16_of_le {n m : Nat} (h : n ≤ m) (hm : m < 65536) : asU16 n = n := Nat.mod_eq_of_lt (by omega)
theorem asU32_of_le {n m : Nat} (h : n ≤ m) (hm : m < 4294967296) : asU32 n = n := Nat.mod_eq_of_lt (by omega)

theorem looksAs_request {b : Build} {hs : Hashes} {st st' : Styles} {s : StyleSetting} {id : Nat} (hr : Room st)
    (hc : ClashFree b hs st s) (h : getStyleId b hs st s = .ok (st', id)) : LooksAs st' id s := by
  obtain ⟨nf, n, a, hn, h1, h2, h3, h4, h5, h6, h7⟩ := getStyleId_ok h
  obtain ⟨c1, c2, c3, c4⟩ := hc
  obtain ⟨r1, r2, r3, r4⟩ := hr
  have hx := findOrPush_get (h := hs.xf) (l := st.xfs) (x := (finalXf hs st s n a)) (fun y hy he => c4 nf n a hn y hy he)
  refine ⟨finalXf hs st s n a, s.font, s.fill, s.border, ?_, ?_, ?_, ?_, ?_⟩
  · rw [h6, h7, asU32_of_le (findOrPush_le _ _ _) r4]
    exact hx
  · rw [h2]
    have : (finalXf hs st s n a).fontId = (findOrPush hs.font st.fonts s.font).2 := asU16_of_le (findOrPush_le _ _ _) r1
    simp only [this]
    exact findOrPush_get (fun y hy he => c1 y (by simp [hy]) _ (by simp) he)
  · rw [h3]
    have : (finalXf hs st s n a).fillId = (findOrPush hs.fill st.fills s.fill).2 := asU16_of_le (findOrPush_le _ _ _) r2
    simp only [this]
    exact findOrPush_get (fun y hy he => c2 y (by simp [hy]) _ (by simp) he)
  · rw [h4]
    have : (finalXf hs st s n a).borderId = (findOrPush hs.border st.borders s.border).2 := asU16_of_le (findOrPush_le _ _ _) r3
    simp only [this]
    exact findOrPush_get (fun y hy he => c3 y (by simp [hy]) _ (by simp) he)
  · refine ⟨⟨rfl, rfl, rfl, rfl, rfl, rfl, rfl⟩, ⟨rfl, ?_, ?_⟩, ⟨rfl, rfl, rfl, rfl, rfl⟩, rfl, rfl, ?_⟩
    · simp [StyleSetting.fill, Function.comp_def]
    · simp [StyleSetting.fill, Function.comp_def]
    · simp [finalXf, withFormat, requestedXf, bit]

theorem LooksAs.sameLook {st : Styles} {id : Nat} {s t : StyleSetting} (hs : LooksAs st id s) (ht : LooksAs st id t) : SameLook s t := by
  obtain ⟨xf, font, fill, border, h1, h2, h3, h4, h5, h6, h7, h8⟩ := hs
  obtain ⟨xf', font', fill', border', g1, g2, g3, g4, g5, g6, g7, g8⟩ := ht
  rw [h1] at g1; cases g1
  rw [h2] at g2; cases g2
  rw [h3] at g3; cases g3
  rw [h4] at g4; cases g4
  refine ⟨?_, ?_, ?_, ?_⟩
  · obtain ⟨a1, a2, a3, a4, a5, a6, a7⟩ := h5
    obtain ⟨b1, b2, b3, b4, b5, b6, b7⟩ := g5
    exact ⟨a1 ▸ b1, a2 ▸ b2, a3 ▸ b3, a4 ▸ b4, a5 ▸ b5, a6 ▸ b6, a7 ▸ b7⟩
  · obtain ⟨a1, a2, a3⟩ := h6
    obtain ⟨b1, b2, b3⟩ := g6
    exact ⟨a1 ▸ b1, a2 ▸ b2, a3 ▸ b3⟩
  · obtain ⟨a1, a2, a3, a4, a5⟩ := h7
    obtain ⟨b1, b2, b3, b4, b5⟩ := g7
    exact ⟨a1 ▸ b1, a2 ▸ b2, a3 ▸ b3, a4 ▸ b4, a5 ▸ b5⟩
  · obtain ⟨a1, a2, a3⟩ := h8
    obtain ⟨b1, b2, b3⟩ := g8
    refine ⟨a1 ▸ b1, a2 ▸ b2, ?_⟩
    cases hw : s.wrapText <;> cases hv : t.wrapText <;> simp_all

/-- The cell format behind the id of a request. -/
theorem request_xf {b : Build} {hs : Hashes} {st st' : Styles} {s : StyleSetting} {id n a : Nat} {nf : List NumFmt} (hr : st.xfs.length < 4294967296)
    (hn : numFmtPart b hs st.numFmts s = .ok (nf, n, a)) (hc : ∀ y ∈ st.xfs, hs.xf y = hs.xf (finalXf hs st s n a) → y = finalXf hs st s n a)
    (h : getStyleId b hs st s = .ok (st', id)) : st'.xfs[id]? = some (finalXf hs st s n a) ∧ st'.numFmts = nf := by
  obtain ⟨nf', n', a', hn', h1, _, _, _, _, h6, h7⟩ := getStyleId_ok h
  rw [hn] at hn'
  cases hn'
  refine ⟨?_, h1⟩
  rw [h6, h7, asU32_of_le (findOrPush_le _ _ _) hr]
  exact findOrPush_get hc

theorem findOrPush_pos {α : Type} (h : α → Nat) {l : List α} (x : α) (hne : l ≠ []) (h0 : (findOrPush h l x).2 = 0) : present? h l x = true := by
  unfold findOrPush at h0
  split at h0
  · rename_i i hi
    obtain ⟨h1, h2, _⟩ := List.findIdx?_eq_some_iff_getElem.mp hi
    unfold present?
    rw [List.any_eq_true]
    exact ⟨_, List.getElem_mem h1, h2⟩
  · exact absurd (List.eq_nil_of_length_eq_zero h0) hne

/-- Asking again in a longer table gives the same flag, unless the table was empty. -/
theorem applyFlag_again {α : Type} (h : α → Nat) (l m : List α) (x : α) (hne : l ≠ [])
    (hm : ∀ (i : Nat) (y : α), (findOrPush h l x).1[i]? = some y → m[i]? = some y) : applyFlag h m x = applyFlag h l x := by
  obtain ⟨h1, h2⟩ := findOrPush_again h l m x hm
  unfold applyFlag
  rw [h1, h2]
  by_cases h0 : (findOrPush h l x).2 = 0
  · rw [if_pos ⟨rfl, h0⟩, if_pos ⟨findOrPush_pos h x hne h0, h0⟩]
  · rw [if_neg (fun h => h0 h.2), if_neg (fun h => h0 h.2)]

/-- The number format part of a repeated request. -/
theorem numFmtPart_again {b : Build} {hs : Hashes} {t m nf : List NumFmt} {s : StyleSetting} {n a : Nat}
    (hk : s.numberFormat = .custom → ∃ code, s.customFormat = some code ∧ present? hs.numFmt t (customFmt code) = true)
    (h : numFmtPart b hs t s = .ok (nf, n, a)) (hm : ∀ (i : Nat) (y : NumFmt), nf[i]? = some y → m[i]? = some y) :
    numFmtPart b hs m s = .ok (m, n, a) := by
  unfold numFmtPart at h ⊢
  split at h
  · rename_i hcust
    rw [if_pos hcust]
    obtain ⟨code, hcode, hp⟩ := hk hcust
    rw [hcode] at h ⊢
    simp only at h ⊢
    split at h
    · rename_i i hi
      have hfo : findOrPush hs.numFmt t (customFmt code) = (t, i) := by unfold findOrPush; rw [hi]
      split at h
      · cases h
      · rename_i k hk2
        cases h
        have := (findOrPush_again hs.numFmt t m (customFmt code) (by rw [hfo]; exact hm)).1
        rw [hfo] at this
        unfold findOrPush at this
        split at this
        · rename_i j hj
          cases this
          simp only
          rw [hk2]
        · rename_i hj
          have hl := congrArg (fun p => p.1.length) this
          simp at hl
    · rename_i hi
      unfold present? at hp
      rw [List.any_eq_true] at hp
      obtain ⟨y, hy1, hy2⟩ := hp
      have := List.findIdx?_eq_none_iff.mp hi y hy1
      rw [hy2] at this
      cases this
  · rename_i hcust
    rw [if_neg hcust]
    cases h; rfl

/-- A repeated request changes nothing and gives the same id. -/
theorem request_again {b : Build} {hs : Hashes} {st st1 st2 : Styles} {s : StyleSetting} {id : Nat}
    (hne : st.fonts ≠ [] ∧ st.fills ≠ [] ∧ st.borders ≠ [])
    (hk : s.numberFormat = .custom → ∃ code, s.customFormat = some code ∧ present? hs.numFmt st.numFmts (customFmt code) = true)
    (h : getStyleId b hs st s = .ok (st1, id)) (he : Extends st1 st2) : getStyleId b hs st2 s = .ok (st2, id) := by
  obtain ⟨nf, n, a, hn, h1, h2, h3, h4, h5, h6, h7⟩ := getStyleId_ok h
  have hfont : ∀ (i : Nat) (y : Font), (findOrPush hs.font st.fonts s.font).1[i]? = some y → st2.fonts[i]? = some y := by
    intro i y hy; rw [← h2] at hy; exact he.fonts i y hy
  have hfill : ∀ (i : Nat) (y : Fill), (findOrPush hs.fill st.fills s.fill).1[i]? = some y → st2.fills[i]? = some y := by
    intro i y hy; rw [← h3] at hy; exact he.fills i y hy
  have hborder : ∀ (i : Nat) (y : Border), (findOrPush hs.border st.borders s.border).1[i]? = some y → st2.borders[i]? = some y := by
    intro i y hy; rw [← h4] at hy; exact he.borders i y hy
  have hnf := numFmtPart_again hk hn (m := st2.numFmts) (by rw [← h1]; exact he.numFmts)
  have hx : requestedXf hs st2 s n a = requestedXf hs st s n a := by
    unfold requestedXf
    rw [applyFlag_again hs.font _ _ s.font hne.1 hfont, applyFlag_again hs.fill _ _ s.fill hne.2.1 hfill,
      applyFlag_again hs.border _ _ s.border hne.2.2 hborder, (findOrPush_again hs.font _ _ s.font hfont).1,
      (findOrPush_again hs.fill _ _ s.fill hfill).1, (findOrPush_again hs.border _ _ s.border hborder).1]
  have hsx := (findOrPush_again hs.xf st.styleXfs st2.styleXfs (requestedXf hs st s n a) (by rw [← h5]; exact he.styleXfs)).1
  have hxx := (findOrPush_again hs.xf st.xfs st2.xfs (finalXf hs st s n a) (by rw [← h6]; exact he.xfs)).1
  unfold getStyleId
  rw [hnf]
  simp only
  rw [hx, hsx]
  change Except.ok (Styles.mk st2.numFmts (findOrPush hs.font st2.fonts s.font).1 (findOrPush hs.fill st2.fills s.fill).1
    (findOrPush hs.border st2.borders s.border).1 st2.styleXfs (findOrPush hs.xf st2.xfs (finalXf hs st s n a)).1,
    asU32 (findOrPush hs.xf st2.xfs (finalXf hs st s n a)).2) = _
  rw [hxx, (findOrPush_again hs.font _ _ s.font hfont).1, (findOrPush_again hs.fill _ _ s.fill hfill).1,
    (findOrPush_again hs.border _ _ s.border hborder).1, h7]

/-- After a request for a custom format the format is known. -/
theorem custom_known {b : Build} {hs : Hashes} {st st' st'' : Styles} {s : StyleSetting} {id : Nat} (hcust : s.numberFormat = .custom)
    (h : getStyleId b hs st s = .ok (st', id)) (he : Extends st' st'') :
    ∃ code, s.customFormat = some code ∧ present? hs.numFmt st''.numFmts (customFmt code) = true := by
  obtain ⟨nf, n, a, hn, h1, _⟩ := getStyleId_ok h
  unfold numFmtPart at hn
  rw [if_pos hcust] at hn
  split at hn
  · cases hn
  · rename_i code hcode
    refine ⟨code, hcode, ?_⟩
    have : ∃ y, y ∈ st'.numFmts ∧ hs.numFmt y = hs.numFmt (customFmt code) := by
      split at hn
      · rename_i i hi
        obtain ⟨g1, g2, _⟩ := List.findIdx?_eq_some_iff_getElem.mp hi
        split at hn
        · cases hn
        · cases hn
          rw [h1]
          exact ⟨_, List.getElem_mem g1, by simpa using g2⟩
      · cases hn
        rw [h1]
        exact ⟨customFmt code, by simp, rfl⟩
    obtain ⟨y, hy1, hy2⟩ := this
    obtain ⟨i, hi⟩ := List.getElem?_of_mem hy1
    unfold present?
    rw [List.any_eq_true]
    exact ⟨y, List.mem_of_getElem? (he.numFmts i y hi), by simpa using hy2⟩

end Oxml
