import Verif.Proofs.StyleLoad
/-!
# Styles (C51–C56 and C62–C64)
-/
namespace Oxml
open Spec

/-! ## C51 -/

def C51_claim : Prop :=
  ∀ b hs st s st' id later, ClashFree b hs st s → getStyleId b hs st s = .ok (st', id) → LooksAs (requests b hs st' later) id s

/-- 65536 fonts of the same look. -/
def C51_full : Styles := { fonts := List.replicate 65536 {}, numFmts := [], fills := [], borders := [], styleXfs := [], xfs := [] }

/-- Hashes that tell the new font from the old ones. -/
def C51_hash : Hashes := { font := fun f => if f.name = "new" then 1 else 0, numFmt := fun _ => 0, fill := fun _ => 0, border := fun _ => 0, xf := fun _ => 0 }

def C51_setting : StyleSetting := { fontFamily := "new" }

theorem C51_length : C51_full.fonts.length = 65536 := List.length_replicate

theorem C51_push : findOrPush C51_hash.font C51_full.fonts C51_setting.font = (C51_full.fonts ++ [C51_setting.font], 65536) := by
  have : C51_full.fonts.findIdx? (fun y => C51_hash.font y = C51_hash.font C51_setting.font) = none := by
    rw [List.findIdx?_eq_none_iff]
    intro x hx
    have := List.eq_of_mem_replicate hx
    subst this
    decide
  unfold findOrPush
  rw [this]
  simp only
  rw [C51_length]

theorem C51_clashFree : ClashFree ⟨false⟩ C51_hash C51_full C51_setting := by
  refine ⟨?_, ?_, ?_, ?_⟩
  · intro x hx y hy h
    rw [List.mem_cons] at hx hy
    rcases hx with rfl | hx <;> rcases hy with rfl | hy
    · rfl
    · have := List.eq_of_mem_replicate hy
      subst this
      revert h; decide
    · have := List.eq_of_mem_replicate hx
      subst this
      revert h; decide
    · rw [List.eq_of_mem_replicate hx, List.eq_of_mem_replicate hy]
  · intro x hx y hy _
    simp only [C51_full, List.mem_singleton] at hx hy
    rw [hx, hy]
  · intro x hx y hy _
    simp only [C51_full, List.mem_singleton] at hx hy
    rw [hx, hy]
  · intro _ _ _ _ y hy
    cases hy

/-- **C51** is false: font ids are cut to 16 bits, so the 65537th font is shown as the first one. -/
theorem C51_violated : ¬ C51_claim := by
  intro hc
  have hok : ∃ st' id, getStyleId ⟨false⟩ C51_hash C51_full C51_setting = .ok (st', id) := ⟨_, _, rfl⟩
  obtain ⟨st', id, h⟩ := hok
  obtain ⟨xf, font, fill, border, h1, h2, _, _, h5, _⟩ := hc _ _ _ _ _ _ [] C51_clashFree h
  obtain ⟨g1, _⟩ := request_xf (nf := []) (n := 0) (a := 0) (by decide) rfl (by intro y hy; cases hy) h
  rw [requests] at h1 h2
  rw [g1] at h1
  cases h1
  obtain ⟨_, _, _, _, _, e, _⟩ := getStyleId_ok h
  rw [e, C51_push] at h2
  have hid : (finalXf C51_hash C51_full C51_setting 0 0).fontId = 0 := by
    change asU16 (findOrPush C51_hash.font C51_full.fonts C51_setting.font).2 = 0
    rw [C51_push]; rfl
  rw [hid] at h2
  have hl : 0 < C51_full.fonts.length := by rw [C51_length]; decide
  simp only at h2
  rw [List.getElem?_append_left hl] at h2
  have hm : font ∈ C51_full.fonts := List.mem_of_getElem? h2
  have := List.eq_of_mem_replicate hm
  subst this
  have := h5.1
  revert this
  decide

/-- **C51 (partial).** As long as the tables are not full and no hash collision happens, the style id resolves to the requested
font, fill, border and alignment, and it still does after any later requests, whatever they are. Missing for the full claim:
tables with 65536 entries or more. -/
theorem C51_partial (b : Build) (hs : Hashes) (st st' : Styles) (s : StyleSetting) (id : Nat) (later : List StyleSetting) (hr : Room st)
    (hc : ClashFree b hs st s) (h : getStyleId b hs st s = .ok (st', id)) : LooksAs (requests b hs st' later) id s :=
  LooksAs.mono (looksAs_request hr hc h) (requests_extends b hs later st')

/-- A hash for the examples. -/
def textHash (s : String) : Nat := s.toList.foldl (fun h c => h * 31 + c.toNat) 7

def demoHash : Hashes where
  numFmt f := textHash f.code + 1000003 * f.id
  font f := textHash f.name + 1000003 * (f.size + 256 * (bit f.bold + 2 * bit f.italic + 4 * bit f.underline + 8 * bit f.doubleUnderline +
    16 * (match f.scheme with | .none => 0 | .minor => 1 | .major => 2))) + 97 * textHash f.color.value
  fill f := textHash f.pattern.text + 31 * (match f.background with | none => 0 | some c => textHash c.value) + 1009 * (match f.foreground with | none => 0 | some c => textHash c.value)
  border x := textHash x.left.style.text + 31 * textHash x.top.style.text + 1009 * textHash x.bottom.style.text + 10007 * textHash x.right.style.text
  xf x := x.fontId + 1000 * (x.fillId + 1000 * (x.borderId + 1000 * (x.numFmtId + 1000 * (x.formatId + 1000 * (x.applyFont + 2 * x.applyFill +
    4 * x.applyBorder + 8 * x.applyNumFmt + 16 * x.applyAlignment + 32 * x.wrap)))))

def bigBold : StyleSetting := { fontSize := 20, bold := true, horizontal := .center, background := some "FFFF00" }

/-- Hypotheses can be met: a big bold centred style in a new workbook. -/
example : Room newStyles ∧ ClashFree ⟨false⟩ demoHash newStyles bigBold ∧ (getStyleId ⟨false⟩ demoHash newStyles bigBold).isOk = true := by
  refine ⟨by unfold Room; decide, ⟨?_, ?_, ?_, ?_⟩, by decide +kernel⟩
  · unfold Injects; decide +kernel
  · unfold Injects; decide +kernel
  · unfold Injects; decide +kernel
  · intro nf n a h
    cases h
    decide +kernel

/-! ## C52 -/

def C52_claim : Prop :=
  ∀ b hs st s st1 id1 later st2 id2, st.fonts ≠ [] ∧ st.fills ≠ [] ∧ st.borders ≠ [] → getStyleId b hs st s = .ok (st1, id1) →
    getStyleId b hs (requests b hs st1 later) s = .ok (st2, id2) → id1 = id2

def C52_setting : StyleSetting := { numberFormat := .custom, customFormat := some "0.000" }

/-- **C52** is false: a custom number format gets a second style id when it is requested again. -/
theorem C52_violated : ¬ C52_claim := by
  intro hc
  have h := hc ⟨false⟩ demoHash newStyles C52_setting _ _ [] _ _ (by decide) rfl rfl
  revert h
  decide +kernel

/-- **C52**, for any hash: the second request for a custom number format never gives the id of the first one. -/
theorem C52_violated_always (b : Build) (hs : Hashes) (st st1 st2 : Styles) (s : StyleSetting) (code : String) (id1 id2 : Nat)
    (hcust : s.numberFormat = .custom) (hcode : s.customFormat = some code)
    (hnew : ∀ f ∈ st.numFmts, hs.numFmt f ≠ hs.numFmt (customFmt code)) (hr : st.numFmts.length < 65536) (hr1 : st.xfs.length < 4294967296)
    (hr2 : st1.xfs.length < 4294967296) (hc1 : ClashFree b hs st s) (hc2 : ClashFree b hs st1 s)
    (h1 : getStyleId b hs st s = .ok (st1, id1)) (h2 : getStyleId b hs st1 s = .ok (st2, id2)) : id1 ≠ id2 := by
  have hnone : st.numFmts.findIdx? (fun y => hs.numFmt y = hs.numFmt (customFmt code)) = none := by
    rw [List.findIdx?_eq_none_iff]; intro x hx; simpa using hnew x hx
  have p1 : numFmtPart b hs st.numFmts s = .ok (st.numFmts ++ [customFmt code], st.numFmts.length, 1) := by
    unfold numFmtPart
    rw [if_pos hcust, hcode]
    simp only
    rw [hnone]
    simp only
    rw [show asU16 st.numFmts.length = st.numFmts.length from Nat.mod_eq_of_lt hr]
  obtain ⟨e1, e2⟩ := request_xf hr1 p1 (hc1.2.2.2 _ _ _ p1) h1
  obtain ⟨nf, n, a, p2, _⟩ := getStyleId_ok h2
  obtain ⟨e3, _⟩ := request_xf hr2 p2 (hc2.2.2.2 _ _ _ p2) h2
  have hidx : st1.numFmts.findIdx? (fun y => hs.numFmt y = hs.numFmt (customFmt code)) = some st.numFmts.length := by
    rw [e2, List.findIdx?_append, hnone]
    simp
  have hn : addU16 b st.numFmts.length 163 = .ok n := by
    unfold numFmtPart at p2
    rw [if_pos hcust, hcode] at p2
    simp only at p2
    rw [hidx] at p2
    simp only at p2
    rw [show asU16 st.numFmts.length = st.numFmts.length from Nat.mod_eq_of_lt hr] at p2
    split at p2
    · cases p2
    · rename_i k hk
      cases p2
      exact hk
  have hne : st.numFmts.length ≠ n := by
    intro he
    unfold addU16 at hn
    rw [← he] at hn
    split at hn
    · have := Except.ok.inj hn; omega
    · split at hn
      · have := Except.ok.inj hn
        omega
      · cases hn
  intro heq
  have e4 := (getStyleId_extends h2).xfs _ _ e1
  rw [heq, e3] at e4
  have := congrArg Xf.numFmtId (Option.some.inj e4)
  exact hne this.symm

/-- **C52 (partial).** Requesting a setting again, after any other requests, returns the same id and adds nothing, for any hash:
always for settings without a custom number format, and from the second request on with one. The tables must not be empty.
Missing for the full claim: the first two requests for a custom format. -/
theorem C52_partial (b : Build) (hs : Hashes) (st st1 : Styles) (s : StyleSetting) (id : Nat) (later : List StyleSetting)
    (hne : st.fonts ≠ [] ∧ st.fills ≠ [] ∧ st.borders ≠ [])
    (hcust : s.numberFormat = .custom → ∃ st0 st0' id0 between, getStyleId b hs st0 s = .ok (st0', id0) ∧ st = requests b hs st0' between)
    (h : getStyleId b hs st s = .ok (st1, id)) :
    getStyleId b hs (requests b hs st1 later) s = .ok (requests b hs st1 later, id) := by
  refine request_again hne ?_ h (requests_extends b hs later st1)
  intro hc
  obtain ⟨st0, st0', id0, between, h0, rfl⟩ := hcust hc
  exact custom_known hc h0 (requests_extends b hs between st0')

/-- Hypotheses can be met: the third request for a custom format. -/
example : ∃ st0 id0 st1 id, getStyleId ⟨false⟩ demoHash newStyles C52_setting = .ok (st0, id0) ∧ (st0.fonts ≠ [] ∧ st0.fills ≠ [] ∧ st0.borders ≠ []) ∧
    getStyleId ⟨false⟩ demoHash st0 C52_setting = .ok (st1, id) ∧ id0 ≠ id := by
  refine ⟨_, _, _, _, rfl, ?_, rfl, ?_⟩
  · decide +kernel
  · decide +kernel

/-! ## C53 -/

def C53_claim : Prop :=
  ∀ b hs st s t st1 id1 later st2 id2, ClashFree b hs st s → ClashFree b hs (requests b hs st1 later) t → getStyleId b hs st s = .ok (st1, id1) →
    getStyleId b hs (requests b hs st1 later) t = .ok (st2, id2) → id1 = id2 → SameLook s t

/-- **C53 (partial).** With room in the tables and without hash collisions, two requests in any history that return the same id
asked for the same font, fill, border and alignment. Missing for the full claim: tables with 65536 entries or more. -/
theorem C53_partial (b : Build) (hs : Hashes) (st st1 st2 : Styles) (s t : StyleSetting) (id1 id2 : Nat) (later : List StyleSetting)
    (hr1 : Room st) (hr2 : Room (requests b hs st1 later)) (hc1 : ClashFree b hs st s) (hc2 : ClashFree b hs (requests b hs st1 later) t)
    (h1 : getStyleId b hs st s = .ok (st1, id1)) (h2 : getStyleId b hs (requests b hs st1 later) t = .ok (st2, id2)) (he : id1 = id2) :
    SameLook s t := by
  have l1 := LooksAs.mono (C51_partial b hs st st1 s id1 later hr1 hc1 h1) (getStyleId_extends h2)
  have l2 := looksAs_request hr2 hc2 h2
  rw [he] at l1
  exact LooksAs.sameLook l1 l2


/-- 65537 fonts; the second one is called "one". -/
def C53_full : Styles :=
  { fonts := {} :: { name := "one" } :: List.replicate 65535 {}, numFmts := [], fills := [{}], borders := [{}], styleXfs := [], xfs := [] }

def C53_hash : Hashes :=
  { font := fun f => if f.name = "new" then 2 else if f.name = "one" then 1 else 0, numFmt := fun _ => 0, fill := fun _ => 0, border := fun _ => 0, xf := fun _ => 0 }

def C53_one : StyleSetting := { fontFamily := "one" }
def C53_new : StyleSetting := { fontFamily := "new" }
def C53_xf : Xf := { fontId := 1, applyFont := 1 }

theorem C53_length : C53_full.fonts.length = 65537 := by
  unfold C53_full; rw [List.length_cons, List.length_cons, List.length_replicate]

theorem C53_font {f : Font} (h : f ∈ C53_full.fonts) : f = {} ∨ f = { name := "one" } := by
  unfold C53_full at h
  rw [List.mem_cons, List.mem_cons] at h
  rcases h with h | h | h
  · exact Or.inl h
  · exact Or.inr h
  · exact Or.inl (List.eq_of_mem_replicate h)

theorem C53_find_one : findOrPush C53_hash.font C53_full.fonts C53_one.font = (C53_full.fonts, 1) := by
  have : C53_full.fonts.findIdx? (fun y => C53_hash.font y = C53_hash.font C53_one.font) = some 1 := by
    unfold C53_full
    rw [List.findIdx?_cons, if_neg (by decide), List.findIdx?_cons, if_pos (by decide)]
    rfl
  unfold findOrPush
  rw [this]

theorem C53_find_new : findOrPush C53_hash.font C53_full.fonts C53_new.font = (C53_full.fonts ++ [C53_new.font], 65537) := by
  have : C53_full.fonts.findIdx? (fun y => C53_hash.font y = C53_hash.font C53_new.font) = none := by
    rw [List.findIdx?_eq_none_iff]
    intro x hx
    rcases C53_font hx with rfl | rfl <;> decide
  unfold findOrPush
  rw [this]
  simp only
  rw [C53_length]

def C53_mid : Styles := { C53_full with styleXfs := [C53_xf], xfs := [C53_xf] }

theorem C53_flag (x : Font) (h : (findOrPush C53_hash.font C53_full.fonts x).2 ≠ 0) : applyFlag C53_hash.font C53_full.fonts x = 1 := by
  unfold applyFlag
  rw [if_neg (fun hh => h hh.2)]

theorem C53_requested (st : Styles) (s : StyleSetting) (hf : st.fonts = C53_full.fonts) (h2 : st.fills = [{}]) (h3 : st.borders = [{}])
    (hs : s = C53_one ∨ s = C53_new) : requestedXf C53_hash st s 0 0 = C53_xf := by
  unfold requestedXf
  rw [hf, h2, h3]
  rcases hs with rfl | rfl
  · rw [C53_flag _ (by rw [C53_find_one]; decide), C53_find_one]; rfl
  · rw [C53_flag _ (by rw [C53_find_new]; decide), C53_find_new]; rfl

theorem C53_first : getStyleId ⟨false⟩ C53_hash C53_full C53_one = .ok (C53_mid, 0) := by
  unfold getStyleId
  rw [show numFmtPart ⟨false⟩ C53_hash C53_full.numFmts C53_one = .ok ([], 0, 0) from rfl]
  simp only
  rw [C53_requested C53_full C53_one rfl rfl rfl (Or.inl rfl), C53_find_one]
  rfl

theorem C53_second : ∃ st, getStyleId ⟨false⟩ C53_hash C53_mid C53_new = .ok (st, 0) := by
  refine ⟨{ C53_mid with fonts := C53_full.fonts ++ [C53_new.font] }, ?_⟩
  unfold getStyleId
  rw [show numFmtPart ⟨false⟩ C53_hash C53_mid.numFmts C53_new = .ok ([], 0, 0) from rfl]
  simp only
  rw [C53_requested C53_mid C53_new rfl rfl rfl (Or.inr rfl), show C53_mid.fonts = C53_full.fonts from rfl, C53_find_new]
  rfl

theorem C53_inject (s : StyleSetting) (hs : s = C53_one ∨ s = C53_new) : Injects C53_hash.font (s.font :: C53_full.fonts) := by
  intro x hx y hy h
  rw [List.mem_cons] at hx hy
  have hx' : x = s.font ∨ x = {} ∨ x = { name := "one" } := hx.imp id C53_font
  have hy' : y = s.font ∨ y = {} ∨ y = { name := "one" } := hy.imp id C53_font
  rcases hs with rfl | rfl <;> rcases hx' with rfl | rfl | rfl <;> rcases hy' with rfl | rfl | rfl <;> revert h <;> decide

theorem C53_final (st : Styles) (s : StyleSetting) (h : requestedXf C53_hash st s 0 0 = C53_xf) (hx : st.styleXfs = [] ∨ st.styleXfs = [C53_xf]) :
    finalXf C53_hash st s 0 0 = C53_xf := by
  unfold finalXf
  rw [h]
  rcases hx with hx | hx <;> rw [hx] <;> rfl

/-- **C53** is false: with 65537 fonts, two different fonts get the same 16-bit font id and so the same style id. -/
theorem C53_violated : ¬ C53_claim := by
  intro hc
  obtain ⟨st, h2⟩ := C53_second
  have := hc ⟨false⟩ C53_hash C53_full C53_one C53_new C53_mid 0 [] st 0 ?_ ?_ C53_first h2 rfl
  · have := this.1.1
    revert this; decide
  · refine ⟨C53_inject _ (Or.inl rfl), ?_, ?_, ?_⟩
    · unfold Injects; decide
    · unfold Injects; decide
    · intro _ _ _ _ y hy; cases hy
  · refine ⟨C53_inject _ (Or.inr rfl), ?_, ?_, ?_⟩
    · change Injects C53_hash.fill [_, _]; unfold Injects; decide
    · change Injects C53_hash.border [_, _]; unfold Injects; decide
    · intro nf n a hn y hy _
      cases hn
      have hy' : y = C53_xf := List.mem_singleton.mp hy
      rw [hy']
      exact (C53_final C53_mid C53_new (C53_requested C53_mid C53_new rfl rfl rfl (Or.inr rfl)) (Or.inr rfl)).symm

/-- Hypotheses can be met: two requests for different looks after each other. -/
example : ∃ st1 id1, getStyleId ⟨false⟩ demoHash newStyles bigBold = .ok (st1, id1) ∧ Room st1 ∧ ClashFree ⟨false⟩ demoHash st1 { bold := true } ∧
    (getStyleId ⟨false⟩ demoHash st1 { bold := true }).toOption.map Prod.snd ≠ some id1 := by
  refine ⟨_, _, rfl, ?_, ⟨?_, ?_, ?_, ?_⟩, ?_⟩
  · unfold Room; decide +kernel
  · unfold Injects; decide +kernel
  · unfold Injects; decide +kernel
  · unfold Injects; decide +kernel
  · intro nf n a h
    cases h
    decide +kernel
  · decide +kernel

/-! ## C54 -/

def C54_claim : Prop :=
  ∀ b hs st s st' id, Room st → ClashFree b hs st s → getStyleId b hs st s = .ok (st', id) → FormattedAs st' id s

/-- **C54**, for every state: a built-in format other than General is never applied, now or later. -/
theorem C54_violated_builtin (b : Build) (hs : Hashes) (st st' : Styles) (s : StyleSetting) (id : Nat) (later : List StyleSetting)
    (hr : st.xfs.length < 4294967296) (hc : ClashFree b hs st s) (h : getStyleId b hs st s = .ok (st', id))
    (hs1 : s.numberFormat ≠ .custom) (hs2 : s.numberFormat ≠ .general) : ¬ FormattedAs (requests b hs st' later) id s := by
  have p : numFmtPart b hs st.numFmts s = .ok (st.numFmts, 0, 0) := by unfold numFmtPart; rw [if_neg hs1]
  obtain ⟨e1, _⟩ := request_xf hr p (hc.2.2.2 _ _ _ p) h
  have e2 := (requests_extends b hs later st').xfs _ _ e1
  rintro ⟨xf, h1, h2⟩
  rw [e2] at h1
  cases h1
  rw [if_neg hs1] at h2
  have h3 : (finalXf hs st s 0 0).numFmtId = 0 := rfl
  rw [h3] at h2
  revert h2 hs1 hs2
  cases s.numberFormat <;> decide +kernel

/-- No table entry has an id in the range for custom formats. -/
def NoCustomIds (st : Styles) : Prop := ∀ f ∈ st.numFmts, f.id < 164

theorem noCustomIds_request {b : Build} {hs : Hashes} {st st' : Styles} {s : StyleSetting} {id : Nat} (hn : NoCustomIds st)
    (h : getStyleId b hs st s = .ok (st', id)) : NoCustomIds st' := by
  obtain ⟨nf, n, a, p, h1, _⟩ := getStyleId_ok h
  intro f hf
  rw [h1] at hf
  unfold numFmtPart at p
  split at p
  · split at p
    · cases p
    · split at p
      · split at p
        · cases p
        · cases p; exact hn f hf
      · cases p
        rcases List.mem_append.mp hf with hf | hf
        · exact hn f hf
        · rw [List.mem_singleton.mp hf]; simp [customFmt]
  · cases p; exact hn f hf

theorem noCustomIds_requests (b : Build) (hs : Hashes) (reqs : List StyleSetting) (st : Styles) (hn : NoCustomIds st) : NoCustomIds (requests b hs st reqs) := by
  induction reqs generalizing st with
  | nil => exact hn
  | cons s rest ih =>
    rw [requests]
    split
    · exact ih st hn
    · rename_i h; exact ih _ (noCustomIds_request hn h)

/-- **C54**, for every history of a new workbook: a custom format is never applied either, because the table entries get id 0. -/
theorem C54_violated_custom (b : Build) (hs : Hashes) (before : List StyleSetting) (s : StyleSetting) (id : Nat) (hs1 : s.numberFormat = .custom) :
    ¬ FormattedAs (requests b hs newStyles before) id s := by
  rintro ⟨xf, _, h2⟩
  rw [if_pos hs1] at h2
  obtain ⟨h3, f, hf, h4, _⟩ := h2
  have := noCustomIds_requests b hs before newStyles (by intro f hf; cases hf) f hf
  omega

/-- **C54** is false, e.g. for percentages in a new workbook. -/
theorem C54_violated : ¬ C54_claim := by
  intro hc
  have hcf : ClashFree ⟨false⟩ demoHash newStyles { numberFormat := .percentage } := by
    refine ⟨?_, ?_, ?_, ?_⟩
    · unfold Injects; decide +kernel
    · unfold Injects; decide +kernel
    · unfold Injects; decide +kernel
    · intro nf n a h
      cases h
      decide +kernel
  exact C54_violated_builtin ⟨false⟩ demoHash newStyles _ { numberFormat := .percentage } _ [] (by decide) hcf rfl (by decide) (by decide)
    (hc ⟨false⟩ demoHash newStyles _ _ _ (by unfold Room; decide) hcf rfl)

/-- **C54 (partial).** Only the General format is applied as asked. -/
theorem C54_partial (b : Build) (hs : Hashes) (st st' : Styles) (s : StyleSetting) (id : Nat) (later : List StyleSetting)
    (hr : st.xfs.length < 4294967296) (hc : ClashFree b hs st s) (h : getStyleId b hs st s = .ok (st', id)) (hg : s.numberFormat = .general) :
    FormattedAs (requests b hs st' later) id s := by
  have p : numFmtPart b hs st.numFmts s = .ok (st.numFmts, 0, 0) := by unfold numFmtPart; rw [if_neg (by rw [hg]; decide)]
  obtain ⟨e1, _⟩ := request_xf hr p (hc.2.2.2 _ _ _ p) h
  refine ⟨_, (requests_extends b hs later st').xfs _ _ e1, ?_⟩
  rw [if_neg (by rw [hg]; decide), hg]
  change toString 0 = _
  decide +kernel

/-! ## C55 -/

def C55_claim : Prop := ∀ env st st' x, StylesSaveable env st x → StylesSavedLoaded env st x st' → st' = st

theorem stylesSavedLoaded_iff {env : Env} {st st' : Styles} {x : XDoc} (h : StylesSaveable env st x) (hs : StylesSavedLoaded env st x st') :
    st' = reloadStyles st := by
  obtain ⟨t, a, cs, hw, hc⟩ := h.doc
  obtain ⟨x', d, h1, h2, h3⟩ := hs
  obtain ⟨d', h4, _, h5⟩ := reload_styles env h.stamp h.fits hw hc h1
  rw [h2] at h4
  cases h4
  rw [h3] at h5
  exact Except.ok.inj h5

/-- Saving and loading always works. -/
theorem stylesSavedLoaded_total {env : Env} {st : Styles} {x : XDoc} (h : StylesSaveable env st x) : StylesSavedLoaded env st x (reloadStyles st) := by
  obtain ⟨t, a, cs, hw, hc⟩ := h.doc
  have : ∃ x', st.save x = .ok x' := by unfold Styles.save; rw [hw.isRoot]; exact ⟨_, rfl⟩
  obtain ⟨x', hx'⟩ := this
  obtain ⟨d, h4, _, h5⟩ := reload_styles env h.stamp h.fits hw hc hx'
  exact ⟨x', d, hx', h4, h5⟩

/-- The style document of a new workbook after loading. -/
def emptyStyleDoc : XDoc := (Styles.load styleDoc).2

/-- The template holds the tables of `newStyles`. -/
example : (Styles.load styleDoc).1.toOption = some newStyles := by decide +kernel

theorem emptyStyleDoc_wf : ∃ cs, WfDoc ⟨fun _ => false⟩ emptyStyleDoc (.mk "styleSheet" (some []) none cs) ∧ ∀ n ∈ cs, n.tag ∉ styleTags := by
  have e : emptyStyleDoc = { ns := [(defaultNsKey, mainNs)], root := some (.mk "styleSheet" (some []) none
      [.mk "cellStyles" (some [("count", "1")]) none [.mk "cellStyle" (some [("name", "Normal"), ("xfId", "0"), ("builtinId", "0")]) none []],
       .mk "dxfs" (some [("count", "0")]) none [],
       .mk "tableStyles" (some [("count", "0"), ("defaultTableStyle", "TableStyleMedium2"), ("defaultPivotStyle", "PivotStyleLight16")]) none []]) } := by
    decide +kernel
  rw [e]
  refine ⟨_, ⟨rfl, ?_, ?_, ?_⟩, ?_⟩
  · refine wfNode_attrs (by decide +kernel) (by decide +kernel) (by decide +kernel) ⟨?_, ?_, ?_, trivial⟩
    · exact wfNode_attrs (by decide +kernel) (by decide +kernel) (by decide +kernel)
        ⟨wfNode_attrs (by decide +kernel) (by decide +kernel) (by decide +kernel) trivial, trivial⟩
    · exact wfNode_attrs (by decide +kernel) (by decide +kernel) (by decide +kernel) trivial
    · exact wfNode_attrs (by decide +kernel) (by decide +kernel) (by decide +kernel) trivial
  · exact (wfDoc_template (u := ⟨fun _ => false⟩) (tag := "styleSheet") (uri := mainNs) (by decide +kernel) (by decide +kernel)).ns
  · exact (wfDoc_template (u := ⟨fun _ => false⟩) (tag := "styleSheet") (uri := mainNs) (by decide +kernel) (by decide +kernel)).uris
  · decide +kernel

def C55_env : Env := { build := ⟨false⟩, uni := ⟨fun _ => false⟩, stamp := [] }

theorem C55_saveable {st : Styles} (h : StylesFit st) : StylesSaveable C55_env st emptyStyleDoc := by
  obtain ⟨cs, h1, h2⟩ := emptyStyleDoc_wf
  exact ⟨(fun h => by cases h), h, _, _, cs, h1, h2⟩

/-- A new workbook's tables with an italic font. -/
def C55_italic : Styles := { newStyles with fonts := [{ scheme := .minor }, { italic := true }] }

theorem xfFit_default : XfFit {} := by unfold XfFit; decide

theorem C55_italic_fit : StylesFit C55_italic := by
  refine ⟨?_, ?_, ?_, ?_⟩
  · intro f hf; cases hf
  · decide
  · intro x hx; rw [List.mem_singleton.mp hx]; exact xfFit_default
  · intro x hx; rw [List.mem_singleton.mp hx]; exact xfFit_default

/-- **C55** is false: italics are lost. -/
theorem C55_violated : ¬ C55_claim := by
  intro hc
  have := hc C55_env C55_italic _ emptyStyleDoc (C55_saveable C55_italic_fit) (stylesSavedLoaded_total (C55_saveable C55_italic_fit))
  revert this
  decide +kernel

/-- **C55 (partial).** Saving and loading always works and gives `reloadStyles`: the same number of entries in the same positions,
each with the documented losses. Missing for the full claim: see `C55_partial_same`. -/
theorem C55_partial (env : Env) (st : Styles) (x : XDoc) (h : StylesSaveable env st x) (st' : Styles) :
    StylesSavedLoaded env st x st' ↔ st' = reloadStyles st :=
  ⟨stylesSavedLoaded_iff h, fun e => e ▸ stylesSavedLoaded_total h⟩

theorem map_eq_self_iff {α : Type} (f : α → α) (l : List α) : l.map f = l ↔ ∀ x ∈ l, f x = x := by
  induction l with
  | nil => simp
  | cons a as ih => simp [ih]

theorem reloadColor_iff (c : Color) : reloadColor c = c ↔ NoSpecials c.value := by
  cases c with
  | mk k v =>
    simp only [reloadColor, Color.mk.injEq, true_and]
    exact escStr_eq_iff v

theorem map_reloadColor_iff (o : Option Color) : o.map reloadColor = o ↔ ∀ c, o = some c → NoSpecials c.value := by
  cases o with
  | none => simp
  | some c => simp [reloadColor_iff]

theorem reloadSide_iff (s : BorderSide) : reloadSide s = s ↔ SideKept s := by
  unfold reloadSide SideKept
  cases s with
  | mk c k =>
    by_cases hk : k = .none
    · subst hk
      simp only [if_pos, forall_const, BorderSide.mk.injEq, and_true]
      constructor
      · intro h; rw [← h]; simp
      · intro h; exact h.1.symm
    · simp only [if_neg hk, BorderSide.mk.injEq, and_true, map_reloadColor_iff]
      simp [hk]

theorem flag01_iff (n : Nat) : flag01 n = n ↔ n ≤ 1 := by
  unfold flag01
  split <;> omega

/-- **C55 (partial).** The tables come back as they were exactly if nothing in them is lost. -/
theorem C55_partial_same (env : Env) (st st' : Styles) (x : XDoc) (h : StylesSaveable env st x) (hs : StylesSavedLoaded env st x st') :
    st' = st ↔ Lossless st := by
  rw [stylesSavedLoaded_iff h hs]
  have h1 : (∀ f ∈ st.numFmts, reloadNumFmt f = f) ↔ ∀ f ∈ st.numFmts, f.kind = .general ∧ NoSpecials f.code := by
    refine forall_congr' fun f => forall_congr' fun _ => ?_
    cases f with
    | mk i k c =>
      simp only [reloadNumFmt, NumFmt.mk.injEq, true_and]
      rw [show (attrReload c = c) = (escStr c = c) from rfl, escStr_eq_iff]
      constructor
      · rintro ⟨rfl, h⟩; exact ⟨rfl, h⟩
      · rintro ⟨rfl, h⟩; exact ⟨rfl, h⟩
  have h2 : (∀ f ∈ st.fonts, reloadFont f = f) ↔ ∀ f ∈ st.fonts, f.italic = false ∧ f.underline = false ∧ NoSpecials f.name ∧ NoSpecials f.color.value := by
    refine forall_congr' fun f => forall_congr' fun _ => ?_
    cases f with
    | mk a b c d e f g i u =>
      simp only [reloadFont, Font.mk.injEq, true_and, reloadColor_iff]
      rw [show (attrReload a = a) = (escStr a = a) from rfl, escStr_eq_iff]
      constructor
      · rintro ⟨p, q, r, s⟩; exact ⟨r.symm, s.symm, p, q⟩
      · rintro ⟨p, q, r, s⟩; exact ⟨r, s, p.symm, q.symm⟩
  have h3 : (∀ f ∈ st.fills, reloadFill f = f) ↔ ∀ f ∈ st.fills, (∀ c, f.background = some c → NoSpecials c.value) ∧ ∀ c, f.foreground = some c → NoSpecials c.value := by
    refine forall_congr' fun f => forall_congr' fun _ => ?_
    cases f with
    | mk p b f => simp only [reloadFill, Fill.mk.injEq, true_and, map_reloadColor_iff]
  have h4 : (∀ f ∈ st.borders, reloadBorder f = f) ↔ ∀ x ∈ st.borders, x.id = 0 ∧ SideKept x.left ∧ SideKept x.right ∧ SideKept x.top ∧ SideKept x.bottom ∧ SideKept x.diagonal := by
    refine forall_congr' fun f => forall_congr' fun _ => ?_
    cases f with
    | mk i b l r t d =>
      simp only [reloadBorder, Border.mk.injEq, reloadSide_iff]
      constructor
      · rintro ⟨p, q, r, s, t, u⟩; exact ⟨p.symm, r, s, t, q, u⟩
      · rintro ⟨p, q, r, s, t, u⟩; exact ⟨p.symm, t, q, r, s, u⟩
  have h5 : (∀ f ∈ st.styleXfs, reloadXf false f = f) ↔ ∀ x ∈ st.styleXfs, x.formatId = 0 ∧ x.applyFont ≤ 1 ∧ x.applyAlignment ≤ 1 ∧ x.applyFill ≤ 1 ∧ x.applyBorder ≤ 1 ∧
    x.applyNumFmt ≤ 1 ∧ x.applyProtection ≤ 1 ∧ x.wrap ≤ 1 := by
    refine forall_congr' fun f => forall_congr' fun _ => ?_
    cases f
    simp only [reloadXf, Xf.mk.injEq, true_and, and_true, flag01_iff, Bool.false_eq_true, if_false]
    constructor
    · rintro ⟨a, b⟩; exact ⟨a.symm, b⟩
    · rintro ⟨a, b⟩; exact ⟨a.symm, b⟩
  have h6 : (∀ f ∈ st.xfs, reloadXf true f = f) ↔ ∀ x ∈ st.xfs, x.applyFont ≤ 1 ∧ x.applyAlignment ≤ 1 ∧ x.applyFill ≤ 1 ∧ x.applyBorder ≤ 1 ∧
    x.applyNumFmt ≤ 1 ∧ x.applyProtection ≤ 1 ∧ x.wrap ≤ 1 := by
    refine forall_congr' fun f => forall_congr' fun _ => ?_
    cases f
    simp only [reloadXf, Xf.mk.injEq, true_and, and_true, flag01_iff, if_true]
  have : reloadStyles st = st ↔ (∀ f ∈ st.numFmts, reloadNumFmt f = f) ∧ (∀ f ∈ st.fonts, reloadFont f = f) ∧ (∀ f ∈ st.fills, reloadFill f = f) ∧
      (∀ f ∈ st.borders, reloadBorder f = f) ∧ (∀ f ∈ st.styleXfs, reloadXf false f = f) ∧ (∀ f ∈ st.xfs, reloadXf true f = f) := by
    cases st
    simp only [reloadStyles, Styles.mk.injEq, map_eq_self_iff]
  rw [this, h1, h2, h3, h4, h5, h6]
  exact ⟨fun ⟨a, b, c, d, e, f⟩ => ⟨a, b, c, d, e, f⟩, fun ⟨a, b, c, d, e, f⟩ => ⟨a, b, c, d, e, f⟩⟩

/-- **C55 (partial).** A style id still looks as asked after saving and loading if nothing asked for is lost in the file. -/
theorem C55_partial_look (env : Env) (st st' : Styles) (x : XDoc) (h : StylesSaveable env st x) (hs : StylesSavedLoaded env st x st')
    (id : Nat) (s : StyleSetting) (hl : LooksAs st id s) (hp : PlainLook s) : LooksAs st' id s := by
  rw [stylesSavedLoaded_iff h hs]
  obtain ⟨xf, font, fill, border, h1, h2, h3, h4, ⟨f1, f2, f3, f4, f5, f6, f7⟩, ⟨g1, g2, g3⟩, ⟨k1, k2, k3, k4, k5⟩, l1, l2, l3⟩ := hl
  obtain ⟨p1, p2, p3, p4, p5, p6, p7, p8, p9, p10, p11⟩ := hp
  have key : ∀ (o : Option Color) (w : Option String), o.map Color.value = w → (∀ v, w = some v → NoSpecials v) → (o.map reloadColor).map Color.value = w := by
    intro o w ho hw
    cases o with
    | none => exact ho
    | some c =>
      simp only [Option.map_some] at ho ⊢
      rw [← ho]
      have := (reloadColor_iff c).mpr (hw c.value ho.symm)
      rw [this]
  refine ⟨reloadXf true xf, reloadFont font, reloadFill fill, reloadBorder border, ?_, ?_, ?_, ?_, ?_, ?_, ?_, l1, l2, ?_⟩
  · simp [reloadStyles, h1]
  · simp [reloadStyles, reloadXf, h2]
  · simp [reloadStyles, reloadXf, h3]
  · simp [reloadStyles, reloadXf, h4]
  · refine ⟨?_, f2, ?_, f4, p1.symm, p2.symm, f7⟩
    · change escStr font.name = _
      rw [f1]; exact (escStr_eq_iff _).mpr p3
    · change reloadColor font.color = _
      rw [f3]; exact (reloadColor_iff _).mpr p4
  · exact ⟨g1, key _ _ g2 p5, key _ _ g3 p6⟩
  · refine ⟨?_, ?_, ?_, ?_, ?_⟩
    · change reloadSide border.left = _; rw [k1]; exact (reloadSide_iff _).mpr p7
    · change reloadSide border.right = _; rw [k2]; exact (reloadSide_iff _).mpr p8
    · change reloadSide border.top = _; rw [k3]; exact (reloadSide_iff _).mpr p9
    · change reloadSide border.bottom = _; rw [k4]; exact (reloadSide_iff _).mpr p10
    · change reloadSide border.diagonal = _; rw [k5]; exact (reloadSide_iff _).mpr p11
  · rw [← l3]
    change flag01 xf.wrap = 1 ↔ _
    unfold flag01
    split <;> simp_all

/-- Hypotheses can be met: the big bold centred style. -/
example : ∃ st id, getStyleId ⟨false⟩ demoHash newStyles bigBold = .ok (st, id) ∧ StylesSaveable C55_env st emptyStyleDoc ∧ PlainLook bigBold := by
  refine ⟨_, _, rfl, C55_saveable ⟨?_, ?_, ?_, ?_⟩, ?_⟩
  · decide +kernel
  · decide +kernel
  · unfold XfFit; decide +kernel
  · unfold XfFit; decide +kernel
  · refine ⟨rfl, rfl, by unfold NoSpecials; decide +kernel, by unfold NoSpecials; decide +kernel, ?_, ?_, ?_, ?_, ?_, ?_, ?_⟩
    · intro v hv; cases hv; unfold NoSpecials; decide +kernel
    · intro v hv; cases hv
    all_goals exact ⟨fun _ => rfl, fun c hc => by cases hc⟩

/-! ## C62 -/

/-- The fill of a cell format is painted: its pattern is not `none`. -/
def Painted (st : Styles) (id : Nat) : Prop := ∃ xf fill, st.xfs[id]? = some xf ∧ st.fills[xf.fillId]? = some fill ∧ fill.pattern ≠ .none

/-- Settings as users of the crate can make them: the pattern is not accessible to them. -/
def PublicSetting (s : StyleSetting) : Prop := s.pattern = .none

def C62_claim : Prop :=
  ∀ b hs st s st' id, PublicSetting s → Room st → ClashFree b hs st s → getStyleId b hs st s = .ok (st', id) →
    s.background ≠ none ∨ s.foreground ≠ none → Painted st' id

/-- **C62**, for every setting and state: a fill colour asked for is never painted. -/
theorem C62_violated_always (b : Build) (hs : Hashes) (st st' : Styles) (s : StyleSetting) (id : Nat) (later : List StyleSetting) (hp : PublicSetting s)
    (hr : Room st) (hc : ClashFree b hs st s) (h : getStyleId b hs st s = .ok (st', id)) : ¬ Painted (requests b hs st' later) id := by
  obtain ⟨xf, font, fill, border, h1, h2, h3, _, _, g, _⟩ := C51_partial b hs st st' s id later hr hc h
  rintro ⟨xf', fill', e1, e2, e3⟩
  rw [h1] at e1
  cases e1
  rw [h3] at e2
  cases e2
  exact e3 (g.1.trans hp)

/-- **C62** is false. -/
theorem C62_violated : ¬ C62_claim := by
  intro hc
  have hcf : ClashFree ⟨false⟩ demoHash newStyles { background := some "FF0000" } := by
    refine ⟨?_, ?_, ?_, ?_⟩
    · unfold Injects; decide +kernel
    · unfold Injects; decide +kernel
    · unfold Injects; decide +kernel
    · intro nf n a h
      cases h
      decide +kernel
  exact C62_violated_always ⟨false⟩ demoHash newStyles _ { background := some "FF0000" } _ [] rfl (by unfold Room; decide) hcf rfl
    (hc ⟨false⟩ demoHash newStyles { background := some "FF0000" } _ _ rfl (by unfold Room; decide) hcf rfl (Or.inl (by decide)))

/-! ## C63 -/

def C63_claim : Prop := ∀ n : Node, (∀ c ∈ n.children, c.tag ∈ fontTags ∧ ∀ v, c.attr? "val" = some v → c.tag = "sz" ∨ c.tag = "family" → (parseUInt u8Max v).isSome = true) →
  ∃ f, loadFont n = .ok f

/-- **C63** is false: a font with `strike` cannot be loaded, and with it the workbook. -/
theorem C63_violated : ¬ C63_claim := by
  intro hc
  obtain ⟨f, hf⟩ := hc (.mk "font" none none [.mk "strike" none none []]) (by decide +kernel)
  cases hf

/-- Font children the library understands. -/
def KnownFontItem (c : Node) : Prop :=
  c.tag ∈ ["b", "u", "i", "color", "name", "scheme"] ∨
  (c.tag = "sz" ∧ ∀ v, c.attr? "val" = some v → (parseUInt u8Max v).isSome = true) ∨
  (c.tag = "family" ∧ ∀ v, c.attr? "val" = some v → (parseUInt u32Max v).isSome = true)

theorem loadFontItem_iff (f : Font) (c : Node) : (∃ g, loadFontItem f c = .ok g) ↔ KnownFontItem c := by
  unfold loadFontItem KnownFontItem
  by_cases h1 : c.tag = "b"
  · simp [h1]
  by_cases h2 : c.tag = "u"
  · simp [h2]
  by_cases h3 : c.tag = "i"
  · simp [h3]
  by_cases h4 : c.tag = "sz"
  · simp only [h4, if_neg (show "sz" ≠ "b" by decide), if_neg (show "sz" ≠ "u" by decide), if_neg (show "sz" ≠ "i" by decide), if_true]
    cases c.attr? "val" with
    | none => simp
    | some v => cases h : parseUInt u8Max v <;> simp [h]
  by_cases h5 : c.tag = "color"
  · simp [h5]
  by_cases h6 : c.tag = "name"
  · simp [h6]
  by_cases h7 : c.tag = "family"
  · simp only [h7, if_neg (show "family" ≠ "b" by decide), if_neg (show "family" ≠ "u" by decide), if_neg (show "family" ≠ "i" by decide),
      if_neg (show "family" ≠ "sz" by decide), if_neg (show "family" ≠ "color" by decide), if_neg (show "family" ≠ "name" by decide), if_true]
    cases c.attr? "val" with
    | none => simp
    | some v => cases h : parseUInt u32Max v <;> simp [h]
  by_cases h8 : c.tag = "scheme"
  · simp [h8]
  simp [h1, h2, h3, h4, h5, h6, h7, h8]

/-- **C63 (partial).** A font loads exactly if all its children are known ones with numbers in range. -/
theorem C63_partial (n : Node) : (∃ f, loadFont n = .ok f) ↔ ∀ c ∈ n.children, KnownFontItem c := by
  unfold loadFont
  have : ∀ (cs : List Node) (f : Font), (∃ g, loadFontItems f cs = .ok g) ↔ ∀ c ∈ cs, KnownFontItem c := by
    intro cs
    induction cs with
    | nil => intro f; simp [loadFontItems]
    | cons c cs ih =>
      intro f
      rw [loadFontItems]
      cases h : loadFontItem f c with
      | error e =>
        have : ¬ KnownFontItem c := fun hk => by have := (loadFontItem_iff f c).mpr hk; rw [h] at this; obtain ⟨g, hg⟩ := this; cases hg
        simp [this]
      | ok g =>
        have := (loadFontItem_iff f c).mp ⟨g, h⟩
        simp only [List.mem_cons, forall_eq_or_imp, this, true_and]
        exact ih g
  exact this n.children {}

example : ∃ f, loadFont (.mk "font" none none [.mk "b" none none [], .mk "sz" (some [("val", "12")]) none []]) = .ok f :=
  (C63_partial _).mpr (by
    intro c hc
    simp only [Node.children, List.mem_cons, List.not_mem_nil, or_false] at hc
    rcases hc with rfl | rfl
    · exact Or.inl (by simp [Node.tag])
    · refine Or.inr (Or.inl ⟨rfl, ?_⟩)
      intro v hv
      cases hv
      decide +kernel)

/-! ## C64 -/

theorem placeStyles_eq (st : Styles) (cs : List Node) (hc : ∀ n ∈ cs, n.tag ∉ styleTags) :
    placeStyles st cs = [countedNode "numFmts" (st.numFmts.map numFmtNode), countedNode "fonts" (st.fonts.map fontNode),
      countedNode "fills" (st.fills.map fillNode), countedNode "borders" (st.borders.map borderNode),
      countedNode "cellStyleXfs" (st.styleXfs.map (xfNode false)), countedNode "cellXfs" (st.xfs.map (xfNode true))] ++ cs := by
  have hl : ∀ t ∈ styleTags, insertNodeAfter.lastNodeIdx t cs = none := by
    intro t ht
    induction cs with
    | nil => rfl
    | cons c cs ih =>
      rw [insertNodeAfter.lastNodeIdx, ih (fun n hn => hc n (by simp [hn]))]
      simp only
      rw [if_neg]
      intro he
      exact hc c (by simp) (he ▸ ht)
  have h1 := hl "numFmts" (by decide)
  have h2 := hl "fonts" (by decide)
  have h3 := hl "fills" (by decide)
  have h4 := hl "borders" (by decide)
  simp [placeStyles, insertNodeAfter, insertNodeAfter.lastNodeIdx, h1, h2, h3, h4, countedNode, Node.tag]

/-- **C64.** The saved style part has its children in schema order if what else was in it was. -/
theorem C64_order (st : Styles) (x x' : XDoc) (root : Node) (hr : x.root = some root) (hc : ∀ n ∈ root.children, n.tag ∉ styleTags)
    (ho : InOrder styleOrder (root.children.map Node.tag)) (h : st.save x = .ok x') : InOrder styleOrder (x'.rootChildren.map Node.tag) := by
  have hx' : x' = x.mapRootChildren (placeStyles st) := by
    unfold Styles.save at h
    rw [hr] at h
    cases h; rfl
  rw [hx', rootChildren_mapRoot hr]
  have e : x.rootChildren = root.children := by unfold XDoc.rootChildren; rw [hr]
  rw [e, placeStyles_eq st _ hc, List.map_append]
  obtain ⟨idx, hp, hi⟩ := ho
  refine ⟨[0, 1, 2, 3, 4, 5] ++ idx, ?_, ?_⟩
  · rw [List.pairwise_append]
    refine ⟨by decide, hp, ?_⟩
    intro a ha b hb
    have hb6 : 6 ≤ b := by
      have hm : styleOrder[b]? ∈ idx.map (fun i => styleOrder[i]?) := List.mem_map_of_mem hb
      rw [← hi, List.mem_map] at hm
      obtain ⟨t, ht, he⟩ := hm
      obtain ⟨n, hn, rfl⟩ := List.mem_map.mp ht
      have hnt := hc n hn
      rcases Nat.lt_or_ge b 6 with hlt | hge
      · exfalso
        apply hnt
        have : b = 0 ∨ b = 1 ∨ b = 2 ∨ b = 3 ∨ b = 4 ∨ b = 5 := by omega
        rcases this with rfl | rfl | rfl | rfl | rfl | rfl <;>
          (have e2 := Option.some.inj he; rw [e2]; decide)
      · exact hge
    have : a ≤ 5 := by
      simp only [List.mem_cons, List.not_mem_nil, or_false] at ha
      omega
    omega
  · rw [List.map_append, List.map_append, ← hi]
    rfl

/-- The document of a new workbook meets the hypotheses. -/
example : ∃ root x', emptyStyleDoc.root = some root ∧ (∀ n ∈ root.children, n.tag ∉ styleTags) ∧ InOrder styleOrder (root.children.map Node.tag) ∧
    newStyles.save emptyStyleDoc = .ok x' := by
  refine ⟨_, _, rfl, by decide +kernel, ⟨[6, 7, 8], by decide, by decide +kernel⟩, rfl⟩

/-! ## C56 -/

/-- **C56.** For every enumeration, reading the text a value is written as gives the value back, so different values are written
differently. -/
theorem C56_enumerations :
    (∀ x, NumFmtKind.parse x.text = x) ∧ (∀ x, FontScheme.parse x.text = x) ∧ (∀ x, PatternType.parse x.text = x) ∧
    (∀ x, BorderKind.parse x.text = x) ∧ (∀ x, ColorKind.parse x.text = x) ∧ (∀ x, HAlign.parse x.text = x) ∧
    (∀ x, VAlign.parse x.text = x) ∧ (∀ x, CellType.parse x.text = x) :=
  ⟨numFmtKind_parse_text, fontScheme_parse_text, patternType_parse_text, borderKind_parse_text, colorKind_parse_text,
    hAlign_parse_text, vAlign_parse_text, parse_text⟩

/-- **C56.** Different values are written differently. -/
theorem C56_distinct :
    (∀ x y : NumFmtKind, x.text = y.text → x = y) ∧ (∀ x y : FontScheme, x.text = y.text → x = y) ∧
    (∀ x y : PatternType, x.text = y.text → x = y) ∧ (∀ x y : BorderKind, x.text = y.text → x = y) ∧
    (∀ x y : ColorKind, x.text = y.text → x = y) ∧ (∀ x y : HAlign, x.text = y.text → x = y) ∧
    (∀ x y : VAlign, x.text = y.text → x = y) ∧ (∀ x y : CellType, x.text = y.text → x = y) := by
  obtain ⟨h1, h2, h3, h4, h5, h6, h7, h8⟩ := C56_enumerations
  exact ⟨fun x y h => by rw [← h1 x, h, h1], fun x y h => by rw [← h2 x, h, h2], fun x y h => by rw [← h3 x, h, h3],
    fun x y h => by rw [← h4 x, h, h4], fun x y h => by rw [← h5 x, h, h5], fun x y h => by rw [← h6 x, h, h6],
    fun x y h => by rw [← h7 x, h, h7], fun x y h => by rw [← h8 x, h, h8]⟩

end Oxml
