import Verif.Proofs.TypesWellFormed
import Verif.Props.AllWellFormed
import Verif.Props.WellFormedFile
/-!
# C115: the list of content types is well-formed XML after working on a workbook other programs wrote
-/
namespace Oxml
open Spec

variable {env : Env} {theme : XDoc} {z z' : Zip} {ops : List WbOp} {x : Excel} {s : Session} {now : String} {exts : List (String × String)}

/-- The names of the workbook's parts. -/
theorem own_names_x {p : Pkg} {o1 o2 o3 o4 o5 o6 o7 o8 : OpenDoc} {r1 r2 : List Rel} (hb : BookOpen env theme p x o1 o2 o3 o4 o5 o6 o7 o8 r1 r2)
    (h1 : DeepDoc o1.doc) (h4 : DeepDoc o4.doc) : ∀ n ∈ ownParts x, XmlChars n := by
  obtain ⟨root2, t1, t2⟩ := hb.rootTargets
  have k1 := targetByType_x (xlit (by decide +kernel)) (relsX_load h1.children hb.rootLoad) (contentX_of (by decide +kernel)) optX_none optX_none t1
  have k2 := targetByType_x (xlit (by decide +kernel)) k1.2 (contentX_of (by decide +kernel)) optX_none optX_none t2
  have hpath : XmlChars x.rels.path := by
    obtain ⟨dir, e1, e2⟩ := hb.relsPath
    rw [e2]
    exact xml_append (dirOf_x k2.1 e1) (xlit (by decide +kernel))
  obtain ⟨rels2, rels3, rels4, u1, u2, u3, u4⟩ := hb.targets
  have q1 := targetByType_x hpath (relsX_load h4.children hb.relLoad) (contentX_of (by decide +kernel)) (optX_some (xlit (by decide +kernel))) optX_none u1
  have q2 := targetByType_x hpath q1.2 (contentX_of (by decide +kernel)) optX_none optX_none u2
  have q3 := targetByType_x hpath q2.2 (contentX_of (by decide +kernel)) optX_none optX_none u3
  have q4 := targetByType_x hpath q3.2 (contentX_of (by decide +kernel)) optX_none optX_none u4
  intro n hn
  simp only [ownParts, List.mem_cons, List.not_mem_nil, or_false] at hn
  rcases hn with rfl | rfl | rfl | rfl | rfl | rfl | rfl | rfl
  · rw [hb.rootPath]; exact xlit (by decide +kernel)
  · exact k1.1
  · exact k2.1
  · exact hpath
  · exact q1.1
  · exact q2.1
  · exact q3.1
  · exact q4.1

/-- **C115 (partial).** As C114, for files whose part names have characters of XML only: the saved file has a list of content types, and it is well-formed XML. So with C114, every
part of the saved file is as it was in the opened file or is well-formed XML.
Missing: CDATA sections, empty root elements, names and namespaces that are not plain. -/
theorem C115_partial (hst : env.build.release = true → StampOk env.stamp) (hsx : env.build.release = true → StampXml env.stamp) (he : PrintsF32 env) {root : Node}
    (hroot : theme.root = some root) (htheme : XmlReady (releaseNs env.build theme.ns) root) (hz : (akeys z).Nodup) (hr : RanOn env theme z ops x s)
    (hnames : ∀ n ∈ akeys z, XmlChars n) (hw : ∀ n, zipDoc env z n ≠ none → WellWritten env z n) (ho : ∀ op ∈ ops, ∀ t ∈ givenTexts op, XmlChars t) (hnow : XmlChars now)
    (hx : ∀ p, s.x.saved env now = .ok p → HashSetOrder p.extPairs exts) (hs : s.x.toZip env now exts = .ok z') :
    (∃ text, aget contentTypesName z' = some text ∧ WellFormed text) ∧ ∀ part ∈ z', aget part.1 z = some part.2 ∨ WellFormed part.2 := by
  have hct0 : ∀ c d, aget contentTypesName z = some c → readXml env.uni c = .ok d → DeepDoc d.toXDoc := by
    intro c d hc hd
    have : zipDoc env z contentTypesName ≠ none := by unfold zipDoc; rw [hc]; simp only [hd]; simp
    obtain ⟨d', t, a, cs, g1, g2, g3, g4, g5⟩ := wellWritten_read (hw _ this) hc
    rw [hd] at g1
    cases g1
    exact ⟨t, a, cs, g2, g3, g4, g5⟩
  obtain ⟨-, -, -, -, -, -, -, -, -, -, -, -, -, -, -, -, -, -, -, -, -, -, -, -, -, -, -, hct⟩ := saved_base hz hr hs
  have hall := C114_partial hst hsx he hroot htheme hz hr (fun n _ => hw n) ho hnow hs
  obtain ⟨hof, hrun⟩ := hr
  obtain ⟨p, o1, o2, o3, o4, o5, o6, o7, o8, r1, r2, hp, hb⟩ := openFile_book hz hof
  obtain ⟨hown, A⟩ := opened_docs hb hrun
  obtain ⟨q, hsv, hz'⟩ := mem_zip hs
  obtain ⟨d1, d2, d3, d4, d6, d7, d8, keep, keep0, W, S⟩ := saved_all A hsv
  have hm := metaX_load hnames hct0 hp
  have n1 : x.rootRels.path ∈ ownParts x := by simp [ownParts]
  have n2 : x.core.path ∈ ownParts x := by simp [ownParts]
  have n3 : x.book.path ∈ ownParts x := by simp [ownParts]
  have n4 : x.rels.path ∈ ownParts x := by simp [ownParts]
  have n5 : x.theme.path ∈ ownParts x := by simp [ownParts]
  have n6 : x.strings.path ∈ ownParts x := by simp [ownParts]
  have n7 : x.chain.path ∈ ownParts x := by simp [ownParts]
  have n8 : x.styles.path ∈ ownParts x := by simp [ownParts]
  have hroot' : "_rels/.rels" ≠ contentTypesName := by decide +kernel
  have sw : ∀ {n : String} {t : Template} {o : OpenDoc}, n ≠ contentTypesName → Source env p t n o → DeepDoc t.doc → DeepDoc o.doc := fun hn h ht =>
    source_deep hp hn h (source_written hp hn h (fun n _ => hw n)) ht
  have c1 := sw hroot' hb.rootSource deepDoc_rels
  have c3 := sw (hct _ n3) hb.bookSource deepDoc_book
  have c4 := sw (hct _ n4) hb.relSource deepDoc_rels
  have c7 := sw (hct _ n7) hb.calcSource deepDoc_calc
  have c8 := sw (hct _ n8) hb.styleSource deepDoc_styles
  have hon := own_names_x hb c1 c4
  have m1 := source_meta hm hb.rootSource (partX_template (by decide +kernel) (by rw [← hb.rootPath]; exact hon _ n1))
  rw [← hb.rootPath] at m1
  have m2 := source_meta hm hb.coreSource (partX_template (by decide +kernel) (hon _ n2))
  have m3 := source_meta hm hb.bookSource (partX_template (by decide +kernel) (hon _ n3))
  have m4 := source_meta hm hb.relSource (partX_template (by decide +kernel) (hon _ n4))
  have m5 : PartX x.theme.path o5.ctype o5.ext o5.extType := source_meta hm hb.themeSource
    (partX_template (t := themeTemplate { ns := [], root := none }) (by decide +kernel) (hon _ n5))
  have m6 := source_meta hm hb.strSource (partX_template (by decide +kernel) (hon _ n6))
  have m7 := source_meta hm hb.calcSource (partX_template (by decide +kernel) (hon _ n7))
  have m8 := source_meta hm hb.styleSource (partX_template (by decide +kernel) (hon _ n8))
  have h0 : MetaX x.pkg := by
    refine ⟨fun n e ha => ?_, fun n o ha => ?_⟩
    · by_cases hn : n ∈ ownParts x
      · exfalso
        refine hb.inv.disjoint n ?_ (mem_akeys_of_aget ha)
        simp only [ownParts, List.mem_cons, List.not_mem_nil, or_false] at hn
        rcases hn with rfl | rfl | rfl | rfl | rfl | rfl | rfl | rfl
        · rw [hb.rootPath]; exact mem_akeys_of_aget hb.rootOpen
        · exact mem_akeys_of_aget hb.coreOpen
        · exact mem_akeys_of_aget hb.bookOpen
        · exact mem_akeys_of_aget hb.relOpen
        · exact mem_akeys_of_aget hb.themeOpen
        · exact mem_akeys_of_aget hb.strOpen
        · exact mem_akeys_of_aget hb.calcOpen
        · exact mem_akeys_of_aget hb.styleOpen
      · rw [hb.others n hn] at ha
        exact hm.arch n e ha
    · by_cases hn : n ∈ ownParts x
      · simp only [ownParts, List.mem_cons, List.not_mem_nil, or_false] at hn
        rcases hn with rfl | rfl | rfl | rfl | rfl | rfl | rfl | rfl
        · rw [hb.rootPath, hb.rootOpen] at ha; have ha := Option.some.inj ha; subst ha; exact m1
        · rw [hb.coreOpen] at ha; have ha := Option.some.inj ha; subst ha; exact m2
        · rw [hb.bookOpen] at ha; have ha := Option.some.inj ha; subst ha; exact m3
        · rw [hb.relOpen] at ha; have ha := Option.some.inj ha; subst ha; exact m4
        · rw [hb.themeOpen] at ha; have ha := Option.some.inj ha; subst ha; exact m5
        · rw [hb.strOpen] at ha; have ha := Option.some.inj ha; subst ha; exact m6
        · rw [hb.calcOpen] at ha; have ha := Option.some.inj ha; subst ha; exact m7
        · rw [hb.styleOpen] at ha; have ha := Option.some.inj ha; subst ha; exact m8
      · rw [hb.openOnly n hn] at ha; cases ha
  have hM : MetaX s.x.pkg := MetaX.run hrun h0 (opened_x hb c1 c3 c4 c7 c8) ho
  obtain ⟨e1, e2, e3, e4, e5, e6, e7, e8⟩ := own_paths hown
  have hq : ∀ n e, aget n q.archive = some e → PartX n e.ctype e.ext e.extType := by
    intro n e ha
    by_cases hn : n ∈ ownParts x
    · simp only [ownParts, List.mem_cons, List.not_mem_nil, or_false] at hn
      rcases hn with rfl | rfl | rfl | rfl | rfl | rfl | rfl | rfl
      · rw [← e1, S.root] at ha; have ha := Option.some.inj ha; subst ha; exact m1
      · rw [← e2, S.core] at ha; have ha := Option.some.inj ha; subst ha; exact m2
      · rw [← e3, S.book] at ha; have ha := Option.some.inj ha; subst ha; exact m3
      · rw [← e4, S.rels] at ha; have ha := Option.some.inj ha; subst ha; exact m4
      · rw [← e5, S.theme] at ha; have ha := Option.some.inj ha; subst ha; exact m5
      · rw [← e6, S.strings] at ha; have ha := Option.some.inj ha; subst ha; exact m6
      · rw [← e7, S.chain] at ha; have ha := Option.some.inj ha; subst ha; exact m7
      · rw [← e8, S.styles] at ha; have ha := Option.some.inj ha; subst ha; exact m8
    · have hn' : n ∉ ownParts s.x := by rw [ownParts_pairs, hown, ← ownParts_pairs]; exact hn
      rw [S.others n hn'] at ha
      split at ha
      · next o hopen => have ha := Option.some.inj ha; subst ha; exact hM.opened n o hopen
      · exact hM.arch n e ha
  have hwf : WellFormed (renderDoc env.build env.stamp (contentTypesDoc exts q.overrides)) := by
    refine (docX_contentTypes ?_ ?_).wellFormed hsx
    · intro r hr
      obtain ⟨kv, hkv, rfl⟩ := List.mem_map.mp (((hx q hsv).mem r).mp hr)
      have := hq kv.1 kv.2 (aget_of_mem S.inv.archive hkv)
      exact ⟨this.2.2.1, this.2.2.2⟩
    · intro r hr
      obtain ⟨kv, hkv, hr⟩ := List.mem_filterMap.mp hr
      obtain ⟨c, hc, rfl⟩ := Option.map_eq_some_iff.mp hr
      have := hq kv.1 kv.2 (aget_of_mem S.inv.archive hkv)
      exact ⟨xml_append (xlit (by decide +kernel)) this.1, this.2.1 c hc⟩
  have hno : contentTypesName ∉ akeys q.archive := by
    have h := hs
    unfold Excel.toZip at h
    rw [hsv] at h
    exact (toZip_ok h).1
  have hmem : ∀ part ∈ z', part.1 ≠ contentTypesName → aget part.1 z' = some part.2 := by
    intro part hm hne
    rw [hz'] at hm
    rcases List.mem_append.mp hm with hm | hm
    · obtain ⟨kv, hkv, rfl⟩ := List.mem_map.mp hm
      have h := hs
      unfold Excel.toZip at h
      rw [hsv] at h
      rw [toZip_aget h hne, aget_of_mem S.inv.archive hkv]
      rfl
    · rw [List.mem_singleton] at hm
      subst hm
      exact absurd rfl hne
  constructor
  · refine ⟨_, ?_, hwf⟩
    rw [hz', aget_append, aget_map_content, (aget_eq_none_iff _ _).mpr hno]
    simp [aget]
  · intro part hpart
    by_cases hne : part.1 = contentTypesName
    · right
      rw [hz'] at hpart
      rcases List.mem_append.mp hpart with hm | hm
      · obtain ⟨kv, hkv, rfl⟩ := List.mem_map.mp hm
        exact absurd (hne ▸ List.mem_map_of_mem hkv) hno
      · rw [List.mem_singleton] at hm
        subst hm
        exact hwf
    · exact hall part.1 part.2 hne (hmem part hpart hne)

/-! ## Example -/

/-- A list of content types as another program may write it. -/
def fxTypes : List Char :=
  fxTag "Types" [] (fxTag "Default" [("Extension", "xml"), ("ContentType", "x")] [] (fxTag "Default" [("Extension", "png"), ("ContentType", "y")] [] [])) []

/-- What other programs read in it. -/
def fxTypesContent : List Item :=
  [fxItem "Default" [("Extension", "xml"), ("ContentType", "x")] [], fxItem "Default" [("Extension", "png"), ("ContentType", "y")] []]

theorem fxTypes_read : IsDocument fxTypes (.elem "Types".toList [] fxTypesContent) :=
  fxDocument (fxTag_read (kvs := []) (by decide +kernel) (by decide +kernel) (by decide +kernel) (fxTag_read (by decide +kernel) (by decide +kernel) (by decide +kernel) .nil
    (fxTag_read (by decide +kernel) (by decide +kernel) (by decide +kernel) .nil .nil)) .nil)

theorem fxTypes_ok (u : Unicode) : ItemOk u (.elem "Types".toList [] fxTypesContent) := by
  have hn : ItemsOk u [] := by simp [ItemsOk]
  have hc : ∀ {i l}, ItemOk u i → ItemsOk u l → ItemsOk u (i :: l) := fun h1 h2 => by rw [ItemsOk]; exact ⟨h1, h2⟩
  exact fxItem_ok (n := "Types") (kvs := []) (by decide +kernel) (by decide +kernel) (hc (fxItem_ok (by decide +kernel) (by decide +kernel) hn)
    (hc (fxItem_ok (by decide +kernel) (by decide +kernel) hn) hn))

/-- A file with styles and a picture. -/
def fxTypesBook : Zip := [("xl/styles.xml", fxStyles), ("xl/media/image1.png", "PNG".toList), (contentTypesName, fxTypes)]

/-- The extensions of the saved file. -/
def fxTypesExts : List (String × String) :=
  [("xml", "x"), ("png", "y"), ("xml", "application/xml"), ("rels", "application/vnd.openxmlformats-package.relationships+xml")]

/-- The file, the calls and what comes out. -/
def fxTypesAll : Bool :=
  match Excel.openFile exEnv exTheme fxTypesBook with
  | .error _ => false
  | .ok x =>
    match Session.run exEnv ⟨x, []⟩ fxAllOps with
    | .error _ => false
    | .ok s =>
      match s.x.saved exEnv "now" with
      | .error _ => false
      | .ok p => fxTypesExts.all (fun e => p.extPairs.contains e) && p.extPairs.all (fun e => fxTypesExts.contains e) && (p.toZip exEnv fxTypesExts).toOption.isSome

/-- Example for C115_partial. -/
example : ∃ x s z', RanOn exEnv exTheme fxTypesBook fxAllOps x s ∧ s.x.toZip exEnv "now" fxTypesExts = .ok z' ∧
    ∃ text, aget contentTypesName z' = some text ∧ WellFormed text := by
  have h : fxTypesAll = true := by decide +kernel
  unfold fxTypesAll at h
  split at h
  · cases h
  · next x hx =>
    split at h
    · cases h
    · next s hs =>
      split at h
      · cases h
      · next p hp =>
        simp only [Bool.and_eq_true, List.all_eq_true] at h
        obtain ⟨⟨h1, h2⟩, h3⟩ := h
        cases hz' : s.x.toZip exEnv "now" fxTypesExts with
        | error e =>
          unfold Excel.toZip at hz'
          rw [hp] at hz'
          simp only at hz'
          rw [hz'] at h3
          cases h3
        | ok z' =>
          refine ⟨x, s, z', ⟨hx, hs⟩, hz', ?_⟩
          refine (C115_partial (fun h => by cases h) (fun h => by cases h) (fun _ h => ⟨h, rfl⟩) (theme := exTheme) rfl exTheme_ready (by decide +kernel) ⟨hx, hs⟩ ?_ ?_
            (fun op hop t ht => xlit (s := t) (by
              have : (fxAllOps.flatMap givenTexts).all (fun t => t.toList.all (fun x => decide (0x20 ≤ x.toNat ∧ x.toNat < 128))) = true := by decide +kernel
              exact List.all_eq_true.mp this t (List.mem_flatMap.mpr ⟨op, hop, ht⟩))) (xlit (by decide +kernel)) ?_ hz').1
          · intro n hn
            have : (akeys fxTypesBook).all (fun t => t.toList.all (fun x => decide (0x20 ≤ x.toNat ∧ x.toNat < 128))) = true := by decide +kernel
            exact xlit (List.all_eq_true.mp this n hn)
          · intro n hd text ht
            by_cases e1 : n = contentTypesName
            · subst e1
              rw [show aget contentTypesName fxTypesBook = some fxTypes by decide +kernel] at ht
              have ht := Option.some.inj ht
              subst ht
              exact ⟨⟨_, _, _, fxTypes_read, by simp [fxTypesContent], fxNoCdata (by decide +kernel), fxTypes_ok _⟩, fun d0 h => fxPlainNames h (by decide +kernel)⟩
            · by_cases e3 : n = "xl/styles.xml"
              · subst e3
                rw [show aget "xl/styles.xml" fxTypesBook = some fxStyles by decide +kernel] at ht
                have ht := Option.some.inj ht
                subst ht
                exact ⟨⟨_, _, _, fxStyles_read, by simp [fxStylesContent], fxNoCdata (by decide +kernel), fxStyles_ok _⟩, fun d0 h => fxPlainNames h (by decide +kernel)⟩
              · by_cases e4 : n = "xl/media/image1.png"
                · subst e4
                  exact absurd (show zipDoc exEnv fxTypesBook "xl/media/image1.png" = none by decide +kernel) hd
                · have : aget n fxTypesBook = none := by
                    rw [aget_eq_none_iff]
                    show n ∉ ["xl/styles.xml", "xl/media/image1.png", contentTypesName]
                    simp [e1, e3, e4]
                  rw [this] at ht
                  cases ht
          · intro q hq
            rw [hp] at hq
            cases hq
            refine ⟨by decide +kernel, fun e => ⟨fun he => ?_, fun he => ?_⟩⟩
            · simpa using h1 e he
            · simpa using h2 e he

end Oxml
