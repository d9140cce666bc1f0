import Verif.Proofs.SessionFile
/-!
# Opening a file saved from a new workbook
-/
namespace Oxml
open Spec

theorem openPart_ok {env : Env} {p p1 : Pkg} {t : Template} {n : String} {h : Nat} (hp : p.Inv) (e : p.openPart env (.ok t) n = (.ok h, p1)) :
    p1.Inv ∧ (∀ m, m ≠ n → aget m p1.archive = aget m p.archive) ∧
    ∀ en, aget n p.archive = some en → ∃ d, readXml env.uni en.content = .ok d ∧ p1.docOf h = some d.toXDoc := by
  have hi := openPart_inv hp e
  refine ⟨hi, ?_⟩
  cases ho : aget n p.opened with
  | some o => rw [openPart_busy ho] at e; cases e
  | none =>
    cases ha : aget n p.archive with
    | none =>
      rw [openPart_fresh ho ha] at e
      cases e
      exact ⟨fun m _ => rfl, fun en hen => by cases hen⟩
    | some en =>
      cases hr : readXml env.uni en.content with
      | error err =>
        unfold Pkg.openPart Pkg.getXmlTree at e
        have hh : ahas n p.opened = false := by
          cases hx : ahas n p.opened with
          | false => rfl
          | true =>
            have := (ahas_iff n p.opened).mp hx
            exact absurd this ((aget_eq_none_iff n p.opened).mp ho)
        simp [hh, ha, hr] at e
      | ok d =>
        rw [openPart_read ho ha hr] at e
        cases e
        refine ⟨fun m hm => aget_aerase_ne (Ne.symm hm) _, ?_⟩
        intro en' hen'
        cases hen'
        refine ⟨d, hr, hi.docOf (m := n) (o := ⟨p.nextHandle, d.toXDoc, en.ctype, en.ext, en.extType⟩) ?_⟩
        exact (aget_append_single _ _ _ _ ho).trans (if_pos rfl)

theorem relNew_ok {env : Env} {p p1 : Pkg} {n : String} {r : RelPart} (hp : p.Inv) (e : RelPart.new env p n = (.ok r, p1)) {en : Entry}
    (hn : aget n p.archive = some en) :
    p1.Inv ∧ (∀ m, m ≠ n → aget m p1.archive = aget m p.archive) ∧ r.path = n ∧
    ∃ d, readXml env.uni en.content = .ok d ∧ (loadRels d.toXDoc).1 = .ok r.rels := by
  unfold RelPart.new at e
  cases ho : p.openPart env (.ok relsTemplate) n with
  | mk res p2 =>
    cases res with
    | error err => rw [ho] at e; simp at e
    | ok h =>
      obtain ⟨h1, h2, h3⟩ := openPart_ok hp ho
      obtain ⟨d, h4, h5⟩ := h3 en hn
      rw [ho] at e
      simp only [h5] at e
      cases hl : loadRels d.toXDoc with
      | mk res x' =>
        rw [hl] at e
        cases res with
        | error err => simp at e
        | ok rels =>
          simp only [Prod.mk.injEq, Except.ok.injEq] at e
          obtain ⟨rfl, rfl⟩ := e
          exact ⟨h1.update _ _, fun m hm => by rw [Pkg.update_archive]; exact h2 m hm, rfl, d, h4, by rw [hl]⟩

theorem openTyped_ok {env : Env} {c : Content} {dir : Option String} {t : Template} {p p1 : Pkg} {r r1 : RelPart} {path : String} {h : Nat}
    (hp : p.Inv) (e : openTyped env c dir t p r = .ok (path, h, p1, r1)) :
    targetByType r.path r.rels c.type c dir none = (.ok path, r1.rels) ∧ r1.path = r.path ∧ p1.Inv ∧
    (∀ m, m ≠ path → aget m p1.archive = aget m p.archive) ∧
    ∀ en, aget path p.archive = some en → ∃ d, readXml env.uni en.content = .ok d := by
  unfold openTyped at e
  split at e
  · cases e
  · next pa rels hr =>
    split at e
    · cases e
    · next h' p' ho =>
      cases e
      obtain ⟨h1, h2, h3⟩ := openPart_ok hp ho
      refine ⟨hr, rfl, h1, h2, ?_⟩
      intro en hen
      obtain ⟨d, hd, _⟩ := h3 en hen
      exact ⟨d, hd⟩

theorem loadPart_ok {α : Type} {p p1 : Pkg} {h : Nat} {load : XDoc → Res α × XDoc} {a : α} (hp : p.Inv) (e : loadPart p h load = .ok (a, p1)) :
    p1.Inv ∧ p1.archive = p.archive := by
  unfold loadPart at e
  split at e
  · cases e
  · split at e
    · cases e
    · cases e
      exact ⟨hp.update _ _, rfl⟩

theorem bind_ok {α β : Type} {x : Res α} {f : α → Res β} {b : β} (h : (x >>= f) = .ok b) : ∃ a, x = .ok a ∧ f a = .ok b := by
  cases x with
  | error e => cases h
  | ok a => exact ⟨a, rfl, h⟩

theorem root_core : targetByType "_rels/.rels" rootRelsList coreContent.type coreContent none none = (.ok "docProps/core.xml", rootRelsList) := by
  decide +kernel
theorem root_book : targetByType "_rels/.rels" rootRelsList workbookContent.type workbookContent none none = (.ok "xl/workbook.xml", rootRelsList) := by
  decide +kernel

theorem targetByType_none {f : String} {rels : List Rel} {t : String} {c : Content} {pa n : Option String}
    (h : rels.find? (fun r => r.type = t) = none) :
    targetByType f rels t c pa n =
      (.ok (partPath c pa n), rels ++ [{ id := nextRelId rels, target := "/" ++ partPath c pa n, type := c.type, mode := none }]) := by
  unfold targetByType
  rw [h]
  rfl

/-- Finding the parts before the calculation chain. -/
theorem saved_targets {ws : List Rel} (hw : ∀ r ∈ ws, ∃ k, r = sheetRel r.id k) (table : List String) :
    targetByType "xl/_rels/workbook.xml.rels" (relsSaved (baseRels ++ ws) table) themeContent.type themeContent (some "xl/theme") none =
      (.ok "xl/theme/theme1.xml", relsSaved (baseRels ++ ws) table) ∧
    ∃ rels', targetByType "xl/_rels/workbook.xml.rels" (relsSaved (baseRels ++ ws) table) sharedStringContent.type sharedStringContent none none =
      (.ok "xl/sharedStrings.xml", rels') ∧
    (targetByType "xl/_rels/workbook.xml.rels" rels' calcChainContent.type calcChainContent none none).1 = .ok "xl/calcChain.xml" := by
  have hty : ∀ t, t ≠ worksheetContent.type → ws.find? (fun r => r.type = t) = none := by
    intro t ht
    rw [List.find?_eq_none]
    intro r hr
    obtain ⟨k, hk⟩ := hw r hr
    rw [hk]
    simp only [decide_eq_true_eq]
    exact fun h => ht h.symm
  have hs := hty sharedStringContent.type (by decide +kernel)
  have hc := hty calcChainContent.type (by decide +kernel)
  rw [relsSaved_eq hw]
  refine ⟨?_, ?_⟩
  · unfold targetByType
    have : ([relTo "rId1" "/xl/theme/theme1.xml" themeContent] ++
      (if table = [] then [] else [relTo "rId2" "/xl/sharedStrings.xml" sharedStringContent]) ++
      [relTo "rId4" "/xl/styles.xml" styleContent] ++ ws).find? (fun r => r.type = themeContent.type) =
        some (relTo "rId1" "/xl/theme/theme1.xml" themeContent) := by
      simp only [List.append_assoc, List.cons_append]
      rw [List.find?_cons_of_pos]
      simp only [decide_eq_true_eq]; rfl
    rw [this]
    simp only
    congr 1
  · by_cases ht : table = []
    · simp only [if_pos ht, List.append_nil]
      have hn : ([relTo "rId1" "/xl/theme/theme1.xml" themeContent] ++ [relTo "rId4" "/xl/styles.xml" styleContent] ++ ws).find?
          (fun r => r.type = sharedStringContent.type) = none := by
        rw [List.find?_append, hs]; decide +kernel
      refine ⟨_, targetByType_none hn, ?_⟩
      rw [targetByType_none]
      · exact congrArg Except.ok (by decide +kernel)
      rw [List.find?_append, List.find?_append, hc]
      rw [show ([relTo "rId1" "/xl/theme/theme1.xml" themeContent] ++ [relTo "rId4" "/xl/styles.xml" styleContent]).find?
          (fun r => r.type = calcChainContent.type) = none from by decide +kernel]
      rw [List.find?_cons_of_neg, List.find?_nil]
      · rfl
      · simp only [decide_eq_true_eq]; decide +kernel
    · simp only [if_neg ht]
      refine ⟨[relTo "rId1" "/xl/theme/theme1.xml" themeContent] ++ [relTo "rId2" "/xl/sharedStrings.xml" sharedStringContent] ++
        [relTo "rId4" "/xl/styles.xml" styleContent] ++ ws, ?_, ?_⟩
      · unfold targetByType
        rw [show ([relTo "rId1" "/xl/theme/theme1.xml" themeContent] ++ [relTo "rId2" "/xl/sharedStrings.xml" sharedStringContent] ++
            [relTo "rId4" "/xl/styles.xml" styleContent] ++ ws).find? (fun r => r.type = sharedStringContent.type) =
            some (relTo "rId2" "/xl/sharedStrings.xml" sharedStringContent) from by
          rw [List.find?_append]
          rw [show ([relTo "rId1" "/xl/theme/theme1.xml" themeContent] ++ [relTo "rId2" "/xl/sharedStrings.xml" sharedStringContent] ++
            [relTo "rId4" "/xl/styles.xml" styleContent]).find? (fun r => r.type = sharedStringContent.type) =
            some (relTo "rId2" "/xl/sharedStrings.xml" sharedStringContent) from by decide +kernel]
          rfl]
        simp only
        rw [show resolveTarget "xl/_rels/workbook.xml.rels" (relTo "rId2" "/xl/sharedStrings.xml" sharedStringContent).target = .ok "xl/sharedStrings.xml" from by decide +kernel]
      · unfold targetByType
        rw [List.find?_append, hc]
        rw [show ([relTo "rId1" "/xl/theme/theme1.xml" themeContent] ++ [relTo "rId2" "/xl/sharedStrings.xml" sharedStringContent] ++
            [relTo "rId4" "/xl/styles.xml" styleContent]).find? (fun r => r.type = calcChainContent.type) = none from by decide +kernel]
        simp only [Option.or_none]
        decide +kernel

/-- A package with these relationships and an unreadable calculation chain cannot be opened. -/
theorem start_fails {env : Env} {theme : XDoc} {p : Pkg} (hp : p.Inv) {ws : List Rel} (hw : ∀ r ∈ ws, ∃ k, r = sheetRel r.id k) (table : List String)
    {er eb ec : Entry} {dr db : XmlDoc} (h1 : aget "_rels/.rels" p.archive = some er) (h2 : readXml env.uni er.content = .ok dr)
    (h3 : (loadRels dr.toXDoc).1 = .ok rootRelsList) (h4 : aget "xl/_rels/workbook.xml.rels" p.archive = some eb)
    (h5 : readXml env.uni eb.content = .ok db) (h6 : (loadRels db.toXDoc).1 = .ok (relsSaved (baseRels ++ ws) table))
    (h7 : aget "xl/calcChain.xml" p.archive = some ec) (h8 : ∀ d, readXml env.uni ec.content ≠ .ok d) (x : Excel) :
    Excel.start env theme p ≠ .ok x := by
  intro hx
  unfold Excel.start at hx
  obtain ⟨⟨rootRels, p1⟩, e1, hx⟩ := bind_ok hx
  have e1' : RelPart.new env p "_rels/.rels" = (.ok rootRels, p1) := by
    revert e1
    cases RelPart.new env p "_rels/.rels" with
    | mk res q => cases res <;> simp <;> intro a b <;> exact ⟨a, b⟩
  obtain ⟨i1, a1, pa1, d1, r1, l1⟩ := relNew_ok hp e1' h1
  rw [h2] at r1; cases r1
  rw [h3] at l1
  have l1 := (Except.ok.inj l1).symm
  obtain ⟨⟨corePath, coreH, p2, rootRels2⟩, e2, hx⟩ := bind_ok hx
  obtain ⟨t2, pa2, i2, a2, _⟩ := openTyped_ok i1 e2
  rw [pa1, l1, root_core] at t2
  simp only [Prod.mk.injEq, Except.ok.injEq] at t2
  obtain ⟨rfl, l2⟩ := t2
  obtain ⟨⟨bookPath, bookH, p3, rootRels3⟩, e3, hx⟩ := bind_ok hx
  obtain ⟨t3, pa3, i3, a3, _⟩ := openTyped_ok i2 e3
  rw [pa2, pa1, ← l2, root_book] at t3
  simp only [Prod.mk.injEq, Except.ok.injEq] at t3
  obtain ⟨rfl, l3⟩ := t3
  obtain ⟨dir, e4, hx⟩ := bind_ok hx
  rw [show dirOf "xl/workbook.xml" = some "xl" from by decide +kernel] at e4
  cases e4
  obtain ⟨⟨rels, p4⟩, e5, hx⟩ := bind_ok hx
  have e5' : RelPart.new env p3 "xl/_rels/workbook.xml.rels" = (.ok rels, p4) := by
    rw [show "xl" ++ "/_rels/workbook.xml.rels" = "xl/_rels/workbook.xml.rels" from by decide +kernel] at e5
    revert e5
    cases RelPart.new env p3 "xl/_rels/workbook.xml.rels" with
    | mk res q => cases res <;> simp <;> intro a b <;> exact ⟨a, b⟩
  have hk4 : aget "xl/_rels/workbook.xml.rels" p3.archive = some eb := by
    rw [a3 _ (by decide), a2 _ (by decide), a1 _ (by decide)]; exact h4
  obtain ⟨i4, a4, pa4, d4, r4, l4⟩ := relNew_ok i3 e5' hk4
  rw [h5] at r4; cases r4
  rw [h6] at l4
  have l4 := (Except.ok.inj l4).symm
  obtain ⟨t6a, rels', t7a, t8a⟩ := saved_targets hw table
  obtain ⟨⟨themePath, themeH, p5, rels5⟩, e6, hx⟩ := bind_ok hx
  obtain ⟨t6, pa6, i6, a6, _⟩ := openTyped_ok i4 e6
  rw [pa4, l4, t6a] at t6
  simp only [Prod.mk.injEq, Except.ok.injEq] at t6
  obtain ⟨rfl, l6⟩ := t6
  obtain ⟨⟨strPath, strH, p6, rels6⟩, e7, hx⟩ := bind_ok hx
  obtain ⟨t7, pa7, i7, a7, _⟩ := openTyped_ok i6 e7
  rw [pa6, pa4, ← l6, t7a] at t7
  simp only [Prod.mk.injEq, Except.ok.injEq] at t7
  obtain ⟨rfl, l7⟩ := t7
  obtain ⟨⟨tb, p7⟩, e8, hx⟩ := bind_ok hx
  obtain ⟨i8, a8⟩ := loadPart_ok i7 e8
  obtain ⟨⟨calcPath, calcH, p8, rels8⟩, e9, hx⟩ := bind_ok hx
  obtain ⟨t9, pa9, i9, a9, un⟩ := openTyped_ok i8 e9
  rw [pa7, pa6, pa4, ← l7] at t9
  have t9' := congrArg Prod.fst t9
  rw [t8a] at t9'
  have t9' := Except.ok.inj t9'
  subst t9'
  have hk : aget "xl/calcChain.xml" p7.archive = some ec := by
    rw [a8, a7 _ (by decide), a6 _ (by decide), a4 _ (by decide), a3 _ (by decide), a2 _ (by decide), a1 _ (by decide)]; exact h7
  obtain ⟨d, hd⟩ := un ec hk
  exact h8 d hd

end Oxml
