import Verif.Spec.Workbook
import Verif.Proofs.Relations
/-!
# Paths of sheet parts
-/
namespace Oxml
open Spec

theorem toList_sheetName (k : Nat) : (sheetName k).toList = "xl/worksheets/sheet".toList ++ (toString k).toList ++ ".xml".toList := by
  unfold sheetName; rw [String.toList_append, String.toList_append]

theorem toList_sheetRelsName (k : Nat) :
    (sheetRelsName k).toList = "xl/worksheets/_rels/sheet".toList ++ (toString k).toList ++ ".xml.rels".toList := by
  unfold sheetRelsName; rw [String.toList_append, String.toList_append]

theorem sheetName_inj {j k : Nat} (h : sheetName j = sheetName k) : j = k := by
  have := congrArg String.toList h
  rw [toList_sheetName, toList_sheetName, List.append_cancel_right_eq, List.append_cancel_left_eq] at this
  exact toString_nat_inj (String.toList_inj.mp this)

theorem sheetRelsName_inj {j k : Nat} (h : sheetRelsName j = sheetRelsName k) : j = k := by
  have := congrArg String.toList h
  rw [toList_sheetRelsName, toList_sheetRelsName, List.append_cancel_right_eq, List.append_cancel_left_eq] at this
  exact toString_nat_inj (String.toList_inj.mp this)

theorem take_sheetName (k : Nat) : (sheetName k).toList.take 15 = "xl/worksheets/s".toList := by
  rw [toList_sheetName, List.append_assoc, List.take_append_of_le_length (by decide +kernel)]
  decide +kernel

theorem take_sheetRelsName (k : Nat) : (sheetRelsName k).toList.take 15 = "xl/worksheets/_".toList := by
  rw [toList_sheetRelsName, List.append_assoc, List.take_append_of_le_length (by decide +kernel)]
  decide +kernel

theorem sheetName_ne_rels (j k : Nat) : sheetName j ≠ sheetRelsName k := by
  intro h
  have := congrArg (fun s : String => s.toList.take 15) h
  simp only [take_sheetName, take_sheetRelsName] at this
  revert this; decide +kernel

theorem base_take (n : String) (h : n ∈ baseNames) : n.toList.take 15 ≠ "xl/worksheets/s".toList ∧ n.toList.take 15 ≠ "xl/worksheets/_".toList := by
  revert n
  decide +kernel

theorem sheetName_not_base (k : Nat) : sheetName k ∉ baseNames := fun h => (base_take _ h).1 (take_sheetName k)
theorem sheetRelsName_not_base (k : Nat) : sheetRelsName k ∉ baseNames := fun h => (base_take _ h).2 (take_sheetRelsName k)

/-- The library's path of the k-th sheet. -/
theorem sheetPath_eq (k : Nat) : sheetPath "xl/" k = sheetName k := by
  have h : sheetPath "xl/" k = "xl/worksheets/sheet" ++ toString k ++ "." ++ "xml" := by
    unfold sheetPath
    rw [show ("xl/" ++ worksheetContent.path ++ "/" ++ worksheetContent.name : String) = "xl/worksheets/sheet" from by decide +kernel]
    rfl
  rw [h, String.append_assoc]
  rfl

/-- The library's path of the relationships of the k-th sheet. -/
theorem sheetRelsPath_eq (k : Nat) : sheetRelsPath (sheetName k) = some (sheetRelsName k) := by
  have hd : ∀ c ∈ (toString k).toList, c ≠ '/' := by
    intro c hc hcs
    subst hcs
    rw [toList_toString_nat] at hc
    have := isDigit_of_mem_decimal hc
    revert this; decide
  have hrev : (sheetName k).toList.reverse = (".xml".toList.reverse ++ (toString k).toList.reverse ++ "sheet".toList.reverse) ++ '/' :: "xl/worksheets".toList.reverse := by
    rw [toList_sheetName]
    simp only [List.reverse_append]
    rw [show ("xl/worksheets/sheet".toList.reverse : List Char) = "sheet".toList.reverse ++ '/' :: "xl/worksheets".toList.reverse from by decide +kernel]
    simp only [List.append_assoc]
  have hall : ∀ c ∈ ".xml".toList.reverse ++ (toString k).toList.reverse ++ "sheet".toList.reverse, (decide (c ≠ '/')) = true := by
    intro c hc
    rw [List.mem_append, List.mem_append] at hc
    rcases hc with (hc | hc) | hc
    · revert c; decide +kernel
    · exact decide_eq_true (hd c (List.mem_reverse.mp hc))
    · revert c; decide +kernel
  have h1 : ((sheetName k).toList.reverse.dropWhile (· ≠ '/')).tail.reverse = "xl/worksheets".toList := by
    rw [hrev, List.dropWhile_append_of_pos hall]
    simp
  have h2 : ((sheetName k).toList.reverse.takeWhile (· ≠ '/')).reverse = "sheet".toList ++ (toString k).toList ++ ".xml".toList := by
    rw [hrev, List.takeWhile_append_of_pos hall]
    simp
  have h3 : '/' ∈ (sheetName k).toList := by
    rw [toList_sheetName]; simp
  unfold sheetRelsPath dirOf baseOf
  rw [if_pos h3, h1, h2]
  simp only [Option.map_some, Option.some.injEq]
  apply String.toList_inj.mp
  rw [toList_sheetRelsName]
  simp only [String.toList_append, String.toList_ofList]
  rw [show ("xl/worksheets/_rels/sheet".toList : List Char) = "xl/worksheets".toList ++ "/_rels/".toList ++ "sheet".toList from by decide +kernel,
    show (".xml.rels".toList : List Char) = ".xml".toList ++ ".rels".toList from by decide +kernel]
  simp only [List.append_assoc]

/-- The relationship part of the workbook lies in `xl/`. -/
theorem bookRels_dir : relativePath "xl/_rels/workbook.xml.rels" = .ok "xl/" := by decide +kernel

/-- The target a new sheet gets. -/
theorem newRel_sheet (rels : List Rel) (k : Nat) :
    newRel rels worksheetContent (some ("xl/" ++ worksheetContent.path)) (some (worksheetContent.name ++ toString k)) =
      (rels ++ [{ id := nextRelId rels, target := "/" ++ sheetName k, type := worksheetContent.type, mode := none }], nextRelId rels) := by
  unfold newRel partPath
  simp only [Option.getD_some]
  have : ("xl/" ++ worksheetContent.path ++ "/" ++ (worksheetContent.name ++ toString k) ++ "." ++ worksheetContent.ext : String) = sheetName k := by
    rw [← sheetPath_eq]
    unfold sheetPath
    simp only [String.append_assoc]
  rw [this]

/-- Deleting by path removes the targets that are the path below the root. -/
theorem deleteRel_sheet (rels : List Rel) (k : Nat) : deleteRel rels (sheetName k) = rels.filter (fun r => r.target ≠ "/" ++ sheetName k) := by
  have h : ∃ c cs, (sheetName k).toList = c :: cs ∧ c ≠ '/' := by
    rw [toList_sheetName, List.append_assoc]
    exact ⟨'x', _, rfl, by decide⟩
  obtain ⟨c, cs, h1, h2⟩ := h
  unfold deleteRel
  rw [h1]
  simp only
  split
  · next heq => cases heq; exact absurd rfl h2
  · rfl

/-! ### Free file names -/

theorem freeSheetLoop_free (p : Pkg) (dir : String) (fuel n : Nat)
    (h : ∃ i, i < fuel ∧ ahas (sheetPath dir (n + i)) p.archive = false) : ahas (sheetPath dir (freeSheetLoop p dir fuel n)) p.archive = false := by
  induction fuel generalizing n with
  | zero => obtain ⟨i, hi, _⟩ := h; omega
  | succ f ih =>
    rw [freeSheetLoop]
    split
    · next hc =>
      apply ih
      obtain ⟨i, hi, ha⟩ := h
      cases i with
      | zero => rw [Nat.add_zero] at ha; unfold Pkg.checkFileExist at hc; rw [ha] at hc; cases hc
      | succ i => exact ⟨i, by omega, by rw [show n + 1 + i = n + (i + 1) from by omega]; exact ha⟩
    · next hc => unfold Pkg.checkFileExist at hc; simpa using hc

/-- The chosen file name is not that of a closed part. -/
theorem freeSheet_free (p : Pkg) (n : Nat) : aget (sheetName (freeSheet p "xl/" n)) p.archive = none := by
  have key : ahas (sheetPath "xl/" (freeSheet p "xl/" n)) p.archive = false := by
    apply freeSheetLoop_free
    apply Classical.byContradiction
    intro hno
    have hall : ∀ i, i < p.archive.length + 1 → sheetName (n + i) ∈ akeys p.archive := by
      intro i hi
      apply Classical.byContradiction
      intro hni
      apply hno
      refine ⟨i, hi, ?_⟩
      rw [sheetPath_eq]
      cases hh : ahas (sheetName (n + i)) p.archive with
      | false => rfl
      | true => exact absurd ((ahas_iff _ _).mp hh) hni
    have hsub : ((List.range (p.archive.length + 1)).map (fun i => sheetName (n + i))).Nodup := by
      rw [List.nodup_iff_pairwise_ne, List.pairwise_map]
      refine List.Pairwise.imp ?_ (List.nodup_iff_pairwise_ne.mp List.nodup_range)
      intro a b hab he
      have := sheetName_inj he
      omega
    have := length_le_of_nodup_subset hsub (m := akeys p.archive) (by
      intro x hx
      obtain ⟨i, hi, rfl⟩ := List.mem_map.mp hx
      exact hall i (List.mem_range.mp hi))
    simp [akeys] at this
    omega
  rw [sheetPath_eq] at key
  cases hg : aget (sheetName (freeSheet p "xl/" n)) p.archive with
  | none => rfl
  | some e => unfold ahas at key; rw [hg] at key; cases key

end Oxml
