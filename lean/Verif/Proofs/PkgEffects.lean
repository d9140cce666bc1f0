import Verif.Proofs.Package
import Verif.Model.Relations
/-!
# What package operations do to each name
-/
namespace Oxml
open Spec

theorem openPart_fresh {env : Env} {p : Pkg} {t : Template} {m : String} (ho : aget m p.opened = none) (ha : aget m p.archive = none) :
    p.openPart env (.ok t) m = (.ok p.nextHandle,
      { p with opened := p.opened ++ [(m, { handle := p.nextHandle, doc := t.doc, ctype := t.ctype, ext := t.ext, extType := t.extType })]
               nextHandle := p.nextHandle + 1 }) := by
  have h1 : ahas m p.opened = false := by unfold ahas; rw [ho]; rfl
  have h2 := ainsert_of_not_mem (v := ({ handle := p.nextHandle, doc := t.doc, ctype := t.ctype, ext := t.ext, extType := t.extType } : OpenDoc))
    ((aget_eq_none_iff m p.opened).mp ho)
  unfold Pkg.openPart Pkg.getXmlTree
  rw [h1, ha]
  simp [Pkg.register, h2]

theorem openPart_busy {env : Env} {p : Pkg} {t : Res Template} {m : String} {o : OpenDoc} (ho : aget m p.opened = some o) :
    p.openPart env t m = (.error (.fail "Please close the Existing object before creating new handle"), p) := by
  have h1 : ahas m p.opened = true := by unfold ahas; rw [ho]; rfl
  unfold Pkg.openPart Pkg.getXmlTree
  rw [h1]; rfl

theorem openPart_read {env : Env} {p : Pkg} {t : Res Template} {m : String} {e : Entry} {d : XmlDoc} (ho : aget m p.opened = none)
    (ha : aget m p.archive = some e) (hr : readXml env.uni e.content = .ok d) :
    p.openPart env t m = (.ok p.nextHandle,
      { opened := p.opened ++ [(m, { handle := p.nextHandle, doc := d.toXDoc, ctype := e.ctype, ext := e.ext, extType := e.extType })]
        archive := aerase m p.archive
        nextHandle := p.nextHandle + 1 }) := by
  have h1 : ahas m p.opened = false := by unfold ahas; rw [ho]; rfl
  have h2 := ainsert_of_not_mem (v := ({ handle := p.nextHandle, doc := d.toXDoc, ctype := e.ctype, ext := e.ext, extType := e.extType } : OpenDoc))
    ((aget_eq_none_iff m p.opened).mp ho)
  unfold Pkg.openPart Pkg.getXmlTree
  rw [h1, ha]
  simp [Pkg.register, h2, hr]

/-- The name of a handle is unique. -/
theorem Pkg.Inv.handle_name {p : Pkg} (hp : p.Inv) {m n : String} {a b : OpenDoc} (ha : aget m p.opened = some a)
    (hb : aget n p.opened = some b) (h : a.handle = b.handle) : m = n := by
  have hm := mem_of_aget ha
  have hn := mem_of_aget hb
  have hh := hp.handles
  obtain ⟨i, hi, ei⟩ := List.getElem_of_mem hm
  obtain ⟨j, hj, ej⟩ := List.getElem_of_mem hn
  have : i = j := by
    have := (List.getElem_inj (xs := p.opened.map (fun kv => kv.2.handle)) (i := i) (j := j) (h₀ := by simpa using hi)
      (h₁ := by simpa using hj) hh).mp (by simp [ei, ej, h])
    exact this
  subst this
  rw [ei] at ej
  cases ej; rfl

theorem Pkg.Inv.byHandle {p : Pkg} (hp : p.Inv) {m : String} {o : OpenDoc} (ho : aget m p.opened = some o) :
    p.byHandle o.handle = some o := by
  unfold Pkg.byHandle
  cases hf : p.opened.find? (fun kv => decide (kv.2.handle = o.handle)) with
  | none =>
    rw [List.find?_eq_none] at hf
    have := hf _ (mem_of_aget ho)
    simp at this
  | some kv =>
    have h1 := List.find?_some hf
    have h2 := List.mem_of_find?_eq_some hf
    have h3 := aget_of_mem (k := kv.1) (v := kv.2) hp.opened h2
    have h4 := hp.handle_name h3 ho (by simpa using h1)
    rw [h4, ho] at h3
    cases h3; rfl

theorem Pkg.Inv.docOf {p : Pkg} (hp : p.Inv) {m : String} {o : OpenDoc} (ho : aget m p.opened = some o) :
    p.docOf o.handle = some o.doc := by
  unfold Pkg.docOf; rw [hp.byHandle ho]; rfl

/-- A handle without a document. -/
theorem Pkg.docOf_none {p : Pkg} {h : Nat} (hn : ∀ n o, (n, o) ∈ p.opened → o.handle ≠ h) : p.docOf h = none := by
  unfold Pkg.docOf Pkg.byHandle
  have : p.opened.find? (fun kv => decide (kv.2.handle = h)) = none := by
    rw [List.find?_eq_none]
    intro kv hkv
    have := hn kv.1 kv.2 hkv
    simpa using this
  rw [this]; rfl

theorem aget_map_val {V W : Type} (f : String → V → W) (m : List (String × V)) (n : String) :
    aget n (m.map (fun kv => (kv.1, f kv.1 kv.2))) = (aget n m).map (f n) := by
  induction m with
  | nil => rfl
  | cons kv rest ih =>
    simp only [List.map_cons, aget]
    split
    · next h => subst h; rfl
    · exact ih

/-- Editing through a handle changes the document of one name only. -/
theorem Pkg.Inv.aget_update {p : Pkg} (hp : p.Inv) {m : String} {o : OpenDoc} (ho : aget m p.opened = some o) (f : XDoc → XDoc) (n : String) :
    aget n (p.update o.handle f).opened = if n = m then some { o with doc := f o.doc } else aget n p.opened := by
  have e : aget n (p.update o.handle f).opened = (aget n p.opened).map
      (fun v => if v.handle = o.handle then { v with doc := f v.doc } else v) := by
    rw [← aget_map_val (fun (_ : String) (v : OpenDoc) => if v.handle = o.handle then { v with doc := f v.doc } else v)]
    unfold Pkg.update
    congr 1
    apply List.map_congr_left
    intro kv _
    simp only
    split <;> rfl
  rw [e]
  split
  · next h => subst h; rw [ho]; simp
  · next h =>
    cases hn : aget n p.opened with
    | none => rfl
    | some v =>
      have : v.handle ≠ o.handle := fun hh => h (hp.handle_name hn ho hh)
      simp [this]

theorem Pkg.update_archive (p : Pkg) (h : Nat) (f : XDoc → XDoc) : (p.update h f).archive = p.archive := rfl

/-- Writing back an edited document and closing its part. -/
theorem Pkg.Inv.update_close {p : Pkg} (hp : p.Inv) (env : Env) {m : String} {o : OpenDoc} (ho : aget m p.opened = some o) (x : XDoc) (n : String) :
    aget n ((p.update o.handle (fun _ => x)).close env m).opened = (if n = m then none else aget n p.opened) ∧
    aget n ((p.update o.handle (fun _ => x)).close env m).archive = (if n = m then
      some { ext := o.ext, extType := o.extType, ctype := o.ctype, content := renderDoc env.build env.stamp x } else aget n p.archive) := by
  have h0 := hp.aget_update ho (fun _ => x)
  have hm : aget m (p.update o.handle (fun _ => x)).opened = some { o with doc := x } := by rw [h0]; simp
  by_cases h : n = m
  · subst h
    rw [if_pos rfl, if_pos rfl]
    exact ⟨Pkg.close_self, Pkg.close_open hm⟩
  · have h1 := Pkg.close_ne (p := p.update o.handle (fun _ => x)) (env := env) (Ne.symm h)
    rw [if_neg h, if_neg h, h1.1, h1.2, h0, if_neg h]
    exact ⟨rfl, rfl⟩

theorem Pkg.close_nextHandle (env : Env) (p : Pkg) (n : String) : (p.close env n).nextHandle = p.nextHandle := by
  unfold Pkg.close; split <;> rfl

theorem Pkg.update_nextHandle (p : Pkg) (h : Nat) (f : XDoc → XDoc) : (p.update h f).nextHandle = p.nextHandle := rfl

theorem Pkg.delete_absent {p : Pkg} {n : String} (h : aget n p.archive = none) : p.delete n = p := by
  unfold Pkg.delete; rw [aerase_of_not_mem ((aget_eq_none_iff _ _).mp h)]

end Oxml
