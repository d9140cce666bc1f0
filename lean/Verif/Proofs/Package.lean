import Verif.Model.Package
import Verif.Proofs.XmlSpec
/-!
# Package invariants
-/
namespace Oxml
open Spec

/-- Names are distinct, no name is both open and closed, handles are distinct and below the counter. -/
structure Pkg.Inv (p : Pkg) : Prop where
  opened : (akeys p.opened).Nodup
  archive : (akeys p.archive).Nodup
  disjoint : ∀ n, n ∈ akeys p.opened → n ∉ akeys p.archive
  handleLt : ∀ kv ∈ p.opened, kv.2.handle < p.nextHandle
  handles : (p.opened.map (fun kv => kv.2.handle)).Nodup

theorem Pkg.Inv.empty : Pkg.empty.Inv := by
  constructor <;> simp [Pkg.empty, akeys]

theorem Pkg.Inv.delete {p : Pkg} (h : p.Inv) (n : String) : (p.delete n).Inv := by
  refine ⟨h.opened, nodup_aerase _ h.archive, ?_, h.handleLt, h.handles⟩
  intro m hm ha
  simp only [Pkg.delete, akeys_aerase, List.mem_filter] at ha
  exact h.disjoint m hm ha.1

theorem Pkg.Inv.eraseArchive {p : Pkg} (h : p.Inv) (n : String) : ({ p with archive := aerase n p.archive } : Pkg).Inv :=
  h.delete n

theorem Pkg.Inv.register {p : Pkg} (h : p.Inv) {n : String} (hn : n ∉ akeys p.opened) (ha : n ∉ akeys p.archive)
    (x : XDoc) (c : Option String) (e t : String) : (p.register n x c e t).1.Inv := by
  have hins : (p.register n x c e t).1.opened =
      p.opened ++ [(n, { handle := p.nextHandle, doc := x, ctype := c, ext := e, extType := t })] := by
    simp [Pkg.register, ainsert_of_not_mem hn]
  refine ⟨nodup_ainsert _ _ h.opened, h.archive, ?_, ?_, ?_⟩
  · intro m hm
    rcases (mem_akeys_ainsert _ _ _ _).mp hm with rfl | hm
    · exact ha
    · exact h.disjoint m hm
  · intro kv hkv
    rw [hins] at hkv
    simp only [List.mem_append, List.mem_singleton] at hkv
    simp only [Pkg.register]
    rcases hkv with hkv | rfl
    · have := h.handleLt kv hkv; omega
    · simp
  · rw [hins]
    simp only [List.map_append, List.map_cons, List.map_nil, List.nodup_append]
    refine ⟨h.handles, by simp, ?_⟩
    intro a ha b hb
    simp only [List.mem_singleton] at hb
    obtain ⟨kv, hkv, rfl⟩ := List.mem_map.mp ha
    have := h.handleLt kv hkv
    omega

theorem Pkg.getXmlTree_eq (env : Env) (p : Pkg) (n : String) :
    (p.getXmlTree env n).2 = p ∨ (n ∉ akeys p.opened ∧ n ∈ akeys p.archive ∧ (p.getXmlTree env n).2 = p.delete n) := by
  unfold Pkg.getXmlTree
  split
  · left; rfl
  · rename_i ho
    split
    · left; rfl
    · rename_i e he
      right
      refine ⟨by rw [ahas_iff] at ho; exact ho, mem_akeys_of_aget he, ?_⟩
      simp only
      split <;> rfl

theorem Pkg.Inv.openPart {p : Pkg} (h : p.Inv) (env : Env) (t : Res Template) (n : String) : (p.openPart env t n).2.Inv := by
  unfold Pkg.openPart Pkg.getXmlTree
  by_cases ho : ahas n p.opened = true
  · rw [if_pos ho]; exact h
  · rw [if_neg ho]
    have hno : n ∉ akeys p.opened := by rw [ahas_iff] at ho; exact ho
    cases he : aget n p.archive with
    | none =>
      have hna := (aget_eq_none_iff _ _).mp he
      cases t with
      | error e => exact h
      | ok t => exact h.register hno hna _ _ _ _
    | some e =>
      simp only
      cases hr : readXml env.uni e.content with
      | error err => exact h.eraseArchive n
      | ok d =>
        refine (h.eraseArchive n).register hno ?_ _ _ _ _
        simp [akeys_aerase]

theorem Pkg.Inv.close {p : Pkg} (h : p.Inv) (env : Env) (n : String) : (p.close env n).Inv := by
  unfold Pkg.close
  split
  · exact h
  · rename_i o ho
    refine ⟨nodup_aerase _ h.opened, nodup_ainsert _ _ h.archive, ?_, ?_, ?_⟩
    · intro m hm ha
      simp only [akeys_aerase, List.mem_filter, decide_eq_true_eq] at hm
      rcases (mem_akeys_ainsert _ _ _ _).mp ha with rfl | ha
      · exact hm.2 rfl
      · exact h.disjoint m hm.1 ha
    · have hsub : ∀ {m : List (String × OpenDoc)} kv, kv ∈ aerase n m → kv ∈ m := by
        intro m
        induction m with
        | nil => intro kv hkv; exact hkv
        | cons x xs ih =>
          intro kv hkv
          obtain ⟨k, v⟩ := x
          unfold aerase at hkv
          split at hkv
          · exact List.mem_cons_of_mem _ (ih kv hkv)
          · rcases List.mem_cons.mp hkv with rfl | hkv
            · simp
            · exact List.mem_cons_of_mem _ (ih kv hkv)
      intro kv hkv
      exact h.handleLt kv (hsub kv hkv)
    · have hsub : ∀ m : List (String × OpenDoc), (aerase n m).Sublist m := by
        intro m
        induction m with
        | nil => exact List.Sublist.slnil
        | cons x xs ih =>
          obtain ⟨k, v⟩ := x
          unfold aerase
          split
          · exact ih.cons _
          · exact ih.cons₂ _
      exact List.Nodup.sublist ((hsub p.opened).map _) h.handles

theorem Pkg.akeys_update (p : Pkg) (hd : Nat) (f : XDoc → XDoc) : akeys (p.update hd f).opened = akeys p.opened := by
  simp only [Pkg.update, akeys, List.map_map]
  apply List.map_congr_left
  intro kv _
  simp only [Function.comp]
  split <;> rfl

theorem Pkg.Inv.update {p : Pkg} (h : p.Inv) (hd : Nat) (f : XDoc → XDoc) : (p.update hd f).Inv := by
  refine ⟨by rw [Pkg.akeys_update]; exact h.opened, h.archive, by rw [Pkg.akeys_update]; exact h.disjoint, ?_, ?_⟩
  · intro kv hkv
    obtain ⟨x, hx, rfl⟩ := List.mem_map.mp hkv
    have := h.handleLt x hx
    split <;> exact this
  · have : (p.update hd f).opened.map (fun kv => kv.2.handle) = p.opened.map (fun kv => kv.2.handle) := by
      simp only [Pkg.update, List.map_map]
      apply List.map_congr_left
      intro kv _
      simp only [Function.comp]
      split <;> rfl
    rw [this]; exact h.handles

theorem Pkg.Inv.step {p : Pkg} (h : p.Inv) (env : Env) (op : PkgOp) : (p.step env op).Inv := by
  cases op with
  | openPart t n => exact h.openPart env t n
  | close n => exact h.close env n
  | delete n => exact h.delete n
  | mutate hd f => exact h.update hd f

theorem Pkg.Inv.run {p : Pkg} (h : p.Inv) (env : Env) (ops : List PkgOp) : (p.run env ops).Inv := by
  unfold Pkg.run
  induction ops generalizing p with
  | nil => exact h
  | cons o os ih => exact ih (h.step env o)

theorem Pkg.Inv.closeAll {p : Pkg} (h : p.Inv) (env : Env) (ns : List String) : (p.closeAll env ns).Inv := by
  unfold Pkg.closeAll
  induction ns generalizing p with
  | nil => exact h
  | cons o os ih => exact ih (h.close env o)

/-! ### What one operation does to a given name -/

theorem Pkg.close_ne {p : Pkg} {env : Env} {m n : String} (h : m ≠ n) :
    aget n (p.close env m).archive = aget n p.archive ∧ aget n (p.close env m).opened = aget n p.opened := by
  unfold Pkg.close
  split
  · exact ⟨rfl, rfl⟩
  · exact ⟨aget_ainsert_ne h _ _, aget_aerase_ne h _⟩

theorem Pkg.close_self {p : Pkg} {env : Env} {n : String} : aget n (p.close env n).opened = none := by
  unfold Pkg.close
  split
  · assumption
  · simp [aget_aerase]

theorem Pkg.close_closed {p : Pkg} {env : Env} {n : String} (h : aget n p.opened = none) : p.close env n = p := by
  unfold Pkg.close; rw [h]

theorem Pkg.close_open {p : Pkg} {env : Env} {n : String} {o : OpenDoc} (h : aget n p.opened = some o) :
    aget n (p.close env n).archive =
      some { ext := o.ext, extType := o.extType, ctype := o.ctype, content := renderDoc env.build env.stamp o.doc } := by
  unfold Pkg.close; rw [h]; simp [aget_ainsert]

theorem Pkg.openPart_ne {p : Pkg} {env : Env} {t : Res Template} {m n : String} (h : m ≠ n) :
    aget n (p.openPart env t m).2.archive = aget n p.archive ∧ aget n (p.openPart env t m).2.opened = aget n p.opened := by
  unfold Pkg.openPart Pkg.getXmlTree
  by_cases ho : ahas m p.opened = true
  · rw [if_pos ho]; exact ⟨rfl, rfl⟩
  · rw [if_neg ho]
    cases he : aget m p.archive with
    | none =>
      cases t with
      | error e => exact ⟨rfl, rfl⟩
      | ok t => exact ⟨rfl, aget_ainsert_ne h _ _⟩
    | some e =>
      simp only
      cases hr : readXml env.uni e.content with
      | error err => exact ⟨aget_aerase_ne h _, rfl⟩
      | ok d => exact ⟨aget_aerase_ne h _, aget_ainsert_ne h _ _⟩

/-- The name an operation is about. -/
def PkgOp.mentions : PkgOp → String → Prop
  | .openPart _ m, n => m = n
  | .close m, n => m = n
  | .delete m, n => m = n
  | .mutate _ _, _ => False

theorem Pkg.update_opened_none {p : Pkg} {n : String} {hd : Nat} {f : XDoc → XDoc} (h : aget n p.opened = none) :
    aget n (p.update hd f).opened = none := by
  rw [aget_eq_none_iff, Pkg.akeys_update, ← aget_eq_none_iff]; exact h

theorem Pkg.step_untouched {p : Pkg} {env : Env} {op : PkgOp} {n : String} (h : ¬ op.mentions n) (ho : aget n p.opened = none) :
    aget n (p.step env op).archive = aget n p.archive ∧ aget n (p.step env op).opened = none := by
  cases op with
  | openPart t m =>
    have := Pkg.openPart_ne (p := p) (env := env) (t := t) h
    exact ⟨this.1, this.2.trans ho⟩
  | close m =>
    have := Pkg.close_ne (p := p) (env := env) h
    exact ⟨this.1, this.2.trans ho⟩
  | delete m => exact ⟨aget_aerase_ne h _, ho⟩
  | mutate hd f => exact ⟨rfl, Pkg.update_opened_none ho⟩

theorem Pkg.run_untouched {env : Env} {ops : List PkgOp} {n : String} (h : ∀ op ∈ ops, ¬ op.mentions n) {p : Pkg}
    (ho : aget n p.opened = none) :
    aget n (p.run env ops).archive = aget n p.archive ∧ aget n (p.run env ops).opened = none := by
  unfold Pkg.run
  induction ops generalizing p with
  | nil => exact ⟨rfl, ho⟩
  | cons o os ih =>
    have h1 := Pkg.step_untouched (env := env) (h o (by simp)) ho
    have h2 := ih (fun op hop => h op (by simp [hop])) h1.2
    exact ⟨h2.1.trans h1.1, h2.2⟩

theorem Pkg.closeAll_not_mem {env : Env} {ns : List String} {n : String} (h : n ∉ ns) {p : Pkg} :
    aget n (p.closeAll env ns).archive = aget n p.archive ∧ aget n (p.closeAll env ns).opened = aget n p.opened := by
  unfold Pkg.closeAll
  induction ns generalizing p with
  | nil => exact ⟨rfl, rfl⟩
  | cons m ms ih =>
    simp only [List.mem_cons, not_or] at h
    have h1 := Pkg.close_ne (p := p) (env := env) (Ne.symm h.1)
    have h2 := ih h.2 (p := p.close env m)
    exact ⟨h2.1.trans h1.1, h2.2.trans h1.2⟩

theorem Pkg.closeAll_mem {env : Env} {ns : List String} {n : String} (h : n ∈ ns) {p : Pkg} {o : OpenDoc} (ho : aget n p.opened = some o) :
    aget n (p.closeAll env ns).archive =
      some { ext := o.ext, extType := o.extType, ctype := o.ctype, content := renderDoc env.build env.stamp o.doc } ∧
    aget n (p.closeAll env ns).opened = none := by
  induction ns generalizing p with
  | nil => cases h
  | cons m ms ih =>
    change aget n ((p.close env m).closeAll env ms).archive = _ ∧ aget n ((p.close env m).closeAll env ms).opened = none
    by_cases hm : m = n
    · subst hm
      have hnone := Pkg.close_self (p := p) (env := env) (n := m)
      have hopen := Pkg.close_open (env := env) ho
      by_cases hin : m ∈ ms
      · -- closing again does nothing
        have : ∀ (ns : List String) (q : Pkg), aget m q.opened = none →
            aget m (q.closeAll env ns).archive = aget m q.archive ∧ aget m (q.closeAll env ns).opened = none := by
          intro ns
          induction ns with
          | nil => intro q hq; exact ⟨rfl, hq⟩
          | cons k ks ih2 =>
            intro q hq
            change aget m ((q.close env k).closeAll env ks).archive = _ ∧ aget m ((q.close env k).closeAll env ks).opened = none
            by_cases hk : k = m
            · subst hk; rw [Pkg.close_closed hq]; exact ih2 q hq
            · have h1 := Pkg.close_ne (p := q) (env := env) hk
              have h2 := ih2 (q.close env k) (h1.2.trans hq)
              exact ⟨h2.1.trans h1.1, h2.2⟩
        have h2 := this ms (p.close env m) hnone
        exact ⟨h2.1.trans hopen, h2.2⟩
      · have h2 := Pkg.closeAll_not_mem (env := env) hin (p := p.close env m)
        exact ⟨h2.1.trans hopen, h2.2.trans hnone⟩
    · have h1 := Pkg.close_ne (p := p) (env := env) hm
      rcases List.mem_cons.mp h with rfl | hin
      · exact absurd rfl hm
      · exact ih hin (h1.2.trans ho)

theorem Pkg.closedForSave_open {env : Env} {p : Pkg} {n : String} {o : OpenDoc} (ho : aget n p.opened = some o) :
    aget n (p.closedForSave env).archive =
      some { ext := o.ext, extType := o.extType, ctype := o.ctype, content := renderDoc env.build env.stamp o.doc } :=
  (Pkg.closeAll_mem (mem_akeys_of_aget ho) ho).1

theorem Pkg.closedForSave_closed {env : Env} {p : Pkg} {n : String} (ho : aget n p.opened = none) :
    aget n (p.closedForSave env).archive = aget n p.archive :=
  (Pkg.closeAll_not_mem ((aget_eq_none_iff _ _).mp ho)).1

/-! ### The zip -/

theorem akeys_map_content (m : List (String × Entry)) : akeys (m.map (fun kv => (kv.1, kv.2.content))) = akeys m := by
  simp [akeys]

theorem aget_map_content (m : List (String × Entry)) (n : String) :
    aget n (m.map (fun kv => (kv.1, kv.2.content))) = (aget n m).map Entry.content := by
  induction m with
  | nil => rfl
  | cons x xs ih =>
    obtain ⟨k, v⟩ := x
    simp only [List.map_cons, aget]
    split
    · rfl
    · exact ih

theorem aget_append {K V : Type} [DecidableEq K] (k : K) (a b : List (K × V)) :
    aget k (a ++ b) = (aget k a).or (aget k b) := by
  induction a with
  | nil => simp [aget]
  | cons x xs ih =>
    obtain ⟨k', v⟩ := x
    simp only [List.cons_append, aget]
    split
    · rfl
    · exact ih

theorem toZip_ok {env : Env} {p : Pkg} {exts : List (String × String)} {z : Zip} (h : p.toZip env exts = .ok z) :
    contentTypesName ∉ akeys p.archive ∧
    z = p.archive.map (fun kv => (kv.1, kv.2.content)) ++
      [(contentTypesName, renderDoc env.build env.stamp (contentTypesDoc exts p.overrides))] := by
  unfold Pkg.toZip at h
  split at h
  · cases h
  · rename_i hn
    cases h
    exact ⟨by rw [ahas_iff] at hn; exact hn, rfl⟩

theorem toZip_aget {env : Env} {p : Pkg} {exts : List (String × String)} {z : Zip} (h : p.toZip env exts = .ok z) {n : String}
    (hn : n ≠ contentTypesName) : aget n z = (aget n p.archive).map Entry.content := by
  obtain ⟨_, rfl⟩ := toZip_ok h
  rw [aget_append, aget_map_content]
  simp [aget, Ne.symm hn]

theorem toZip_nodup {env : Env} {p : Pkg} (hp : p.Inv) {exts : List (String × String)} {z : Zip} (h : p.toZip env exts = .ok z) :
    (akeys z).Nodup := by
  obtain ⟨hn, rfl⟩ := toZip_ok h
  simp only [akeys, List.map_append, List.nodup_append]
  refine ⟨by have := akeys_map_content p.archive; simp only [akeys] at this; rw [this]; exact hp.archive, by simp, ?_⟩
  intro a ha b hb
  simp only [List.map_cons, List.map_nil, List.mem_singleton] at hb
  subst hb
  rintro rfl
  apply hn
  have := akeys_map_content p.archive
  simp only [akeys] at this
  rw [this] at ha
  exact ha

theorem mapRes_ok {α β : Type} {f : α → Res β} {g : α → β} {l : List α} (h : ∀ x ∈ l, f x = .ok (g x)) :
    mapRes f l = .ok (l.map g) := by
  induction l with
  | nil => rfl
  | cons x xs ih =>
    simp only [mapRes, h x (by simp), ih (fun y hy => h y (by simp [hy])), List.map_cons]

theorem mapRes_ok_of_eq {α β : Type} {f : α → Res β} {l : List α} {r : List β} (h : mapRes f l = .ok r) :
    r.length = l.length ∧ ∀ x ∈ l, ∃ y ∈ r, f x = .ok y := by
  induction l generalizing r with
  | nil => cases h; exact ⟨rfl, by simp⟩
  | cons x xs ih =>
    rw [mapRes] at h
    split at h
    · cases h
    · rename_i y hy
      split at h
      · cases h
      · rename_i ys hys
        cases h
        obtain ⟨h1, h2⟩ := ih hys
        refine ⟨by simp [h1], ?_⟩
        intro z hz
        rcases List.mem_cons.mp hz with rfl | hz
        · exact ⟨y, by simp, hy⟩
        · obtain ⟨w, hw, he⟩ := h2 z hz
          exact ⟨w, by simp [hw], he⟩

/-! ### Loading -/

theorem loadEntry_content {types : XDoc} {exts : List (String × String)} {n : String} {c : List Char} {e : Entry}
    (h : loadEntry types exts n c = .ok e) : e.content = c := by
  unfold loadEntry at h
  split at h
  · cases h
  · split at h <;> cases h <;> rfl

theorem loadEntries_ok {types : XDoc} {exts : List (String × String)} {z : Zip} {m : List (String × Entry)}
    (h : loadEntries types exts z = .ok m) :
    akeys m = akeys z ∧ ∀ n, (aget n m).map (fun e => (.ok e : Res Entry)) = (aget n z).map (fun c => loadEntry types exts n c) := by
  induction z generalizing m with
  | nil => cases h; exact ⟨rfl, fun n => rfl⟩
  | cons x xs ih =>
    obtain ⟨k, c⟩ := x
    rw [loadEntries] at h
    split at h
    · cases h
    · rename_i e he
      split at h
      · cases h
      · rename_i m' hm
        cases h
        obtain ⟨h1, h2⟩ := ih hm
        refine ⟨by simp only [akeys, List.map_cons, List.cons.injEq, true_and] at h1 ⊢; exact h1, ?_⟩
        intro n
        simp only [aget]
        split
        · rename_i hk; subst hk; simp [he]
        · exact h2 n

theorem akeys_filter_nodup {V : Type} (f : String × V → Bool) {z : List (String × V)} (h : (akeys z).Nodup) : (akeys (z.filter f)).Nodup :=
  List.Nodup.sublist (List.Sublist.map Prod.fst List.filter_sublist) h

theorem aget_filter_ne {V : Type} {z : List (String × V)} {k n : String} (h : n ≠ k) :
    aget n (z.filter (fun kv => kv.1 ≠ k)) = aget n z := by
  induction z with
  | nil => rfl
  | cons x xs ih =>
    obtain ⟨j, v⟩ := x
    rw [List.filter_cons]
    split
    · simp only [aget]; split
      · rfl
      · exact ih
    · rename_i hj
      simp only [decide_not, Bool.not_eq_true', decide_eq_false_iff_not, Decidable.not_not] at hj
      subst hj
      simp only [aget, if_neg (Ne.symm h)]
      exact ih

theorem aget_filter_self {V : Type} {z : List (String × V)} {k : String} : aget k (z.filter (fun kv => kv.1 ≠ k)) = none := by
  rw [aget_eq_none_iff]
  intro h
  obtain ⟨kv, hkv, he⟩ := List.mem_map.mp h
  have := (List.mem_filter.mp hkv).2
  simp at this
  exact this he

theorem ofZip_ok {env : Env} {z : Zip} {p : Pkg} (h : Pkg.ofZip env z = .ok p) :
    ∃ ct d exts, aget contentTypesName z = some ct ∧ readXml env.uni ct = .ok d ∧ getExtensions d.toXDoc = .ok exts ∧
      loadEntries d.toXDoc exts (z.filter (fun kv => kv.1 ≠ contentTypesName)) = .ok p.archive ∧ p.opened = [] ∧ p.nextHandle = 0 := by
  unfold Pkg.ofZip at h
  split at h
  · cases h
  · rename_i ct hct
    split at h
    · cases h
    · rename_i d hd
      split at h
      · cases h
      · rename_i exts he
        split at h
        · cases h
        · rename_i m hm
          cases h
          exact ⟨ct, d, exts, hct, hd, he, hm, rfl, rfl⟩

theorem Pkg.Inv.ofZip {env : Env} {z : Zip} {p : Pkg} (hz : (akeys z).Nodup) (h : Pkg.ofZip env z = .ok p) : p.Inv := by
  obtain ⟨ct, d, exts, _, _, _, hl, ho, hn⟩ := ofZip_ok h
  refine ⟨by simp [ho, akeys], ?_, by simp [ho, akeys], by simp [ho], by simp [ho]⟩
  rw [(loadEntries_ok hl).1]
  exact akeys_filter_nodup _ hz

theorem ofZip_content {env : Env} {z : Zip} {p : Pkg} (h : Pkg.ofZip env z = .ok p) {n : String} (hn : n ≠ contentTypesName) :
    (aget n p.archive).map Entry.content = aget n z := by
  obtain ⟨ct, d, exts, _, _, _, hl, _, _⟩ := ofZip_ok h
  have h2 := (loadEntries_ok hl).2 n
  rw [aget_filter_ne hn] at h2
  cases hz : aget n z with
  | none => rw [hz] at h2; cases hp : aget n p.archive with
    | none => rfl
    | some e => rw [hp] at h2; cases h2
  | some c =>
    rw [hz] at h2
    cases hp : aget n p.archive with
    | none => rw [hp] at h2; cases h2
    | some e =>
      rw [hp] at h2
      simp only [Option.map_some, Option.some.injEq] at h2
      simp [loadEntry_content h2.symm]

theorem ofZip_no_types {env : Env} {z : Zip} {p : Pkg} (h : Pkg.ofZip env z = .ok p) : contentTypesName ∉ akeys p.archive := by
  obtain ⟨ct, d, exts, _, _, _, hl, _, _⟩ := ofZip_ok h
  rw [(loadEntries_ok hl).1, ← aget_eq_none_iff]
  exact aget_filter_self

end Oxml
