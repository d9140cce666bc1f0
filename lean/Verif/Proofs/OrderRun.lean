import Verif.Proofs.OrderExcel
import Verif.Proofs.ContentTypes
/-!
# ProgramRuns, saved files and opening them
-/
namespace Oxml
open Spec

/-! ### The relations compose -/

theorem Spec.SameMap.trans {a b c : Attrs} (h : SameMap a b) (h' : SameMap b c) : SameMap a c := ⟨h.perm.trans h'.perm, h.keys⟩

theorem Spec.SameAttrs.trans {a b c : Option Attrs} (h : SameAttrs a b) (h' : SameAttrs b c) : SameAttrs a c := by
  cases h with
  | none => exact h'
  | some h => cases h' with
    | some h' => exact .some (h.trans h')

theorem Spec.SameNode.trans : ∀ n m k : Node, SameNode n m → SameNode m k → SameNode n k := by
  intro n
  refine Node.ind (P := fun n => ∀ m k, SameNode n m → SameNode m k → SameNode n k) ?_ n
  intro t a v cs ih m k h h'
  cases h with
  | mk ha hc =>
    cases h' with
    | mk ha' hc' =>
      refine .mk (ha.trans ha') (sameNodes_iff.mpr ?_)
      replace hc := sameNodes_iff.mp hc
      replace hc' := sameNodes_iff.mp hc'
      rename_i ds es
      clear ha ha'
      induction hc generalizing es with
      | nil => cases hc'; exact .nil
      | cons h _ ihc =>
        cases hc' with
        | cons h' hs' => exact .cons (ih _ List.mem_cons_self _ _ h h') (ihc (fun c hc => ih c (List.mem_cons_of_mem _ hc)) hs')

theorem Spec.SameDoc.trans {x y z : XDoc} (h : SameDoc x y) (h' : SameDoc y z) : SameDoc x z := by
  refine ⟨h.ns.trans h'.ns, ?_⟩
  have h1 := h.root
  have h2 := h'.root
  generalize x.root = a at h1
  generalize y.root = b at h1 h2
  generalize z.root = c at h2
  cases h1 with
  | none => exact h2
  | some h1 => cases h2 with
    | some h2 => exact .some (SameNode.trans _ _ _ h1 h2)

theorem Spec.SameText.symm {env : Env} {c d : List Char} (h : SameText env c d) : SameText env d c := by
  cases h with
  | same h => exact .same h
  | rendered h hs =>
    have : DocLike env.uni _ _ := ⟨h, hs⟩
    exact .rendered this.symm.same this.symm.sound

theorem Spec.SameEntry.symm {env : Env} {e f : Entry} (h : SameEntry env e f) : SameEntry env f e := ⟨h.ext.symm, h.extType.symm, h.ctype.symm, h.content.symm⟩

theorem Spec.SameOpen.symm {env : Env} {o q : OpenDoc} (h : SameOpen env o q) : SameOpen env q o :=
  have : DocLike env.uni o.doc q.doc := ⟨h.doc, h.sound⟩
  ⟨h.handle.symm, h.ctype.symm, h.ext.symm, h.extType.symm, this.symm.same, this.symm.sound⟩

theorem Spec.SameOpt.symm {α : Type} {R : α → α → Prop} (hR : ∀ a b, R a b → R b a) {a b : Option α} (h : SameOpt R a b) : SameOpt R b a := by
  cases h with
  | none => exact .none
  | some h => exact .some (hR _ _ h)

theorem Spec.SameKeyed.symm {V : Type} {R : V → V → Prop} (hR : ∀ a b, R a b → R b a) {m n : List (String × V)} (h : SameKeyed R m n) : SameKeyed R n m :=
  ⟨h.right, h.left, fun k => (h.get k).symm hR⟩

theorem Spec.SamePkg.symm {env : Env} {p q : Pkg} (h : SamePkg env p q) : SamePkg env q p := by
  refine ⟨h.opened.symm fun _ _ h => h.symm, h.archive.symm fun _ _ h => h.symm, h.next.symm, h.handles', ?_⟩
  intro k o ho
  rcases h.opened.cases k with ⟨_, e⟩ | ⟨a, b, e1, e2, e3⟩
  · rw [e] at ho; cases ho
  · rw [e2] at ho; cases ho
    have := h.below k a e1
    rw [e3.handle, h.next] at this
    exact this

theorem Spec.SameExcel.symm {env : Env} {x y : Excel} (h : SameExcel env x y) : SameExcel env y x := by
  obtain ⟨q, rfl, hq⟩ := h.shape
  exact ⟨hq.symm, rfl⟩

theorem Spec.SameSession.symm {env : Env} {s t : Session} (h : SameSession env s t) : SameSession env t s := ⟨h.x.symm, h.handles.symm⟩

theorem Spec.SameSession.shuffled {env : Env} {s t t' : Session} (h : SameSession env s t) (hs : Shuffled t t') : SameSession env s t' := by
  have hr := hs.rest
  have hp := h.x.pkg
  refine ⟨⟨⟨⟨hp.opened.left, hs.opened.right, fun k => ?_⟩, ⟨hp.archive.left, ?_, fun k => ?_⟩, hp.next.trans hs.next, hp.handles, hp.below⟩, ?_⟩, ?_⟩
  · rcases hp.opened.cases k with ⟨e1, e2⟩ | ⟨a, b, e1, e2, e3⟩
    · rcases hs.opened.cases k with ⟨f1, f2⟩ | ⟨a', b', f1, f2, f3⟩
      · rw [e1, f2]; exact .none
      · rw [f1] at e2; cases e2
    · rcases hs.opened.cases k with ⟨f1, f2⟩ | ⟨a', b', f1, f2, f3⟩
      · rw [f1] at e2; cases e2
      · rw [f1] at e2; cases e2
        rw [e1, f2]
        have g := f3.rest
        exact .some ⟨e3.handle.trans (by rw [← g]), e3.ctype.trans (by rw [← g]), e3.ext.trans (by rw [← g]), e3.extType.trans (by rw [← g]),
          e3.doc.trans f3.doc, e3.sound⟩
  · exact (hs.archive.map Prod.fst).nodup_iff.mp hp.archive.right
  · rw [← aget_perm hs.archive hp.archive.right]
    exact hp.archive.get k
  · rw [← hr]
    have := h.x.rest
    rw [← this]
  · rw [← hr]; exact h.handles

theorem runs_same {env : Env} (hst : env.build.release = true → StampOk env.stamp) {s t : Session} {ops : List WbOp} {rs : List (Res Unit)}
    (h : ProgramRuns env s ops rs t) : ∀ {s' t' : Session} {rs' : List (Res Unit)}, SameSession env s s' → ProgramRuns env s' ops rs' t' → rs = rs' ∧ SameSession env t t' := by
  induction h with
  | done hs =>
    intro s' t' rs' hss h'
    cases h' with
    | done hs' => exact ⟨rfl, ((hss.shuffled hs').symm.shuffled hs).symm⟩
  | @step s s1 s2 t op ops r rs hs he hr _ ih =>
    intro s' t' rs' hss h'
    cases h' with
    | step hs' he' hr' rest' =>
      have := step_same hst ((hss.shuffled hs').symm.shuffled hs).symm op
      rw [he, he'] at this
      obtain ⟨h1, h2⟩ := this
      dsimp only at h1 h2
      subst h1
      obtain ⟨h3, h4⟩ := ih h2 rest'
      exact ⟨by rw [h3], h4⟩
    | crash hs' he' =>
      have := step_same hst ((hss.shuffled hs').symm.shuffled hs).symm op
      rw [he, he'] at this
      exact absurd this.1 (hr _)
  | @crash s s1 s2 op ops m hs he =>
    intro s' t' rs' hss h'
    cases h' with
    | step hs' he' hr' rest' =>
      have := step_same hst ((hss.shuffled hs').symm.shuffled hs).symm op
      rw [he, he'] at this
      exact absurd this.1.symm (hr' _)
    | crash hs' he' =>
      have := step_same hst ((hss.shuffled hs').symm.shuffled hs).symm op
      rw [he, he'] at this
      obtain ⟨h1, h2⟩ := this
      dsimp only at h1 h2
      exact ⟨by rw [h1], h2⟩

theorem Spec.SameNode.refl_of {u : Unicode} {n : Node} (h : WfNode u n) : SameNode n n := (alike_self n h).same

theorem shuffled_self {env : Env} {s : Session} (h : SameSession env s s) : Shuffled s s := by
  refine ⟨⟨h.x.pkg.opened.left, h.x.pkg.opened.left, fun k => ?_⟩, .refl _, rfl, rfl⟩
  have := h.x.pkg.opened.get k
  generalize aget k s.x.pkg.opened = a at this
  cases this with
  | none => exact .none
  | some h => exact .some ⟨h.doc, rfl⟩

/-- The run of the model is one of the runs. -/
theorem run_runs {env : Env} (hst : env.build.release = true → StampOk env.stamp) {ops : List WbOp} : ∀ {s s' t : Session}, Shuffled s s' → SameSession env s' s' →
    s'.run env ops = .ok t → ∃ rs, ProgramRuns env s ops rs t := by
  induction ops with
  | nil =>
    intro s s' t hsh h hr
    unfold Session.run at hr
    cases hr
    exact ⟨_, .done hsh⟩
  | cons op ops ih =>
    intro s s' t hsh h hr
    unfold Session.run at hr
    have hs := step_same hst h op
    cases he : s'.step env op with
    | mk r s1 =>
      rw [he] at hr hs
      cases r with
      | error e =>
        cases e with
        | panic m => cases hr
        | fail m =>
          obtain ⟨rs, h1⟩ := ih (shuffled_self hs.2) hs.2 hr
          exact ⟨_, .step hsh he (fun m h => by cases h) h1⟩
      | ok v =>
        obtain ⟨rs, h1⟩ := ih (shuffled_self hs.2) hs.2 hr
        exact ⟨_, .step hsh he (fun m h => by cases h) h1⟩

/-! ### Saving -/

theorem openTag_attrs (b : Build) (tag : String) {a a' : Option Attrs} (h : SameAttrs a a') (ns : Option Attrs) (c : Bool) :
    openTag b tag a ns c = openTag b tag a' ns c := by
  cases h with
  | none => rfl
  | some h => unfold openTag; dsimp only; rw [h.sort]

theorem render_same (b : Build) : ∀ n m : Node, SameNode n m → render b n = render b m := by
  intro n
  refine Node.ind (P := fun n => ∀ m, SameNode n m → render b n = render b m) ?_ n
  intro t a v cs ih m h
  cases h with
  | mk ha hc =>
    replace hc := sameNodes_iff.mp hc
    cases hc with
    | nil => cases v <;> simp only [render, openTag_attrs b t ha]
    | @cons c d cs ds h hs =>
      have hall : renders b (c :: cs) = renders b (d :: ds) := by
        have hp : Pairs SameNode (c :: cs) (d :: ds) := .cons h hs
        generalize c :: cs = l at hp ih
        generalize d :: ds = l' at hp
        clear h hs
        induction hp with
        | nil => rfl
        | cons h _ ihc => simp only [renders]; rw [ih _ List.mem_cons_self _ h, ihc (fun c hc => ih c (List.mem_cons_of_mem _ hc))]
      cases v <;> simp only [render, openTag_attrs b t ha]
      rw [hall]

theorem renders_same (b : Build) {ns ms : List Node} (h : Pairs SameNode ns ms) : renders b ns = renders b ms := by
  induction h with
  | nil => rfl
  | cons h _ ih => simp only [renders]; rw [render_same b _ _ h, ih]

/-- Two renderings of one document differ in the order of the namespace declarations of the root element only. -/
theorem rendered_shape (b : Build) (stamp : List Char) {x y : XDoc} (h : SameDoc x y) :
    ∃ (pre post : List Char) (l k : Attrs), l.Perm k ∧ renderDoc b stamp x = pre ++ joinSpace (l.map nsText) ++ post ∧ renderDoc b stamp y = pre ++ joinSpace (k.map nsText) ++ post := by
  have hr := h.root
  unfold renderDoc
  generalize x.root = r at hr
  generalize y.root = s at hr
  cases hr with
  | none => exact ⟨xmlHeader b stamp, [], [], [], .refl _, by simp [joinSpace], by simp [joinSpace]⟩
  | @some r s hr =>
    cases hr with
    | @mk t a a' v cs ds ha hc =>
      replace hc := sameNodes_iff.mp hc
      have hns := (releaseNs_same (b := b) h.ns).perm
      have key : ∀ c : Bool, ∃ pre post, openTag b t a (some x.ns) c = pre ++ joinSpace ((releaseNs b x.ns).map nsText) ++ post ∧
          openTag b t a' (some y.ns) c = pre ++ joinSpace ((releaseNs b y.ns).map nsText) ++ post := by
        intro c
        rw [← openTag_attrs b t ha]
        refine ⟨'<' :: t.toList ++ [' '], (match a with
          | some a => ' ' :: joinSpace ((sortAttrs a).map attrText)
          | none => []) ++ (if c then " />".toList else " >".toList), ?_, ?_⟩ <;> (simp only [openTag, List.append_assoc, List.cons_append, List.nil_append]; cases ha <;> rfl)
      cases hc with
      | nil =>
        cases v with
        | none =>
          obtain ⟨pre, post, h1, h2⟩ := key true
          exact ⟨xmlHeader b stamp ++ pre, post, _, _, hns, by simp only [renderRoot, h1, List.append_assoc], by simp only [renderRoot, h2, List.append_assoc]⟩
        | some v =>
          obtain ⟨pre, post, h1, h2⟩ := key false
          exact ⟨xmlHeader b stamp ++ pre, post ++ valueClose v t, _, _, hns, by simp only [renderRoot, h1, List.append_assoc], by simp only [renderRoot, h2, List.append_assoc]⟩
      | @cons c d cs ds hh hs =>
        have hall := renders_same b (Pairs.cons hh hs)
        obtain ⟨pre, post, h1, h2⟩ := key false
        cases v with
        | none =>
          exact ⟨xmlHeader b stamp ++ pre, post ++ (renders b (c :: cs) ++ valueClose "" t), _, _, hns, by simp only [renderRoot, h1, List.append_assoc],
            by simp only [renderRoot, h2, hall, List.append_assoc]⟩
        | some v =>
          exact ⟨xmlHeader b stamp ++ pre, post ++ valueClose v t, _, _, hns, by simp only [renderRoot, h1, List.append_assoc], by simp only [renderRoot, h2, List.append_assoc]⟩

theorem text_shape {env : Env} {c d : List Char} (h : SameText env c d) :
    ∃ (pre post : List Char) (l k : Attrs), l.Perm k ∧ c = pre ++ joinSpace (l.map nsText) ++ post ∧ d = pre ++ joinSpace (k.map nsText) ++ post := by
  cases h with
  | same h => exact ⟨c, [], [], [], .refl _, by simp [joinSpace], by simp [joinSpace]⟩
  | rendered h hs => exact rendered_shape env.build env.stamp h

theorem overrides_nodup {p : Pkg} (hp : (akeys p.archive).Nodup) : (p.overrides.map Prod.fst).Nodup := by
  unfold Pkg.overrides
  generalize p.archive = m at hp
  induction m with
  | nil => exact List.nodup_nil
  | cons kv m ih =>
    obtain ⟨k, e⟩ := kv
    simp only [akeys, List.map_cons, List.nodup_cons] at hp
    rw [List.filterMap_cons]
    cases e.ctype with
    | none => exact ih hp.2
    | some c =>
      simp only [Option.map_some, List.map_cons, List.nodup_cons]
      refine ⟨?_, ih hp.2⟩
      intro hm
      obtain ⟨o, ho, he⟩ := List.mem_map.mp hm
      obtain ⟨kv, hkv, hc⟩ := List.mem_filterMap.mp ho
      cases h2 : kv.2.ctype with
      | none => rw [h2] at hc; cases hc
      | some c' =>
        rw [h2] at hc
        cases hc
        exact hp.1 (List.mem_map.mpr ⟨kv, hkv, slash_inj he⟩)

theorem overrides_perm {env : Env} {p q : Pkg} (h : SamePkg env p q) : p.overrides.Perm q.overrides := by
  have key : ∀ m : List (String × Entry), m.filterMap (fun kv => kv.2.ctype.map (fun c => ("/" ++ kv.1, c))) =
      (m.map (fun kv => (kv.1, kv.2.ctype))).filterMap (fun kv => kv.2.map (fun c => ("/" ++ kv.1, c))) := by
    intro m; rw [List.filterMap_map]; rfl
  unfold Pkg.overrides
  rw [key, key]
  apply List.Perm.filterMap
  have hk : ∀ m : List (String × Entry), akeys (m.map (fun kv => (kv.1, kv.2.ctype))) = akeys m := by
    intro m; simp only [akeys, List.map_map]; rfl
  have hg : ∀ (m : List (String × Entry)) k, aget k (m.map (fun kv => (kv.1, kv.2.ctype))) = (aget k m).map Entry.ctype := by
    intro m k
    induction m with
    | nil => rfl
    | cons kv m ih =>
      obtain ⟨j, e⟩ := kv
      simp only [List.map_cons, aget]
      split
      · rfl
      · exact ih
  refine perm_of_get (by rw [hk]; exact h.archive.left) (by rw [hk]; exact h.archive.right) (fun k => ?_)
  rw [hg, hg]
  rcases h.archive.cases k with ⟨e1, e2⟩ | ⟨a, b, e1, e2, e3⟩
  · rw [e1, e2]
  · rw [e1, e2]; simp only [Option.map_some, e3.ctype]

theorem extPairs_mem {env : Env} {p q : Pkg} (h : SamePkg env p q) (x : String × String) (hx : x ∈ p.extPairs) : x ∈ q.extPairs := by
  obtain ⟨⟨k, e⟩, hm, rfl⟩ := List.mem_map.mp hx
  have hk := aget_of_mem h.archive.left hm
  rcases h.archive.cases k with ⟨e1, _⟩ | ⟨a, b, e1, e2, e3⟩
  · rw [e1] at hk; cases hk
  · rw [e1] at hk; cases hk
    exact List.mem_map.mpr ⟨(k, b), mem_of_aget e2, by rw [e3.ext, e3.extType]⟩

theorem pkgToZip_same {env : Env} {p q : Pkg} (h : SamePkg env p q) {e f : List (String × String)} (he : HashSetOrder p.extPairs e) (hf : HashSetOrder q.extPairs f) :
    SameRes (SameZip env) (p.toZip env e) (q.toZip env f) := by
  have hh := h.archive.has contentTypesName
  cases hb : ahas contentTypesName p.archive with
  | true =>
    unfold Pkg.toZip
    rw [← hh, hb]
    exact .error _
  | false =>
    have hz : p.toZip env e = .ok (p.archive.map (fun kv => (kv.1, kv.2.content)) ++
        [(contentTypesName, renderDoc env.build env.stamp (contentTypesDoc e p.overrides))]) := by
      unfold Pkg.toZip; rw [hb]; rfl
    have hw : q.toZip env f = .ok (q.archive.map (fun kv => (kv.1, kv.2.content)) ++
        [(contentTypesName, renderDoc env.build env.stamp (contentTypesDoc f q.overrides))]) := by
      unfold Pkg.toZip; rw [← hh, hb]; rfl
    have hct : ∀ {r : Pkg} {g : List (String × String)}, ahas contentTypesName r.archive = false → aget contentTypesName (r.archive.map (fun kv => (kv.1, kv.2.content)) ++
        [(contentTypesName, renderDoc env.build env.stamp (contentTypesDoc g r.overrides))]) = some (renderDoc env.build env.stamp (contentTypesDoc g r.overrides)) := by
      intro r g hr
      rw [aget_append, aget_map_content]
      unfold ahas at hr
      cases ha : aget contentTypesName r.archive with
      | some _ => rw [ha] at hr; cases hr
      | none => simp [aget]
    have hnd : ∀ {r : Pkg} {g : List (String × String)} {z : Zip}, (akeys r.archive).Nodup → r.toZip env g = .ok z → (akeys z).Nodup := by
      intro r g z hr hz
      exact toZip_nodup (p := { r with opened := [] }) ⟨List.nodup_nil, hr, (fun n hn => by cases hn), (fun n hn => by cases hn), List.nodup_nil⟩ hz
    rw [hz, hw]
    refine .ok ⟨hnd h.archive.left hz, hnd h.archive.right hw, fun k hk => ?_, e, f, p.overrides, q.overrides, ?_, overrides_perm h, he.nodup,
      overrides_nodup h.archive.left, hct hb, hct (hh ▸ hb)⟩
    · rw [toZip_aget hz hk, toZip_aget hw hk]
      rcases h.archive.cases k with ⟨e1, e2⟩ | ⟨a, b, e1, e2, e3⟩
      · rw [e1, e2]; exact .none
      · rw [e1, e2]; exact .some e3.content
    · refine (List.perm_ext_iff_of_nodup he.nodup hf.nodup).mpr fun x => ?_
      rw [he.mem, hf.mem]
      exact ⟨extPairs_mem h x, extPairs_mem h.symm x⟩

theorem toZip_same {env : Env} {now : String} {x y : Excel} (h : SameExcel env x y) {e f : List (String × String)}
    (he : ∀ p, x.saved env now = .ok p → HashSetOrder p.extPairs e) (hf : ∀ p, y.saved env now = .ok p → HashSetOrder p.extPairs f) :
    SameRes (SameZip env) (x.toZip env now e) (y.toZip env now f) := by
  unfold Excel.toZip
  have hs := saved_same (now := now) h
  have hfs := failedSave_same (now := now) h
  generalize x.saved env now = a at hs he
  generalize y.saved env now = b at hs hf
  cases hs with
  | error err => dsimp only; rw [hfs]; exact .error _
  | ok hp => exact pkgToZip_same hp (he _ rfl) (hf _ rfl)

/-! ### Opening -/

theorem loadEntries_error {types : XDoc} {exts : List (String × String)} {z : Zip} {err : Err} (h : loadEntries types exts z = .error err) :
    ∃ n c, (n, c) ∈ z ∧ loadEntry types exts n c = .error err := by
  induction z with
  | nil => cases h
  | cons kv z ih =>
    obtain ⟨n, c⟩ := kv
    unfold loadEntries at h
    split at h
    · next e he => cases h; exact ⟨n, c, List.mem_cons_self, he⟩
    · split at h
      · next e he => cases h; obtain ⟨n, c, h1, h2⟩ := ih he; exact ⟨n, c, List.mem_cons_of_mem _ h1, h2⟩
      · cases h

theorem loadEntry_error {types : XDoc} {exts : List (String × String)} {n : String} {c : List Char} {err : Err} (h : loadEntry types exts n c = .error err) :
    err = .panic "unwrap on None" := by
  unfold loadEntry at h
  split at h
  · next e he =>
    cases h
    unfold overrideContentType at he
    split at he
    · cases he
    · split at he
      · cases he
      · cases he; rfl
  · split at h <;> cases h

theorem loadEntry_same {env : Env} {x y : XDoc} {e f : List (String × String)} {n : String} (ho : overrideContentType x n = overrideContentType y n)
    (hx : e.find? (fun e => e.1 = fileExtension n) = f.find? (fun e => e.1 = fileExtension n)) {c d : List Char} (h : SameText env c d) :
    SameRes (SameEntry env) (loadEntry x e n c) (loadEntry y f n d) := by
  unfold loadEntry
  rw [ho, hx]
  split
  · exact .error _
  · split
    · exact .ok ⟨rfl, rfl, rfl, h⟩
    · exact .ok ⟨rfl, rfl, rfl, h⟩

theorem loadEntries_same {env : Env} {x y : XDoc} {e f : List (String × String)}
    (hl : ∀ n c d, SameText env c d → SameRes (SameEntry env) (loadEntry x e n c) (loadEntry y f n d)) {z w : Zip} (h : SameKeyed (SameText env) z w) :
    SameRes (SameKeyed (SameEntry env)) (loadEntries x e z) (loadEntries y f w) := by
  have bad : ∀ {x y : XDoc} {e f : List (String × String)} {z w : Zip} {m : List (String × Entry)} {err : Err},
      (∀ n c d, SameText env c d → SameRes (SameEntry env) (loadEntry x e n c) (loadEntry y f n d)) → SameKeyed (SameText env) z w →
      loadEntries x e z = .error err → loadEntries y f w = .ok m → False := by
    intro x y e f z w m err hl h h1 h2
    obtain ⟨n, c, hm, hc⟩ := loadEntries_error h1
    rcases h.cases n with ⟨e1, _⟩ | ⟨a, b, e1, e2, e3⟩
    · rw [aget_of_mem h.left hm] at e1; cases e1
    · rw [aget_of_mem h.left hm] at e1; cases e1
      have h4 := hl n _ _ e3
      rw [hc] at h4
      have h5 := (loadEntries_ok h2).2 n
      rw [e2] at h5
      cases hb : loadEntry y f n b with
      | error err' => rw [Option.map_some, hb] at h5; cases h6 : aget n m <;> rw [h6] at h5 <;> cases h5
      | ok v => rw [hb] at h4; cases h4
  cases h1 : loadEntries x e z with
  | error err =>
    cases h2 : loadEntries y f w with
    | error err' =>
      obtain ⟨n, c, _, hc⟩ := loadEntries_error h1
      obtain ⟨n', c', _, hc'⟩ := loadEntries_error h2
      rw [loadEntry_error hc, loadEntry_error hc']
      exact .error _
    | ok m => exact (bad hl h h1 h2).elim
  | ok m =>
    cases h2 : loadEntries y f w with
    | error err =>
      refine (bad (x := y) (y := x) (e := f) (f := e) ?_ (h.symm fun _ _ h => h.symm) h2 h1).elim
      intro n c d hcd
      have := hl n d c hcd.symm
      generalize loadEntry x e n d = a at this
      generalize loadEntry y f n c = b at this
      cases this with
      | error e => exact .error e
      | ok h => exact .ok h.symm
    | ok m' =>
      have k1 := loadEntries_ok h1
      have k2 := loadEntries_ok h2
      refine .ok ⟨by rw [k1.1]; exact h.left, by rw [k2.1]; exact h.right, fun n => ?_⟩
      have g1 := k1.2 n
      have g2 := k2.2 n
      rcases h.cases n with ⟨e1, e2⟩ | ⟨a, b, e1, e2, e3⟩
      · rw [e1] at g1; rw [e2] at g2
        cases ha : aget n m with
        | some _ => rw [ha] at g1; cases g1
        | none =>
          cases hb : aget n m' with
          | some _ => rw [hb] at g2; cases g2
          | none => exact .none
      · rw [e1] at g1; rw [e2] at g2
        have h4 := hl n _ _ e3
        cases ha : aget n m with
        | none => rw [ha] at g1; cases g1
        | some v =>
          cases hb : aget n m' with
          | none => rw [hb] at g2; cases g2
          | some v' =>
            rw [ha] at g1; rw [hb] at g2
            simp only [Option.map_some, Option.some.injEq] at g1 g2
            rw [← g1, ← g2] at h4
            cases h4 with
            | ok h => exact .some h

theorem filter_same {env : Env} {z w : Zip} (hz : (akeys z).Nodup) (hw : (akeys w).Nodup)
    (h : ∀ k, k ≠ contentTypesName → SameOpt (SameText env) (aget k z) (aget k w)) :
    SameKeyed (SameText env) (z.filter (fun kv => kv.1 ≠ contentTypesName)) (w.filter (fun kv => kv.1 ≠ contentTypesName)) := by
  refine ⟨akeys_filter_nodup _ hz, akeys_filter_nodup _ hw, fun k => ?_⟩
  by_cases hk : k = contentTypesName
  · subst hk
    rw [aget_filter_self, aget_filter_self]
    exact .none
  · rw [aget_filter_ne hk, aget_filter_ne hk]
    exact h k hk

theorem loadedPkg_same {env : Env} {m n : List (String × Entry)} (h : SameKeyed (SameEntry env) m n) : SamePkg env ⟨[], m, 0⟩ ⟨[], n, 0⟩ :=
  ⟨⟨List.nodup_nil, List.nodup_nil, fun _ => .none⟩, h, rfl, (fun _ _ _ _ h => by cases h), (fun _ _ h => by cases h)⟩

theorem ofZip_entries {env : Env} {x y : XDoc} {e f : List (String × String)} {z w : Zip}
    (hl : ∀ n c d, SameText env c d → SameRes (SameEntry env) (loadEntry x e n c) (loadEntry y f n d)) (hk : SameKeyed (SameText env) z w) :
    SameRes (SamePkg env)
      (match loadEntries x e z with
        | .error e => .error e
        | .ok m => .ok { opened := [], archive := m, nextHandle := 0 })
      (match loadEntries y f w with
        | .error e => .error e
        | .ok m => .ok { opened := [], archive := m, nextHandle := 0 }) := by
  have := loadEntries_same hl hk
  generalize loadEntries x e z = a at this
  generalize loadEntries y f w = b at this
  cases this with
  | error e => exact .error e
  | ok h => exact .ok (loadedPkg_same h)

/-- The same file with its entries in another order. -/
theorem ofZip_perm {env : Env} {z w : Zip} (hz : (akeys z).Nodup) (hc : CleanZip env z) (h : z.Perm w) :
    SameRes (SamePkg env) (Pkg.ofZip env z) (Pkg.ofZip env w) := by
  have hw : (akeys w).Nodup := (h.map Prod.fst).nodup_iff.mp hz
  have hk := filter_same (env := env) hz hw (fun k _ => by
    rw [← aget_perm h hz k]
    cases hk : aget k z with
    | none => exact .none
    | some c => exact .some (.same (fun d hd => hc k c d hk hd)))
  unfold Pkg.ofZip
  rw [← aget_perm h hz]
  cases aget contentTypesName z with
  | none => exact .error _
  | some c =>
    dsimp only
    cases readXml env.uni c with
    | error e => exact .error e
    | ok d =>
      dsimp only
      cases getExtensions d.toXDoc with
      | error e => exact .error e
      | ok exts => exact ofZip_entries (fun n c d h => loadEntry_same rfl rfl h) hk

theorem find_perm {l k : List (String × String)} (h : l.Perm k) (hf : ∀ x t t', (x, t) ∈ l → (x, t') ∈ l → t = t') (x : String) :
    l.find? (fun e => e.1 = x) = k.find? (fun e => e.1 = x) := by
  cases hl : l.find? (fun e => e.1 = x) with
  | none =>
    refine (List.find?_eq_none.mpr fun e he => ?_).symm
    exact List.find?_eq_none.mp hl e (h.mem_iff.mpr he)
  | some e =>
    have he := List.mem_of_find?_eq_some hl
    have hx : e.1 = x := by simpa using List.find?_some hl
    cases hk : k.find? (fun e => e.1 = x) with
    | none => exact absurd hx (by simpa using List.find?_eq_none.mp hk e (h.mem_iff.mp he))
    | some g =>
      have hg := h.mem_iff.mpr (List.mem_of_find?_eq_some hk)
      have hgx : g.1 = x := by simpa using List.find?_some hk
      obtain ⟨a, b⟩ := e
      obtain ⟨a', b'⟩ := g
      dsimp only at hx hgx
      subst hx hgx
      rw [hf _ _ _ he hg]

theorem last_perm {o q : List (String × String)} (h : o.Perm q) (hn : (o.map Prod.fst).Nodup) (n : String) :
    (o.filter (fun o => escStr o.1 = n)).getLast? = (q.filter (fun o => escStr o.1 = n)).getLast? := by
  have hp := h.filter (fun o => decide (escStr o.1 = n))
  have hone : ∀ a ∈ o.filter (fun o => escStr o.1 = n), ∀ b ∈ o.filter (fun o => escStr o.1 = n), a.1 = b.1 := by
    intro a ha b hb
    have h1 := (List.mem_filter.mp ha).2
    have h2 := (List.mem_filter.mp hb).2
    simp only [decide_eq_true_eq] at h1 h2
    exact escStr_inj (h1.trans h2.symm)
  have hnf : ((o.filter (fun o => escStr o.1 = n)).map Prod.fst).Nodup := List.Nodup.sublist (List.Sublist.map Prod.fst List.filter_sublist) hn
  generalize o.filter (fun o => escStr o.1 = n) = l at hp hone hnf
  generalize q.filter (fun o => escStr o.1 = n) = k at hp
  match l, hone, hnf, hp with
  | [], _, _, hp => rw [List.nil_perm.mp hp]
  | [a], _, _, hp => rw [List.singleton_perm.mp hp]
  | a :: b :: l, hone, hnf, _ =>
    have := hone a (by simp) b (by simp)
    simp only [List.map_cons, List.nodup_cons, List.mem_cons] at hnf
    exact absurd (Or.inl this) hnf.1

/-- The same saved file. -/
theorem ofZip_same {env : Env} (hst : env.build.release = true → StampOk env.stamp) {z w : Zip} (h : SameZip env z w) (ho : OneType env z) :
    SameRes (SamePkg env) (Pkg.ofZip env z) (Pkg.ofZip env w) := by
  obtain ⟨e, f, o, q, hef, hoq, he, hn, hz, hw⟩ := h.types
  have hk := filter_same h.left h.right h.parts
  by_cases hne : e = [] ∧ o = []
  · obtain ⟨rfl, rfl⟩ := hne
    rw [List.nil_perm.mp hef, List.nil_perm.mp hoq] at hw
    unfold Pkg.ofZip
    rw [hz, hw]
    dsimp only
    cases readXml env.uni (renderDoc env.build env.stamp (contentTypesDoc [] [])) with
    | error e => exact .error e
    | ok d =>
      dsimp only
      cases getExtensions d.toXDoc with
      | error e => exact .error e
      | ok exts => exact ofZip_entries (fun n c d h => loadEntry_same rfl rfl h) hk
  · have read : ∀ e o : List (String × String), ¬ (e = [] ∧ o = []) → ∃ d, readXml env.uni (renderDoc env.build env.stamp (contentTypesDoc e o)) = .ok d ∧
        d.toXDoc = reloadDoc env.build (contentTypesDoc e o) := by
      intro e o hne
      obtain ⟨d, h1, _, h3⟩ := readXml_renderDoc env.build env.uni hst (wf_contentTypesDoc env.uni e o) (by
        cases e with
        | nil => cases o with
          | nil => exact absurd ⟨rfl, rfl⟩ hne
          | cons x xs => rfl
        | cons x xs => rfl)
      exact ⟨d, h1, h3⟩
    obtain ⟨d, hd, hx⟩ := read e o hne
    obtain ⟨d', hd', hx'⟩ := read f q (fun hh => hne ⟨by rw [hh.1] at hef; exact List.perm_nil.mp hef, by rw [hh.2] at hoq; exact List.perm_nil.mp hoq⟩)
    have hone := fun x t t' => ho _ d _ x t t' hz hd (by rw [hx]; exact getExtensions_reload env.build env.uni e o)
    unfold Pkg.ofZip
    rw [hz, hw]
    dsimp only
    rw [hd, hd']
    dsimp only
    rw [hx, hx', getExtensions_reload _ env.uni, getExtensions_reload _ env.uni]
    refine ofZip_entries (fun n c d h => loadEntry_same ?_ ?_ h) hk
    · rw [overrideContentType_reload _ env.uni, overrideContentType_reload _ env.uni, last_perm hoq hn]
    · exact find_perm (hef.map _) hone _

theorem failedStart_same {env : Env} (hst : env.build.release = true → StampOk env.stamp) {p q : Pkg} (h : SamePkg env p q) (e : Err) :
    Excel.failedStart env p e = Excel.failedStart env q e := by
  unfold Excel.failedStart
  have h1 := h.relNew hst "_rels/.rels"
  generalize RelPart.new env p _ = a at h1
  generalize RelPart.new env q _ = b at h1
  obtain ⟨a1, p1⟩ := a
  obtain ⟨b1, q1⟩ := b
  obtain ⟨e1, h1⟩ := h1
  dsimp only at e1 h1
  subst e1
  cases a1 with
  | error _ => rfl
  | ok r =>
    dsimp only
    have h2 := h1.openTyped hst coreContent none (sound_core env.uni) r
    generalize openTyped env coreContent none coreTemplate p1 r = a at h2
    generalize openTyped env coreContent none coreTemplate q1 r = b at h2
    cases h2 with
    | error _ => rfl
    | @ok a b h2 =>
      obtain ⟨a1, a2, a3, a4⟩ := a
      obtain ⟨b1, b2, b3, b4⟩ := b
      obtain ⟨e1, e2, h2, e3⟩ := h2
      dsimp only at e1 e2 h2 e3
      subst e1 e2 e3
      dsimp only
      have hd := h2.docOf a2
      generalize a3.docOf a2 = x at hd
      generalize b3.docOf a2 = y at hd
      cases hd with
      | none => rfl
      | some hd =>
        have := saveCore_same hd "" ""
        simp only [Option.map_some]
        generalize saveCore "" "" _ = a at this
        generalize saveCore "" "" _ = b at this
        cases this with
        | error e => rfl
        | ok h => rfl

theorem openLoaded_same {env : Env} (hst : env.build.release = true → StampOk env.stamp) {theme : XDoc} (hth : Sound env.uni theme) {a b : Res Pkg}
    (h : SameRes (SamePkg env) a b) {z w : Zip} (ha : Pkg.ofZip env z = a) (hb : Pkg.ofZip env w = b) :
    SameRes (SameExcel env) (Excel.openFile env theme z) (Excel.openFile env theme w) := by
  unfold Excel.openFile
  rw [ha, hb]
  cases h with
  | error e => exact .error e
  | @ok p q h =>
    dsimp only
    have hs := h.start hst hth
    have hf := failedStart_same hst h
    generalize Excel.start env theme p = a at hs
    generalize Excel.start env theme q = b at hs
    cases hs with
    | error e => dsimp only; rw [hf]; exact .error _
    | ok h => exact .ok h

end Oxml
