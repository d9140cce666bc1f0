import Verif.Proofs.PartStyleLoad
/-!
# Programs that write below one element of the arena

`Does`: a program changed the tree below one element as a function says, added only new ids, and left everything
else alone. `Runs` says so for every document the program is started on.
-/
namespace Oxml
open Spec

/-- The tree below an element was changed as `g` says; new elements have new ids; nothing was taken out. -/
structure Does (u : Unicode) (d d' : XmlDoc) (i : Nat) (g : Node → Node) : Prop where
  acts : Acts d d' i g
  desc : ∀ k, d.get k ≠ none → Desc d' i k → Desc d i k
  keep : ∀ k, d.get k ≠ none → d'.get k ≠ none
  fresh : ∀ k, d.get k = none → d'.get k ≠ none → d.runningId < k
  mono : d.runningId ≤ d'.runningId
  ns : d'.ns = d.ns
  reach : Reachable u d → Reachable u d'

theorem Does.id {u : Unicode} {d : XmlDoc} (hinv : d.Inv) {i : Nat} (hi : d.get i ≠ none) : Does u d d i (fun n => n) :=
  ⟨⟨hinv, fun _ _ _ => rfl, hi, rfl⟩, fun _ _ h => h, fun _ h => h, fun _ h1 h2 => absurd h1 h2, Nat.le_refl _, rfl, fun h => h⟩

theorem Does.comp {u : Unicode} {d d1 d2 : XmlDoc} {i : Nat} {g h : Node → Node} (a : Does u d d1 i g) (b : Does u d1 d2 i h) :
    Does u d d2 i (fun n => h (g n)) := by
  refine ⟨⟨b.acts.inv, ?_, b.acts.here, ?_⟩, ?_, fun k hk => b.keep k (a.keep k hk), ?_, Nat.le_trans a.mono b.mono, b.ns.trans a.ns,
    fun h => b.reach (a.reach h)⟩
  · intro k hk hd
    have h1 := a.acts.same k hk hd
    rw [← h1]
    exact b.acts.same k (fun hh => hk (a.desc k hd hh)) (by rw [h1]; exact hd)
  · rw [b.acts.tree, a.acts.tree]
  · intro k hk hd
    exact a.desc k hk (b.desc k (a.keep k hk) hd)
  · intro k hn hs
    cases h1 : d1.get k with
    | none => exact Nat.lt_of_le_of_lt a.mono (b.fresh k h1 hs)
    | some e => exact a.fresh k hn (by rw [h1]; simp)

theorem Does.congr {u : Unicode} {d d' : XmlDoc} {i : Nat} {g h : Node → Node} (a : Does u d d' i g) (e : g (d.tree i) = h (d.tree i)) :
    Does u d d' i h :=
  ⟨⟨a.acts.inv, a.acts.same, a.acts.here, by rw [a.acts.tree, e]⟩, a.desc, a.keep, a.fresh, a.mono, a.ns, a.reach⟩

/-- Changing an element in place, without new children. -/
theorem does_put {u : Unicode} {d : XmlDoc} (hinv : d.Inv) {i : Nat} {e e' : Elem} (he : d.get i = some e)
    (hinv' : (d.put i e').Inv) (hsub : ∀ c ∈ e'.children, c ∈ e.children) {g : Node → Node}
    (hg : Node.mk e'.tag e'.attrs e'.value (e'.children.map (fun c => d.tree c.id)) = g (d.tree i))
    (hr : Reachable u d → Reachable u (d.put i e')) : Does u d (d.put i e') i g := by
  have hget : ∀ k, (d.put i e').get k = if i = k then some e' else d.get k := fun k => by rw [XmlDoc.get_put]
  refine ⟨acts_put hinv he (ns := d.ns) hinv' hsub hg, ?_, ?_, ?_, Nat.le_refl _, rfl, hr⟩
  · intro k _ hd
    induction hd with
    | refl => exact .refl
    | @step j x c _ hx hc ih =>
      have hjne : d.get j ≠ none := by
        intro hn
        rw [hget, hn] at hx
        split at hx
        · rename_i h; subst h; rw [he] at hn; cases hn
        · cases hx
      have ih := ih hjne
      rw [hget] at hx
      split at hx
      · rename_i h
        subst h
        cases hx
        exact ih.step he (hsub c hc)
      · exact ih.step hx hc
  · intro k hk
    rw [hget]
    split
    · simp
    · exact hk
  · intro k hn hs
    rw [hget] at hs
    split at hs
    · rename_i h; subst h; rw [he] at hn; cases hn
    · exact absurd hn hs

/-- A new child and a program that writes below it. -/
theorem does_insert {u : Unicode} {d d1 d2 : XmlDoc} {tag : String} {i j : Nat} {place : Child → List Child → Res (List Child)}
    (hpl : Places place) (hinv : d.Inv) (h : d.insertWith u tag i place = .ok (d1, j)) {gb g : Node → Node} (hb : Does u d1 d2 j gb)
    (hg : ∀ e cs (m : Child → Node), d.get i = some e → place { id := d.runningId + 1, tag := tag } e.children = .ok cs →
      (∀ c ∈ e.children, m c = d.tree c.id) → m { id := d.runningId + 1, tag := tag } = gb (leaf tag) →
      Node.mk e.tag e.attrs e.value (cs.map m) = g (d.tree i))
    (hr : Reachable u d → Reachable u d1) : Does u d d2 i g := by
  have hinv1 := hinv.insertWith hpl h
  obtain ⟨e, cs, he, _, hcs, rfl, hd1⟩ := insertWith_ok h
  obtain ⟨l, r, hlr, hcs'⟩ := hpl _ _ _ hcs
  have hle := hinv.le _ _ he
  have hget : ∀ k, d1.get k = if d.runningId + 1 = k then
      some { id := d.runningId + 1, parentId := i, tag := tag, attrs := none, value := none, children := [] }
      else if i = k then some { e with children := cs } else d.get k := by
    intro k
    rw [hd1]
    change ((d.put i _).put (d.runningId + 1) _).get k = _
    rw [XmlDoc.get_put, XmlDoc.get_put]
  have hnew : d1.get (d.runningId + 1) =
      some { id := d.runningId + 1, parentId := i, tag := tag, attrs := none, value := none, children := [] } := by
    rw [hget, if_pos rfl]
  have hold : ∀ k, d.get k ≠ none → d.runningId + 1 ≠ k := by
    intro k hk
    cases hx : d.get k with
    | none => exact absurd hx hk
    | some x => have := hinv.le _ _ hx; omega
  have hleaf : ∀ k, Desc d1 (d.runningId + 1) k → k = d.runningId + 1 := by
    intro k hk
    induction hk with
    | refl => rfl
    | step _ hx hc ih =>
      rw [ih, hnew] at hx
      cases hx
      cases hc
  have hother : ∀ k, d1.get k ≠ none → k ≠ d.runningId + 1 → d2.get k = d1.get k :=
    fun k hk hne => hb.acts.same k (fun hd => hne (hleaf k hd)) hk
  have hine : d.runningId + 1 ≠ i := by omega
  have hi1 : d1.get i = some { e with children := cs } := by rw [hget, if_neg hine, if_pos rfl]
  have hi2 : d2.get i = some { e with children := cs } := by rw [hother i (by rw [hi1]; simp) (Ne.symm hine), hi1]
  have hsame : ∀ k, d.get k ≠ none → k ≠ i → d2.get k = d.get k := by
    intro k hk hne
    have h1 : d1.get k = d.get k := by rw [hget, if_neg (hold k hk), if_neg (Ne.symm hne)]
    rw [hother k (by rw [h1]; exact hk) (Ne.symm (hold k hk)), h1]
  have hrun : d1.runningId = d.runningId + 1 := by rw [hd1]
  refine ⟨⟨hb.acts.inv, ?_, by rw [hi2]; simp, ?_⟩, ?_, ?_, ?_, ?_, ?_, fun h => hb.reach (hr h)⟩
  · intro k hk hd
    exact hsame k hd (by rintro rfl; exact hk .refl)
  · rw [tree_eq hb.acts.inv hi2]
    refine hg e cs (fun c => d2.tree c.id) he hcs ?_ ?_
    · intro c hc
      obtain ⟨hci, ec, hec, _⟩ := hinv.tree.child _ _ he c hc
      refine tree_frame hinv hb.acts.inv (d.runningId - c.id + 1) c.id ec (by omega) hec ?_
      intro k hk hkn
      have := hk.le hinv
      exact hsame k hkn (by omega)
    · change d2.tree (d.runningId + 1) = _
      rw [hb.acts.tree, tree_eq hinv1 hnew]
      rfl
  · intro k hk hd
    induction hd with
    | refl => exact .refl
    | @step p x c hp hx hc ih =>
      have hpn : d.get p ≠ none := by
        intro hn
        have hlt := (hb.acts.inv.tree.child _ _ hx c hc).1
        have hck : c.id ≤ d.runningId := by
          cases hy : d.get c.id with
          | none => exact absurd hy hk
          | some y => exact hinv.le _ _ hy
        cases hp1 : d1.get p with
        | none =>
          have := hb.fresh p hp1 (by rw [hx]; simp)
          omega
        | some y =>
          rw [hget] at hp1
          split at hp1
          · omega
          · split at hp1
            · rename_i h; subst h; rw [he] at hn; cases hn
            · rw [hn] at hp1; cases hp1
      have ih := ih hpn
      by_cases hpi : p = i
      · subst hpi
        rw [hi2] at hx
        cases hx
        have hc' : c ∈ cs := hc
        rw [hcs'] at hc'
        rcases List.mem_append.mp hc' with hm | hm
        · exact ih.step he (by rw [hlr]; exact List.mem_append_left _ hm)
        · rcases List.mem_cons.mp hm with rfl | hm
          · exact absurd rfl (hold _ hk)
          · exact ih.step he (by rw [hlr]; exact List.mem_append_right _ hm)
      · rw [hsame p hpn hpi] at hx
        exact ih.step hx hc
  · intro k hk
    by_cases hki : k = i
    · rw [hki, hi2]; simp
    · rw [hsame k hk hki]; exact hk
  · intro k hn hs
    cases h1 : d1.get k with
    | none => have := hb.fresh k h1 hs; omega
    | some y =>
      rw [hget] at h1
      split at h1
      · omega
      · split at h1
        · rename_i h; subst h; rw [he] at hn; cases hn
        · rw [hn] at h1; cases h1
  · have := hb.mono
    omega
  · rw [hb.ns, hd1]
    rfl

/-! ## Programs -/

/-- Started on any sound document that has the element, the program fails with the given error, or changes the tree
below the element as the function says. -/
def Runs (u : Unicode) (prog : XmlDoc → Res XmlDoc) (i : Nat) : Res (Node → Node) → Prop
  | .error e => ∀ d, d.Inv → d.get i ≠ none → prog d = .error e
  | .ok g => ∀ d, d.Inv → d.get i ≠ none → ∃ d', prog d = .ok d' ∧ Does u d d' i g

theorem runs_id {u : Unicode} {i : Nat} : Runs u (fun d => .ok d) i (.ok (fun n => n)) :=
  fun d hinv hi => ⟨d, rfl, Does.id hinv hi⟩

theorem runs_congr {u : Unicode} {prog : XmlDoc → Res XmlDoc} {i : Nat} {g h : Node → Node} (hp : Runs u prog i (.ok g))
    (e : ∀ n, g n = h n) : Runs u prog i (.ok h) := by
  have : g = h := funext e
  exact this ▸ hp

theorem runs_seq {u : Unicode} {p q : XmlDoc → Res XmlDoc} {i : Nat} {g : Node → Node} {r : Res (Node → Node)}
    (hp : Runs u p i (.ok g)) (hq : Runs u q i r) :
    Runs u (fun d => p d >>= q) i (r.map (fun h n => h (g n))) := by
  cases r with
  | error e =>
    intro d hinv hi
    obtain ⟨d1, h1, h2⟩ := hp d hinv hi
    change (p d >>= q) = _
    rw [h1]
    exact hq d1 h2.acts.inv h2.acts.here
  | ok h =>
    intro d hinv hi
    obtain ⟨d1, h1, h2⟩ := hp d hinv hi
    obtain ⟨d2, h3, h4⟩ := hq d1 h2.acts.inv h2.acts.here
    refine ⟨d2, ?_, h2.comp h4⟩
    change (p d >>= q) = _
    rw [h1]
    exact h3

theorem runs_seq_error {u : Unicode} {p q : XmlDoc → Res XmlDoc} {i : Nat} {e : Err}
    (hp : Runs u p i (.error e)) : Runs u (fun d => p d >>= q) i (.error e) := by
  intro d hinv hi
  change (p d >>= q) = _
  rw [hp d hinv hi]
  rfl

/-- Further children at the end. -/
def withKids (cs : List Node) : Node → Node
  | .mk t a v ks => .mk t a v (ks ++ cs)

/-- The attributes of an element, replaced. -/
def setAttrs (a : Attrs) : Node → Node
  | .mk t _ v ks => .mk t (some a) v ks

/-- The text of an element, replaced. -/
def setText (x : String) : Node → Node
  | .mk t a _ ks => .mk t a (some x) ks

/-- The children of an element, changed. -/
def onKids (f : List Node → List Node) : Node → Node
  | .mk t a v ks => .mk t a v (f ks)

/-- Attribute maps the code builds: names that are accepted, none of them a namespace declaration, no name twice. -/
def PlainKeys (u : Unicode) (a : Attrs) : Prop :=
  (∀ k ∈ akeys a, isValidXmlName u k = true ∧ isNsKey k = false) ∧ (akeys a).Nodup

theorem runs_setAttribute {u : Unicode} {a : Attrs} (ha : PlainKeys u a) (i : Nat) :
    Runs u (fun d => d.setAttribute u i a) i (.ok (setAttrs a)) := by
  intro d hinv hi
  cases he : d.get i with
  | none => exact absurd he hi
  | some e =>
    have hall : (akeys a).all (isValidXmlName u) = true := by
      rw [List.all_eq_true]
      exact fun k hk => (ha.1 k hk).1
    have hf1 : a.filter (fun kv => isNsKey kv.1) = [] := by
      rw [List.filter_eq_nil_iff]
      intro kv hkv
      rw [(ha.1 kv.1 (List.mem_map_of_mem hkv)).2]
      simp
    have hf2 : a.filter (fun kv => !isNsKey kv.1) = a := by
      rw [List.filter_eq_self]
      intro kv hkv
      rw [(ha.1 kv.1 (List.mem_map_of_mem hkv)).2]
      rfl
    have hd : d.setAttribute u i a = .ok (d.put i { e with attrs := some a }) := by
      simp only [XmlDoc.setAttribute, he, hall, hf1, hf2]
      rfl
    refine ⟨_, hd, ?_⟩
    refine does_put hinv he (hinv.setAttribute hd) (fun c hc => hc) (by rw [tree_eq hinv he]; rfl) ?_
    intro hr
    have h1 := hr.edit (.attributes i a) ha.2
    have h2 : d.edit u (.attributes i a) = d.put i { e with attrs := some a } := by simp only [XmlDoc.edit, hd]; rfl
    rw [h2] at h1
    exact h1

theorem runs_setValue {u : Unicode} {x : String} (i : Nat) : Runs u (fun d => d.setValue i x) i (.ok (setText x)) := by
  intro d hinv hi
  cases he : d.get i with
  | none => exact absurd he hi
  | some e =>
    have hd : d.setValue i x = .ok (d.put i { e with value := some x }) := by
      simp only [XmlDoc.setValue, he]
    refine ⟨_, hd, ?_⟩
    refine does_put hinv he (hinv.setValue hd) (fun c hc => hc) (by rw [tree_eq hinv he]; rfl) ?_
    intro hr
    have h1 := hr.edit (.value i x) trivial
    have h2 : d.edit u (.value i x) = d.put i { e with value := some x } := by simp only [XmlDoc.edit, hd]; rfl
    rw [h2] at h1
    exact h1

theorem runs_order {u : Unicode} {sk : List String} (i : Nat) :
    Runs u (fun d => d.orderChild i sk) i (.ok (onKids (orderChildren Node.tag sk))) := by
  intro d hinv hi
  cases he : d.get i with
  | none => exact absurd he hi
  | some e =>
    have hd : d.orderChild i sk = .ok (d.put i { e with children := orderChildren Child.tag sk e.children }) := by
      simp only [XmlDoc.orderChild, he]
    refine ⟨_, hd, ?_⟩
    refine does_put hinv he (hinv.orderChild hd) (fun c hc => (orderChildren_perm _ _ _).mem_iff.mp hc) ?_ ?_
    · rw [tree_eq hinv he]
      simp only [onKids]
      rw [orderChildren_map _ _ (fun c hc => child_tag hinv he hc)]
    · intro hr
      have h1 := hr.edit (.order i sk) trivial
      have h2 : d.edit u (.order i sk) = d.put i { e with children := orderChildren Child.tag sk e.children } := by
        simp only [XmlDoc.edit, hd]; rfl
      rw [h2] at h1
      exact h1

/-- A new child: what the body makes of the leaf. -/
def madeNode (tag : String) : Res (Node → Node) → Res Node
  | .error e => .error e
  | .ok g => .ok (g (leaf tag))

theorem runs_child {u : Unicode} {tag : String} (i : Nat) {insert : XmlDoc → Res (XmlDoc × Nat)}
    {place : Child → List Child → Res (List Child)} {put : Node → List Node → List Node} (hpl : Places place)
    (hins : ∀ d, insert d = d.insertWith u tag i place) (hv : isValidXmlName u tag = true) (hok : ∀ c cs, ∃ r, place c cs = .ok r)
    (hput : ∀ c cs out (m : Child → Node), place c cs = .ok out → (∀ x ∈ cs, (m x).tag = x.tag) → out.map m = put (m c) (cs.map m))
    (hedit : ∃ e : Edit, e.ProperMap ∧ ∀ d, d.edit u e = ((insert d).toOption.map Prod.fst).getD d)
    {body : Nat → XmlDoc → Res XmlDoc} {r : Res (Node → Node)} (hb : ∀ j, Runs u (body j) j r) :
    Runs u (fun d => insert d >>= fun p => body p.2 p.1) i ((madeNode tag r).map (fun n => onKids (put n))) := by
  have start : ∀ d : XmlDoc, d.Inv → d.get i ≠ none → ∃ d1 j, d.insertWith u tag i place = .ok (d1, j) ∧ d1.Inv ∧ d1.get j ≠ none := by
    intro d hinv hi
    cases he : d.get i with
    | none => exact absurd he hi
    | some e =>
      obtain ⟨cs, hcs⟩ := hok { id := d.runningId + 1, tag := tag } e.children
      have h : ∃ p, d.insertWith u tag i place = .ok p := by
        unfold XmlDoc.insertWith
        simp only [he, newElem, hv, if_true]
        simp only [hcs]
        exact ⟨_, rfl⟩
      obtain ⟨⟨d1, j⟩, h⟩ := h
      refine ⟨d1, j, h, hinv.insertWith hpl h, ?_⟩
      obtain ⟨_, _, _, _, _, rfl, hd1⟩ := insertWith_ok h
      rw [hd1]
      change ((d.put i _).put (d.runningId + 1) _).get _ ≠ none
      rw [XmlDoc.get_put_self]
      simp
  cases r with
  | error er =>
    intro d hinv hi
    obtain ⟨d1, j, h1, h2, h3⟩ := start d hinv hi
    change (insert d >>= _) = _
    rw [hins, h1]
    exact hb j d1 h2 h3
  | ok gb =>
    intro d hinv hi
    obtain ⟨d1, j, h1, h2, h3⟩ := start d hinv hi
    obtain ⟨d2, h4, h5⟩ := hb j d1 h2 h3
    refine ⟨d2, ?_, ?_⟩
    · change (insert d >>= _) = _
      rw [hins, h1]
      exact h4
    · refine does_insert hpl hinv h1 h5 ?_ ?_
      · intro e cs m he hcs hm hn
        rw [tree_eq hinv he]
        simp only [onKids]
        rw [hput _ _ _ m hcs (fun x hx => by rw [hm x hx, child_tag hinv he hx]), hn, List.map_congr_left hm]
      · intro hr
        obtain ⟨e, he1, he2⟩ := hedit
        have := hr.edit e he1
        rw [he2, hins, h1] at this
        exact this

theorem runs_append {u : Unicode} {tag : String} (i : Nat) (hv : isValidXmlName u tag = true) {body : Nat → XmlDoc → Res XmlDoc}
    {r : Res (Node → Node)} (hb : ∀ j, Runs u (body j) j r) :
    Runs u (fun d => d.appendChild u tag i >>= fun p => body p.2 p.1) i ((madeNode tag r).map (fun n => withKids [n])) := by
  have := runs_child (put := fun n ks => ks ++ [n]) i places_append (fun d => rfl) hv (fun c cs => ⟨_, rfl⟩)
    (by intro c cs out m h _; cases h; simp) ⟨.append tag i, trivial, fun d => rfl⟩ hb
  exact this

theorem runs_after {u : Unicode} {tag f : String} (i : Nat) (hv : isValidXmlName u tag = true) {body : Nat → XmlDoc → Res XmlDoc}
    {r : Res (Node → Node)} (hb : ∀ j, Runs u (body j) j r) :
    Runs u (fun d => d.insertAfter u tag f i >>= fun p => body p.2 p.1) i
      ((madeNode tag r).map (fun n => onKids (insertNodeAfter n f))) := by
  refine runs_child (put := fun n ks => insertNodeAfter n f ks) i (places_after f) (fun d => rfl) hv (fun c cs => ⟨_, rfl⟩)
    ?_ ⟨.after tag f i, trivial, fun d => rfl⟩ hb
  intro c cs out m h hm
  cases h
  rw [insertAfter_map _ _ _ hm, C71_model_after]

/-- Insertion at the front. -/
theorem runs_front {u : Unicode} {tag : String} (i : Nat) (hv : isValidXmlName u tag = true) {body : Nat → XmlDoc → Res XmlDoc}
    {r : Res (Node → Node)} (hb : ∀ j, Runs u (body j) j r) :
    Runs u (fun d => d.insertAt u tag 0 i >>= fun p => body p.2 p.1) i
      ((madeNode tag r).map (fun n => onKids (fun ks => n :: ks))) := by
  refine runs_child (put := fun n ks => n :: ks) i (places_at 0) (fun d => rfl) hv (fun c cs => ⟨_, if_pos (Nat.zero_le _)⟩)
    ?_ ⟨.atPos tag 0 i, trivial, fun d => rfl⟩ hb
  intro c cs out m h _
  rw [if_pos (Nat.zero_le _)] at h
  cases h
  simp

theorem withKids_comp (a b : List Node) (n : Node) : withKids b (withKids a n) = withKids (a ++ b) n := by
  cases n; simp [withKids]

theorem withKids_nil (n : Node) : withKids [] n = n := by
  cases n; simp [withKids]

theorem runs_fold {α : Type} {u : Unicode} {i : Nat} {f : XmlDoc → α → Res XmlDoc} {node : α → Res Node}
    (h : ∀ x, Runs u (fun d => f d x) i ((node x).map (fun n => withKids [n]))) :
    ∀ l : List α, Runs u (fun d => l.foldlM f d) i ((mapRes node l).map withKids)
  | [] => by
    refine runs_congr (g := fun n => n) ?_ (fun n => (withKids_nil n).symm)
    exact runs_id
  | x :: l => by
    have hx := h x
    have hl := runs_fold h l
    unfold mapRes
    cases hn : node x with
    | error e =>
      rw [hn] at hx
      exact runs_seq_error hx
    | ok n =>
      rw [hn] at hx
      have := runs_seq hx hl
      cases hm : mapRes node l with
      | error e => rw [hm] at this; exact this
      | ok ns =>
        rw [hm] at this
        refine runs_congr (g := fun m => withKids ns (withKids [n] m)) this ?_
        intro m
        rw [withKids_comp]
        rfl

end Oxml
