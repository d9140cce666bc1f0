import Verif.Model.XmlArena
/-!
# Abstract XML trees

The value a document arena denotes: an ordered tree. Used by the part models; `Proofs/Arena*.lean` connect
it with the arena.
-/
namespace Oxml

/-- An element with its subtree. `attrs = none` means `set_attribute_mut` was never called. -/
inductive Node where
  | mk (tag : String) (attrs : Option Attrs) (value : Option String) (children : List Node)
deriving Repr

namespace Node
def tag : Node → String | .mk t _ _ _ => t
def attrs : Node → Option Attrs | .mk _ a _ _ => a
def value : Node → Option String | .mk _ _ v _ => v
def children : Node → List Node | .mk _ _ _ cs => cs

mutual
/-- Decidable equality of trees. -/
def decEq : (a b : Node) → Decidable (a = b)
  | .mk t1 a1 v1 c1, .mk t2 a2 v2 c2 =>
    if h1 : t1 = t2 then
      if h2 : a1 = a2 then
        if h3 : v1 = v2 then
          match decEqs c1 c2 with
          | isTrue h4 => isTrue (by rw [h1, h2, h3, h4])
          | isFalse h4 => isFalse (by intro h; cases h; exact h4 rfl)
        else isFalse (by intro h; cases h; exact h3 rfl)
      else isFalse (by intro h; cases h; exact h2 rfl)
    else isFalse (by intro h; cases h; exact h1 rfl)
/-- Decidable equality of forests. -/
def decEqs : (a b : List Node) → Decidable (a = b)
  | [], [] => isTrue rfl
  | [], _ :: _ => isFalse (by simp)
  | _ :: _, [] => isFalse (by simp)
  | x :: xs, y :: ys =>
    match decEq x y, decEqs xs ys with
    | isTrue h1, isTrue h2 => isTrue (by rw [h1, h2])
    | isFalse h1, _ => isFalse (by intro h; cases h; exact h1 rfl)
    | _, isFalse h2 => isFalse (by intro h; cases h; exact h2 rfl)
end

instance : DecidableEq Node := decEq

/-- Induction on trees: assume the claim for all children. -/
theorem ind {P : Node → Prop} (h : ∀ t a v cs, (∀ c ∈ cs, P c) → P (.mk t a v cs)) : ∀ n, P n := by
  intro n
  refine Node.rec (motive_1 := P) (motive_2 := fun cs => ∀ c ∈ cs, P c) ?_ ?_ ?_ n
  · intro t a v cs ih; exact h t a v cs ih
  · intro c hc; cases hc
  · intro c cs hc hcs x hx
    rcases List.mem_cons.mp hx with rfl | hx
    · exact hc
    · exact hcs x hx

/-- Value of an attribute. -/
def attr? (n : Node) (key : String) : Option String :=
  match n.attrs with
  | none => none
  | some a => aget key a

end Node

/-- A whole document as a value: namespace map and root element. -/
structure XDoc where
  ns : Attrs
  root : Option Node
deriving DecidableEq, Repr

/-- All values, or `none` if one is missing. -/
def collect {α : Type} : List (Option α) → Option (List α)
  | [] => some []
  | none :: _ => none
  | some x :: rest => (collect rest).map (x :: ·)

/-- The tree found in the arena under an id; `fuel` bounds the depth, `none` if an element is missing. -/
def XmlDoc.toNode (d : XmlDoc) : Nat → Nat → Option Node
  | 0, _ => none
  | fuel + 1, id =>
    match d.get id with
    | none => none
    | some e =>
      match collect (e.children.map (fun c => d.toNode fuel c.id)) with
      | none => none
      | some cs => some (.mk e.tag e.attrs e.value cs)

/-- The document value an arena denotes. Ids grow from parent to child, so `runningId + 1` levels suffice
(`Proofs/Arena.lean`). -/
def XmlDoc.toXDoc (d : XmlDoc) : XDoc := { ns := d.ns, root := d.toNode (d.runningId + 1) 0 }

end Oxml
