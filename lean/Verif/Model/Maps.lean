import Verif.Model.Basic
/-!
# Association lists

`HashMap<K, V>` is a list of pairs with distinct keys. The order of the list stands for the (arbitrary)
iteration order of the hash map. `BTreeMap<K, V>` is a list sorted by key.
-/
namespace Oxml

/-- `HashMap::get` / `BTreeMap::get`. -/
def aget {K V : Type} [DecidableEq K] (k : K) : List (K × V) → Option V
  | [] => none
  | (k', v) :: rest => if k' = k then some v else aget k rest

/-- `HashMap::insert`: replaces the value of an existing key, otherwise adds the pair. -/
def ainsert {K V : Type} [DecidableEq K] (k : K) (v : V) : List (K × V) → List (K × V)
  | [] => [(k, v)]
  | (k', v') :: rest => if k' = k then (k, v) :: rest else (k', v') :: ainsert k v rest

/-- `HashMap::remove`. -/
def aerase {K V : Type} [DecidableEq K] (k : K) : List (K × V) → List (K × V)
  | [] => []
  | (k', v') :: rest => if k' = k then aerase k rest else (k', v') :: aerase k rest

/-- `HashMap::keys`. -/
def akeys {K V : Type} (m : List (K × V)) : List K := m.map Prod.fst

/-- `HashMap::contains_key`. -/
def ahas {K V : Type} [DecidableEq K] (k : K) (m : List (K × V)) : Bool := (aget k m).isSome

/-- `BTreeMap::insert` with numeric keys: keeps the list sorted. -/
def sinsert {V : Type} (k : Nat) (v : V) : List (Nat × V) → List (Nat × V)
  | [] => [(k, v)]
  | (k', v') :: rest =>
    if k < k' then (k, v) :: (k', v') :: rest
    else if k = k' then (k, v) :: rest
    else (k', v') :: sinsert k v rest

/-- Keys strictly increasing: the representation invariant of a `BTreeMap`. -/
def SortedKeys {V : Type} (m : List (Nat × V)) : Prop := (akeys m).Pairwise (· < ·)

/-- A `HashMap<String, String>`. -/
abbrev Attrs := List (String × String)

end Oxml
