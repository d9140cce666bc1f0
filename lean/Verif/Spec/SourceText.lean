import Verif.Model.Basic
/-!
# Character data of XML text

Characters and references, as the XML recommendation defines them (sections 2.3, 4.1, 4.6), without document types.
-/
namespace Oxml.Spec

/-- White space of XML. -/
def White (c : Char) : Prop := c = ' ' ∨ c = '\t' ∨ c = '\n' ∨ c = '\r'

/-- `t` is `s` without its surrounding white space. -/
def TrimmedTo (s t : List Char) : Prop :=
  ∃ l r, s = l ++ (t ++ r) ∧ (∀ c ∈ l, White c) ∧ (∀ c ∈ r, White c) ∧
    (∀ c, t.head? = some c → ¬White c) ∧ (∀ c, t.getLast? = some c → ¬White c)

/-- The ten decimal digits. -/
def decDigit (d : Fin 10) : Char := "0123456789".toList.getD d.val '0'

/-- The sixteen hexadecimal digits, in lower or upper case. -/
def hexDigit (d : Fin 16 × Bool) : Char :=
  if d.2 then "0123456789ABCDEF".toList.getD d.1.val '0' else "0123456789abcdef".toList.getD d.1.val '0'

/-- The number written with these digits: the last digit counts one, each other one `base` times the next. -/
def positional (base : Nat) : List Nat → Nat
  | [] => 0
  | d :: ds => d * base ^ ds.length + positional base ds

/-- One character of a text, as it is written. -/
inductive Written where
  /-- itself -/
  | plain (c : Char)
  /-- `&lt;` `&gt;` `&amp;` `&apos;` `&quot;` -/
  | lt | gt | amp | apos | quot
  /-- `&#digits;` -/
  | dec (ds : List (Fin 10))
  /-- `&#xdigits;` -/
  | hex (ds : List (Fin 16 × Bool))

/-- How it is written. -/
def Written.text : Written → List Char
  | .plain c => [c]
  | .lt => "&lt;".toList
  | .gt => "&gt;".toList
  | .amp => "&amp;".toList
  | .apos => "&apos;".toList
  | .quot => "&quot;".toList
  | .dec ds => '&' :: '#' :: (ds.map decDigit ++ [';'])
  | .hex ds => '&' :: '#' :: 'x' :: (ds.map hexDigit ++ [';'])

/-- Which character it is: of a reference, the one with the code given. -/
def Written.Means : Written → Char → Prop
  | .plain c, x => c = x ∧ c ≠ '&'
  | .lt, x => x = '<'
  | .gt, x => x = '>'
  | .amp, x => x = '&'
  | .apos, x => x = '\''
  | .quot, x => x = '"'
  | .dec ds, x => ds ≠ [] ∧ x.toNat ≠ 0 ∧ positional 10 (ds.map Fin.val) = x.toNat
  | .hex ds, x => ds ≠ [] ∧ x.toNat ≠ 0 ∧ positional 16 (ds.map (fun d => d.1.val)) = x.toNat

/-- The text `s` stands for the characters `t`. -/
def StandsFor (s t : List Char) : Prop :=
  ∃ ws : List (Written × Char), s = ws.flatMap (fun w => w.1.text) ∧ t = ws.map Prod.snd ∧ ∀ w ∈ ws, w.1.Means w.2

end Oxml.Spec
