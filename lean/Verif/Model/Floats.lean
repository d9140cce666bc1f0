import Verif.Model.Basic
/-!
# Text accepted by Rust's number parsers

`str::parse::<f64>()` and `str::parse::<f32>()` accept the same texts. The numeric value itself is not modelled: an `f32` is
represented by the text it is printed as.
-/
namespace Oxml

/-- Drops one leading sign. -/
def dropSign : List Char → List Char
  | [] => []
  | c :: cs => if c = '+' ∨ c = '-' then cs else c :: cs

/-- At least one character, all digits. -/
def digits1 (cs : List Char) : Bool := !cs.isEmpty && cs.all Char.isDigit

/-- Nothing, or `e`/`E`, an optional sign and digits. -/
def isExponent : List Char → Bool
  | [] => true
  | c :: cs => (c = 'e' || c = 'E') && digits1 (dropSign cs)

/-- Digits with an optional fraction and exponent. -/
def isDecimal (cs : List Char) : Bool :=
  match cs.dropWhile Char.isDigit with
  | [] => !cs.isEmpty
  | c :: r =>
    if c = '.' then
      (!(cs.takeWhile Char.isDigit).isEmpty || !(r.takeWhile Char.isDigit).isEmpty) && isExponent (r.dropWhile Char.isDigit)
    else !(cs.takeWhile Char.isDigit).isEmpty && isExponent (c :: r)

/-- Is the text accepted by `f64::from_str` (and `f32::from_str`)? Grammar of the Rust standard library documentation. -/
def isFloatText (s : String) : Bool :=
  let body := dropSign s.toList
  let lower := body.map asciiLower
  lower = "inf".toList || lower = "infinity".toList || lower = "nan".toList || isDecimal body

/-- `str::parse::<f32>()`, giving the printed text of the value. -/
def parseF32 (show32 : String → String) (s : String) : Option String := if isFloatText s then some (show32 s) else none

/-- `bool::from_str`. -/
def parseBool (s : String) : Option Bool := if s = "true" then some true else if s = "false" then some false else none

/-- `str::parse::<i16>()`: optional sign, digits, in range. -/
def parseI16 (s : String) : Option Int :=
  match s.toList with
  | '-' :: ds => if digits1 ds ∧ Nat.ofDigitChars 10 ds 0 ≤ 32768 then some (- (Nat.ofDigitChars 10 ds 0 : Int)) else none
  | _ => (parseUInt 32767 s).map Int.ofNat

end Oxml
