/- Decimal numerals: what a text like `-12.5e3` stands for. -/
import Mathlib.Data.Rat.Defs
import Mathlib.Algebra.Field.Rat

namespace HyperCV
namespace Spec

/-- the digits `0` to `9` -/
def digit (d : Fin 10) : Char := Char.ofNat (48 + d.val)

def digits (l : List (Fin 10)) : List Char := l.map digit

/-- the number that a sequence of decimal digits stands for -/
def natOf (l : List (Fin 10)) : Nat := l.foldl (fun a d => 10 * a + d.val) 0

/-- no sign, `+` or `-` -/
def signText : Option Bool → List Char
  | none => []
  | some false => ['+']
  | some true => ['-']

def signVal : Option Bool → Int
  | some true => -1
  | _ => 1

/-- a decimal numeral: spaces, a sign, an integer part, decimals behind a point, an exponent (without sign) behind an `e` -/
structure Numeral where
  spaces : Nat
  sign : Option Bool
  int : List (Fin 10)
  frac : Option (List (Fin 10))
  exp : Option (List (Fin 10))

def Numeral.text (n : Numeral) : List Char :=
  List.replicate n.spaces ' ' ++ (signText n.sign ++ (digits n.int ++
    ((match n.frac with | none => [] | some f => '.' :: digits f) ++ (match n.exp with | none => [] | some e => 'e' :: digits e))))

/-- the decimals, and the exponent -/
def Numeral.fracDigits (n : Numeral) : List (Fin 10) := n.frac.getD []
def Numeral.expVal (n : Numeral) : Nat := natOf (n.exp.getD [])

/-- the absolute value of the number -/
def Numeral.abs (n : Numeral) : ℚ :=
  ((natOf n.int : ℚ) + natOf n.fracDigits / 10 ^ n.fracDigits.length) * 10 ^ n.expVal

/-- the number -/
def Numeral.value (n : Numeral) : ℚ := signVal n.sign * n.abs

end Spec
end HyperCV
