/- Model of `hypercv_atof`: /repo/modules/process/src/c_src/datatypechange.c:393-455.
The argument is the text before the terminating zero byte.  Assumption: `pow(10, n)` is correctly rounded.  Simplification: `isdigit` of a
character above 127 (a negative `char`) is false. -/
import Verif.Model.Header

namespace HyperCV

/-- how the loop over the integer part ends: at the end of the text, behind a point, behind an `e` or `E`, or at another character -/
inductive AtofStop where
  | done
  | dot (rest : Text)
  | exp (rest : Text)
  | other
  deriving DecidableEq

/-- `integerPart = 10 * integerPart + *p - '0'`, from left to right in `float`: datatypechange.c:413 -/
def atofDigit (v : FV) (c : Char) : FV :=
  f32.sub (f32.add (f32.mul (f32.ofInt 10) v) (f32.ofInt c.toNat)) (f32.ofInt 48)

/-- the loop over the integer part: datatypechange.c:410-429 -/
def atofInt (v : FV) : Text → FV × AtofStop
  | [] => (v, .done)
  | c :: r =>
    if isDigitC c = true then atofInt (atofDigit v c) r
    else if c = '.' then (v, .dot r)
    else if c = 'e' ∨ c = 'E' then (v, .exp r)
    else (v, .other)

/-- `pow(10, n)` for a non-negative `n` -/
def pow10 (n : Int) : FV := f64.round false (10 ^ n.toNat)

/-- `decimalPart += (*p - '0') / pow(10, decimalDigits)`: datatypechange.c:437 -/
def atofDecimal (v : FV) (c : Char) (k : Int) : FV :=
  f32.conv (f64.add (f64.conv v) (f64.div (f64.ofInt ((c.toNat : Int) - 48)) (pow10 k)))

/-- `exponential = 10 * exponential + *p - '0'`, in `int`: datatypechange.c:447 and 453 -/
def atofExp (ex : Int) (c : Char) : Except Err Int :=
  (CI.lit 10 * CI.lit ex + CI.lit (c.toNat : Int) - CI.lit 48 : CI)

/-- the variables of the function behind the first loop -/
structure AtofState where
  int : FV
  dec : FV
  digits : Int
  exp : Int

/-- the loop behind the point or the `e`: datatypechange.c:434-449.  `dot` and `e` are `hasDot` and `hasE`; the result has the
variables, `hasE` and the rest of the text. -/
def atofTail (dot e : Bool) (s : AtofState) : Text → Except Err (AtofState × Bool × Text)
  | [] => .ok (s, e, [])
  | c :: r =>
    if dot = true ∧ isDigitC c = true then
      match (CI.lit s.digits + 1 : CI) with
      | .error x => .error x
      | .ok k => atofTail dot e { s with dec := atofDecimal s.dec c s.digits, digits := k } r
    else if dot = true ∧ (c = 'e' ∨ c = 'E') then
      .ok ({ s with int := f32.add s.int s.dec, dec := .fin false 0 }, true, r)
    else if e = true ∧ isDigitC c = true then
      match atofExp s.exp c with
      | .error x => .error x
      | .ok x => atofTail dot e { s with exp := x } r
    else .ok (s, e, c :: r)

/-- the loop over the exponent of a number with a point: datatypechange.c:450-453.  All characters are visited, digits or not. -/
def atofRest (ex : Int) : Text → Except Err Int
  | [] => .ok ex
  | c :: r =>
    if isDigitC c = true then
      match atofExp ex c with
      | .error x => .error x
      | .ok x => atofRest x r
    else atofRest ex r

/-- `return sign * (integerPart * pow(10, exponential) + decimalPart)`: datatypechange.c:454.  The expression is a `double`, the
result a `float`. -/
def atofResult (sign : Int) (s : AtofState) : FV :=
  f32.conv (f64.mul (f64.ofInt sign) (f64.add (f64.mul (f64.conv s.int) (pow10 s.exp)) (f64.conv s.dec)))

/-- the second half of the function: datatypechange.c:431-454 -/
def atofFinish (sign : Int) (v : FV) (dot e : Bool) (r : Text) : Except Err FV :=
  match atofTail dot e { int := v, dec := .fin false 0, digits := 1, exp := 0 } r with
  | .error x => .error x
  | .ok (s, e', r') =>
    if e' = true ∧ dot = true then
      match atofRest s.exp r' with
      | .error x => .error x
      | .ok x => .ok (atofResult sign { s with exp := x })
    else .ok (atofResult sign s)

/-- `hypercv_atof`: datatypechange.c:393-455 -/
def hypercv_atof (str : Text) : Except Err FV :=
  let p := splitSign (str.dropWhile (· = ' '))
  let sign : Int := if p.1 = true then -1 else 1
  match atofInt (.fin false 0) p.2 with
  | (v, .other) => .ok v
  | (v, .done) => atofFinish sign v false false []
  | (v, .dot r) => atofFinish sign v true false r
  | (v, .exp r) => atofFinish sign v false true r

end HyperCV
