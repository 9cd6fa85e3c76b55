/-
Model of /repo/modules/algorithm/src/normalize.c.

`hypercv_normalize_uchar` and `hypercv_normalize_float` have the same text except for the element type, so both are instances of
`normalizeT w`, where `w` is the size of an element (1: unsigned char, 4: float).
-/
import Verif.Model.SimpleMat
import Verif.Model.Round
import Verif.Base.Sqrt

namespace HyperCV

/-- the value of an element as `float`: an `unsigned char` is converted where it meets a `float`: normalize.c:39, 94 -/
def normVal (w : Nat) (b : Nat) : FV := if w = 1 then f32.ofInt b else f32.decode b

/-- an element holding the byte `r`: normalize.c:40, 95; storing to a `float` converts -/
def normBits (w : Nat) (r : UInt8) : Nat := if w = 1 then r.toNat else f32.encode (f32.ofInt r.toNat)

/-- `src_data[i]*src_data[i]` (a product of `int` for bytes) as `float`: normalize.c:54, 109 -/
def normSq (w : Nat) (b : Nat) : FV := if w = 1 then f32.ofInt (b * b) else f32.mul (f32.decode b) (f32.decode b)

/-- `v>=0?v:(-v)`: normalize.c:46, 101 -/
def normAbs (v : FV) : FV := if FV.le (.fin false 0) v then v else v.neg

/-- the sum of the magnitudes: normalize.c:44-46, 99-101 -/
def normL1 (w data : Nat) (n : Int) : M FV :=
  forA 0 n (.fin false 0) fun i s => do
    let b ← loadN w data i
    pure (f32.add s (normAbs (normVal w b)))

/-- the sum of the squares: normalize.c:52-54, 107-109 -/
def normL2 (w data : Nat) (n : Int) : M FV :=
  forA 0 n (.fin false 0) fun i s => do
    let b ← loadN w data i
    pure (f32.add s (normSq w b))

/-- the largest value, at least 0: normalize.c:61-63, 116-118 -/
def normInf (w data : Nat) (n : Int) : M FV :=
  forA 0 n (.fin false 0) fun i s => do
    let b ← loadN w data i
    pure (if FV.lt s (normVal w b) then normVal w b else s)

/-- one step of the search for the extremes (largest, smallest): normalize.c:72-73, 127-128 -/
def mmStep (s : FV × FV) (v : FV) : FV × FV := (if FV.lt v s.1 then s.1 else v, if FV.lt s.2 v then s.2 else v)

/-- the extremes: normalize.c:69-74, 124-129 -/
def normMM (w data : Nat) (n : Int) : M (FV × FV) :=
  forA 0 n (.fin true (-1000000), .fin false 1000000) fun i s => do
    let b ← loadN w data i
    pure (mmStep s (normVal w b))

/-- `v*alpha/norm`: normalize.c:48, 65, 103, 120 -/
def normDiv (alpha norm v : FV) : FV := f32.div (f32.mul v alpha) norm

/-- `v*alpha/sqrt(norm)`: normalize.c:56, 111; the quotient is a `double`, the parameter of the conversion a `float` -/
def normDivSqrt (alpha norm v : FV) : FV := f32.conv (f64.div (f64.conv (f32.mul v alpha)) (f64.sqrt (f64.conv norm)))

/-- `(v-minsrc)*(b-a)/(maxsrc-minsrc)+a` with `b` the larger and `a` the smaller of the limits: normalize.c:75-79, 130-134 -/
def normStretch (alpha beta : FV) (s : FV × FV) (v : FV) : FV :=
  let b := if FV.lt beta alpha then alpha else beta
  let a := if FV.lt beta alpha then beta else alpha
  f32.add (f32.div (f32.mul (f32.sub v s.2) (f32.sub b a)) (f32.sub s.1 s.2)) a

/-- the loop writing the result: normalize.c:47-48, 55-56, 64-65, 78-79, 102-103, 110-111, 119-120, 133-134 -/
def normApply (w src dst : Nat) (n : Int) (g : FV → FV) : M Unit :=
  forI 0 n fun i => do
    let b ← loadN w src i
    storeN w dst i (normBits w (saturate_cast_float2uchar (g (normVal w b))))

/-- `hypercv_normalize_uchar` (`w = 1`): normalize.c:29-81, and `hypercv_normalize_float` (`w = 4`): normalize.c:84-136.
Simplification: `rows*cols` is evaluated once instead of in every iteration. -/
def normalizeT (w : Nat) (src dst : Option Nat) (alpha beta : FV) (norm_type : Int) : M Unit := do
  cassert (src.isSome && dst.isSome)
  let s ← derefS src
  let d ← derefS dst
  cassert (d.rows = s.rows ∧ d.cols = s.cols)
  if norm_type = 2 then do
    let n ← ev (CI.lit s.rows * CI.lit s.cols)
    let norm ← normL1 w s.data n
    normApply w s.data d.data n (normDiv alpha norm)
  else if norm_type = 4 then do
    let n ← ev (CI.lit s.rows * CI.lit s.cols)
    let norm ← normL2 w s.data n
    normApply w s.data d.data n (normDivSqrt alpha norm)
  else if norm_type = 1 then do
    let n ← ev (CI.lit s.rows * CI.lit s.cols)
    let norm ← normInf w s.data n
    normApply w s.data d.data n (normDiv alpha norm)
  else if norm_type = 32 then do
    let n ← ev (CI.lit s.rows * CI.lit s.cols)
    let ext ← normMM w s.data n
    normApply w s.data d.data n (normStretch alpha beta ext)
  else pure ()

/-- `hypercv_normalize_uchar`: normalize.c:29-81 -/
def hypercv_normalize_uchar (src dst : Option Nat) (alpha beta : FV) (norm_type : Int) : M Unit := normalizeT 1 src dst alpha beta norm_type

/-- `hypercv_normalize_float`: normalize.c:84-136 -/
def hypercv_normalize_float (src dst : Option Nat) (alpha beta : FV) (norm_type : Int) : M Unit := normalizeT 4 src dst alpha beta norm_type

/-- `hypercv_normalize`: normalize.c:18-27 -/
def hypercv_normalize (src dst : Option Nat) (alpha beta : FV) (norm_type : Int) : M Unit := do
  cassert (src.isSome && dst.isSome)
  let s ← derefS src
  let d ← derefS dst
  cassert (d.rows = s.rows ∧ d.cols = s.cols)
  if s.data_type = 1 then hypercv_normalize_uchar src dst alpha beta norm_type
  else if s.data_type = 4 then hypercv_normalize_float src dst alpha beta norm_type
  else pure ()

end HyperCV
