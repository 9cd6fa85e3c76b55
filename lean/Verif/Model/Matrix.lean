/- Model of /repo/modules/process/src/c_src/matrixprocess.c: products, transposes, correlation matrices, row
operations and inversion.  (matrix_norm_float, matrix_QR_float and cal_eigen_vector_float, lines 215-298, are in
Model/Decomp.lean.) -/
import Verif.Model.Math
import Verif.Model.Round

namespace HyperCV

/-- a computation without access to memory -/
def liftE {α : Type} (x : Except Err α) : M α := fun m =>
  match x with
  | .error e => .error e
  | .ok a => .ok (a, m)

/-- `z[nm*n+nn] += x[nm*k+nk]*y[nk*n+nn]`: matrixprocess.c:16 (and the seven copies of it); `w` is the element
size and `mac z x y` the bit pattern of `z += x*y` -/
def mulStep (w : Nat) (mac : Nat → Nat → Nat → Except Err Nat) (x y z : Nat) (k n nm nn nk : Int) : M Unit := do
  let ix ← ev (nm * k + nk)
  let iy ← ev (nk * n + nn)
  let iz ← ev (nm * n + nn)
  let a ← loadN w x ix
  let b ← loadN w y iy
  let c ← loadN w z iz
  let r ← liftE (mac c a b)
  storeN w z iz r

/-- the triple loop shared by the `MulMatrix_*` functions: matrixprocess.c:13-16 -/
def mulMatrix (w : Nat) (mac : Nat → Nat → Nat → Except Err Nat) (x y z : Nat) (m k n : Int) : M Unit :=
  forI 0 m fun nm => forI 0 n fun nn => forI 0 k fun nk => mulStep w mac x y z k n nm nn nk

/-- `z += x*y` for a signed type of `w` bytes not wider than `int`: the product and the sum are `int` (overflow is
undefined), the result is converted back modulo 2^(8w) -/
def macSigned (w : Nat) (z x y : Nat) : Except Err Nat :=
  match (CI.lit (sval w z) + CI.lit (sval w x) * CI.lit (sval w y) : CI) with
  | .error e => .error e
  | .ok v => .ok (bitsOf w v)

/-- `z += x*y` for an unsigned type of `w` bytes narrower than `int`: promoted to (signed) `int` -/
def macPromoted (w : Nat) (z x y : Nat) : Except Err Nat :=
  match (CI.lit (z : Int) + CI.lit (x : Int) * CI.lit (y : Int) : CI) with
  | .error e => .error e
  | .ok v => .ok (bitsOf w v)

/-- `z += x*y` for `unsigned int`: modulo 2^32 -/
def macUint (z x y : Nat) : Except Err Nat := .ok ((z + x * y) % 4294967296)

/-- `z += x*y` in the format `F`, without contraction to a fused multiply-add -/
def macFloat (F : Fmt) (z x y : Nat) : Except Err Nat :=
  .ok (F.encode (F.add (F.decode z) (F.mul (F.decode x) (F.decode y))))

/-- `MulMatrix_char`: matrixprocess.c:11-17 -/
def MulMatrix_char := mulMatrix 1 (macSigned 1)
/-- `MulMatrix_uchar`: matrixprocess.c:25-31 -/
def MulMatrix_uchar := mulMatrix 1 (macPromoted 1)
/-- `MulMatrix_short`: matrixprocess.c:39-45 -/
def MulMatrix_short := mulMatrix 2 (macSigned 2)
/-- `MulMatrix_ushort`: matrixprocess.c:53-59 -/
def MulMatrix_ushort := mulMatrix 2 (macPromoted 2)
/-- `MulMatrix_int`: matrixprocess.c:68-74 -/
def MulMatrix_int := mulMatrix 4 (macSigned 4)
/-- `MulMatrix_uint`: matrixprocess.c:82-88 -/
def MulMatrix_uint := mulMatrix 4 macUint
/-- `MulMatrix_float`: matrixprocess.c:96-102 -/
def MulMatrix_float := mulMatrix 4 (macFloat f32)
/-- `MulMatrix_double`: matrixprocess.c:110-116 -/
def MulMatrix_double := mulMatrix 8 (macFloat f64)

/-- `z[nn*m+nm] = x[nm*n+nn]`: matrixprocess.c:128 (and the seven copies of it); assignment copies the bit
pattern -/
def transStep (w : Nat) (x z : Nat) (m n nm nn : Int) : M Unit := do
  let iz ← ev (nn * m + nm)
  let ix ← ev (nm * n + nn)
  let v ← loadN w x ix
  storeN w z iz v

/-- the loop shared by the `TransMatrix_*` functions -/
def transMatrix (w : Nat) (x z : Nat) (m n : Int) : M Unit :=
  forI 0 m fun nm => forI 0 n fun nn => transStep w x z m n nm nn

/-- `TransMatrix_double`: matrixprocess.c:124-129 -/
def TransMatrix_double := transMatrix 8
/-- `TransMatrix_short`: matrixprocess.c:136-141 -/
def TransMatrix_short := transMatrix 2
/-- `TransMatrix_char`: matrixprocess.c:148-153 -/
def TransMatrix_char := transMatrix 1
/-- `TransMatrix_ushort`: matrixprocess.c:160-165 -/
def TransMatrix_ushort := transMatrix 2
/-- `TransMatrix_uchar`: matrixprocess.c:172-177 -/
def TransMatrix_uchar := transMatrix 1
/-- `TransMatrix_int`: matrixprocess.c:184-189 -/
def TransMatrix_int := transMatrix 4
/-- `TransMatrix_float`: matrixprocess.c:196-201 -/
def TransMatrix_float := transMatrix 4
/-- `TransMatrix_uint`: matrixprocess.c:208-213 -/
def TransMatrix_uint := transMatrix 4

/-- the shape of the `correlation_matrix_*` functions: multiply, then divide each element -/
def correlation (w : Nat) (mac : Nat → Nat → Nat → Except Err Nat) (quo : Nat → Int → Except Err Nat)
    (res mat1 mat2 : Nat) (l n m : Int) : M Unit := do
  mulMatrix w mac mat1 mat2 res l n m
  let lm ← ev (l * m)
  forI 0 lm fun i => do
    let v ← loadN w res i
    let r ← liftE (quo v n)
    storeN w res i r

/-- `(int)(res[i]/n)` for a signed type, converted back -/
def quoSigned (w : Nat) (v : Nat) (n : Int) : Except Err Nat :=
  match (CI.lit (sval w v) / CI.lit n : CI) with
  | .error e => .error e
  | .ok r => .ok (bitsOf w r)

/-- the same for an unsigned type narrower than `int` -/
def quoPromoted (w : Nat) (v : Nat) (n : Int) : Except Err Nat :=
  match (CI.lit (v : Int) / CI.lit n : CI) with
  | .error e => .error e
  | .ok r => .ok (bitsOf w r)

/-- the same for `unsigned int`: `n` is converted to unsigned -/
def quoUint (v : Nat) (n : Int) : Except Err Nat :=
  if u32 n = 0 then .error (.ub .divZero) else .ok (v / (u32 n).toNat)

/-- `res[i]/n` in `float` -/
def quoFloat (v : Nat) (n : Int) : Except Err Nat :=
  .ok (f32.encode (f32.div (f32.decode v) (f32.ofInt n)))

/-- `correlation_matrix_uchar`: matrixprocess.c:300-306 -/
def correlation_matrix_uchar := correlation 1 (macPromoted 1) (quoPromoted 1)
/-- `correlation_matrix_char`: matrixprocess.c:308-314 -/
def correlation_matrix_char := correlation 1 (macSigned 1) (quoSigned 1)
/-- `correlation_matrix_short`: matrixprocess.c:316-322 -/
def correlation_matrix_short := correlation 2 (macSigned 2) (quoSigned 2)
/-- `correlation_matrix_ushort`: matrixprocess.c:324-330 -/
def correlation_matrix_ushort := correlation 2 (macPromoted 2) (quoPromoted 2)
/-- `correlation_matrix_int`: matrixprocess.c:332-338 -/
def correlation_matrix_int := correlation 4 (macSigned 4) (quoSigned 4)
/-- `correlation_matrix_uint`: matrixprocess.c:340-346 -/
def correlation_matrix_uint := correlation 4 macUint quoUint
/-- `correlation_matrix_float`: matrixprocess.c:348-354 -/
def correlation_matrix_float := correlation 4 (macFloat f32) quoFloat

/-- bit patterns of 1.0f and 0.0f -/
def oneF : Nat := 0x3F800000
def zeroF : Nat := 0

/-- `set_identity_matrix_float`: matrixprocess.c:356-368 -/
def set_identity_matrix_float (mat : Nat) (m : Int) : M Unit :=
  forI 0 m fun i => forI 0 m fun j => do
    let k ← ev (i * m + j)
    if i = j then storeN 4 mat k oneF else storeN 4 mat k zeroF

/-- `swap_rows_float`: matrixprocess.c:370-383 -/
def swap_rows_float (data : Nat) (m n r1 r2 : Int) : M Unit := do
  cassert (0 ≤ r1 ∧ r1 < m ∧ 0 ≤ r2 ∧ r2 < m)
  cassert (r1 ≠ r2)
  let tmp ← malloc (n * 4).toNat
  let o1 ← ev (r1 * n)
  let o2 ← ev (r2 * n)
  memcpy tmp 0 data (o1 * 4) (n * 4)
  memcpy data (o1 * 4) data (o2 * 4) (n * 4)
  memcpy data (o2 * 4) tmp 0 (n * 4)
  free tmp

/-- product of two `float` bit patterns -/
def mulF (a b : Nat) : Nat := f32.encode (f32.mul (f32.decode a) (f32.decode b))
/-- sum of two `float` bit patterns -/
def addF (a b : Nat) : Nat := f32.encode (f32.add (f32.decode a) (f32.decode b))

/-- `matrix_row_multi_scalar_float`: matrixprocess.c:385-391 -/
def matrix_row_multi_scalar_float (mat : Nat) (rows cols r : Int) (scalar : Nat) : M Unit := do
  cassert (0 ≤ r ∧ r < rows)
  forI 0 cols fun i => do
    let k ← ev (r * cols + i)
    let v ← loadN 4 mat k
    storeN 4 mat k (mulF v scalar)

/-- `shear_row`: matrixprocess.c:394-399 -/
def shear_row (mat : Nat) (rows cols r1 r2 : Int) (scalar : Nat) : M Unit := do
  cassert (r1 ≠ r2 ∧ 0 ≤ r1 ∧ r1 < rows ∧ 0 ≤ r2 ∧ r2 < rows)
  forI 0 cols fun i => do
    let k1 ← ev (r1 * cols + i)
    let k2 ← ev (r2 * cols + i)
    let a ← loadN 4 mat k1
    let b ← loadN 4 mat k2
    storeN 4 mat k1 (addF a (mulF scalar b))

/-- `x == 0.0` (and `x != 0.0` is its negation, also for NaN) -/
def isZeroF (x : Nat) : Bool := FV.feq (f32.decode x) (.fin false 0)

/-- the search for a pivot row: matrixprocess.c:411-415, at most `f` more rows from `r`; the value of `r` on exit -/
def findPivot (mat : Nat) (m i : Int) : Nat → Int → M Int
  | 0, r => pure r
  | f+1, r => do
    let k ← ev (r * m + i)
    let v ← loadN 4 mat k
    if isZeroF v then findPivot mat m i f (r + 1) else pure r

/-- the pivot handling: matrixprocess.c:409-420; `false` means that the function returns -/
def pivotStep (res mat : Nat) (m i : Int) : M Bool := do
  let k ← ev (i * m + i)
  let v ← loadN 4 mat k
  if isZeroF v then do
    let r ← findPivot mat m i (m - (i + 1)).toNat (i + 1)
    if r = m then pure false
    else do
      swap_rows_float mat m m i r
      swap_rows_float res m m i r
      pure true
  else pure true

/-- `float scalar = 1.0/x`: a `double` division rounded to `float` -/
def recipF (x : Nat) : Nat := f32.encode (f32.conv (f64.div (.fin false 1) (f64.conv (f32.decode x))))

/-- `-x` -/
def negF (x : Nat) : Nat := f32.encode (FV.neg (f32.decode x))

/-- scaling of the pivot row and elimination: matrixprocess.c:421-431 -/
def eliminate (res mat : Nat) (m i : Int) : M Unit := do
  let k ← ev (i * m + i)
  let v ← loadN 4 mat k
  matrix_row_multi_scalar_float mat m m i (recipF v)
  matrix_row_multi_scalar_float res m m i (recipF v)
  forI 0 m fun j =>
    if i = j then pure ()
    else do
      let k' ← ev (j * m + i)
      let u ← loadN 4 mat k'
      shear_row mat m m j i (negF u)
      shear_row res m m j i (negF u)

/-- the main loop of `invert_matrix_float`, at most `f` more columns -/
def invertLoop (res mat : Nat) (m : Int) : Nat → Int → M Unit
  | 0, _ => pure ()
  | f+1, i => do
    let ok ← pivotStep res mat m i
    if ok then do
      eliminate res mat m i
      invertLoop res mat m f (i + 1)
    else pure ()

/-- `invert_matrix_float`: matrixprocess.c:402-433 -/
def invert_matrix_float (res mat : Nat) (m : Int) : M Unit := do
  set_identity_matrix_float res m
  invertLoop res mat m m.toNat 0

end HyperCV
