/- Model of the norm, the QR decomposition and the eigenvectors in /repo/modules/process/src/c_src/matrixprocess.c:215-298. -/
import Verif.Model.Matrix
import Verif.Base.Sqrt

namespace HyperCV

/-- read element `i` of an array of `float`s -/
def ldF (a : Nat) (i : Int) : M FV := do
  let b ← loadN 4 a i
  pure (f32.decode b)

/-- write element `i` of an array of `float`s -/
def stF (a : Nat) (i : Int) (v : FV) : M Unit := storeN 4 a i (f32.encode v)

/-- `(float)sqrt(v)` for a `float` `v`: matrixprocess.c:220, 293 -/
def rootF (v : FV) : FV := f32.conv (f64.sqrt (f64.conv v))

/-- `matrix_norm_float`: matrixprocess.c:215-222 -/
def matrix_norm_float (a : Nat) (size : Int) : M FV := do
  let ans ← forA 0 size (.fin false 0) fun i ans => do
    let x ← ldF a i
    pure (f32.add ans (f32.mul x x))
  pure (rootF ans)

/-- the body of the loop over `k`: matrixprocess.c:236-243 -/
def qrProject (r col_a col_q : Nat) (m j k : Int) : M Unit := do
  let p ← ev (CI.lit k * CI.lit m + CI.lit j)
  stF r p (.fin false 0)
  forI 0 m fun i => do
    let x ← ldF r p
    let y ← ldF col_a i
    stF r p (f32.add x y)
  forI 0 m fun i => do
    let x ← ldF col_q i
    let y ← ldF r p
    stF col_q i (f32.sub x y)

/-- column `j`: matrixprocess.c:231-248 -/
def qrColumn (a q r col_a col_q : Nat) (m j : Int) : M Unit := do
  forI 0 m fun i => do
    let p ← ev (CI.lit i * CI.lit m + CI.lit j)
    let x ← loadN 4 a p
    storeN 4 col_a i x
    storeN 4 col_q i x
  forI 0 j fun k => qrProject r col_a col_q m j k
  let tmp ← matrix_norm_float col_q m
  let p ← ev (CI.lit j * CI.lit m + CI.lit j)
  stF r p tmp
  forI 0 m fun i => do
    let x ← ldF col_q i
    let p ← ev (CI.lit i * CI.lit m + CI.lit j)
    stF q p (f32.div x tmp)

/-- `matrix_QR_float`: matrixprocess.c:224-250.  The two columns are not freed.  Simplification: for a negative `m` (no matrix) the allocations are empty
instead of failing; nothing is done in either case. -/
def matrix_QR_float (a q r : Nat) (m : Int) : M Unit := do
  let col_a ← malloc (m * 4).toNat
  let col_q ← malloc (m * 4).toNat
  forI 0 m fun j => qrColumn a q r col_a col_q m j

/-- the elimination below the diagonal element `i`: matrixprocess.c:266-277.  The division starts at column 1 for every row. -/
def eigEliminate (temp : Nat) (m n i : Int) : M Unit := do
  let p ← ev (CI.lit i * CI.lit n + CI.lit i)
  let coe ← ldF temp p
  forI 1 n fun j => do
    let p ← ev (CI.lit i * CI.lit n + CI.lit j)
    let x ← ldF temp p
    stF temp p (f32.div x coe)
  forI (i + 1) m fun i1 => do
    let p ← ev (CI.lit i1 * CI.lit n + CI.lit i)
    let coe ← ldF temp p
    forI i n fun j1 => do
      let p ← ev (CI.lit i1 * CI.lit n + CI.lit j1)
      let p2 ← ev (CI.lit i * CI.lit n + CI.lit j1)
      let x ← ldF temp p
      let y ← ldF temp p2
      stF temp p (f32.sub x (f32.mul coe y))

/-- one step of the back substitution: matrixprocess.c:284-291; the result is the new `sum1` -/
def eigBack (temp vec : Nat) (n count i2 : Int) (sum1 : FV) : M FV := do
  let sum2 ← forA (i2 + 1) n (.fin false 0) fun j2 s => do
    let p ← ev (CI.lit i2 * CI.lit n + CI.lit j2)
    let q ← ev (CI.lit j2 * CI.lit n + CI.lit count)
    let x ← ldF temp p
    let y ← ldF vec q
    pure (f32.add s (f32.mul x y))
  let p ← ev (CI.lit i2 * CI.lit n + CI.lit i2)
  let d ← ldF temp p
  let v := f32.div sum2.neg d
  let q ← ev (CI.lit i2 * CI.lit n + CI.lit count)
  stF vec q v
  pure (f32.add sum1 (f32.mul v v))

/-- one eigenvector: matrixprocess.c:259-296.  The loop `for(i2 = m-2; i2 >= 0; i2--)` counts upwards here. -/
def eigColumn (a vec val temp : Nat) (m n count : Int) : M Unit := do
  let evalue ← ldF val count
  let sz ← ev (CI.lit m * CI.lit n)
  memcpy temp 0 a 0 (sz * 4)
  forI 0 m fun i => do
    let p ← ev (CI.lit i * CI.lit n + CI.lit i)
    let x ← ldF temp p
    stF temp p (f32.sub x evalue)
  forI 0 (m - 1) fun i => eigEliminate temp m n i
  let p ← ev ((CI.lit m - 1) * CI.lit n + CI.lit count)
  stF vec p (.fin false 1)
  let sum1 ← forA 0 (m - 1) (.fin false 1) fun t s => eigBack temp vec n count (m - 2 - t) s
  let root := rootF sum1
  forI 0 m fun i => do
    let p ← ev (CI.lit i * CI.lit n + CI.lit count)
    let x ← ldF vec p
    stF vec p (f32.div x root)

/-- `cal_eigen_vector_float`: matrixprocess.c:252-298.  Simplification: a negative product `m*n` (no matrix) is an empty allocation. -/
def cal_eigen_vector_float (a vec val : Nat) (m n : Int) : M Unit := do
  let sz ← ev (CI.lit m * CI.lit n)
  let temp ← malloc (sz * 4).toNat
  forI 0 n fun count => eigColumn a vec val temp m n count
  free temp

end HyperCV
