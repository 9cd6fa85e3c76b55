/- Model of the image statistics in /repo/modules/core/src/c_src/simplemat.c, lines 276-486. -/
import Verif.Model.Color

namespace HyperCV

/-- element `i` as it is added to a `float`: simplemat.c:285-316.  The data types 2 (signed 16 bit) and 3 (signed 32 bit) are
read as unsigned. -/
def statElem (data_type : Int) (data : Nat) (i : Int) : M FV :=
  if data_type = 1 then do
    let v ← load data i
    pure (f32.ofInt (ival v))
  else if data_type = 2 ∨ data_type = 12 then do
    let v ← loadN 2 data i
    pure (f32.ofInt v)
  else if data_type = 3 then do
    let v ← loadN 4 data i
    pure (f32.ofInt v)
  else do
    let v ← loadN 4 data i
    pure (f32.decode v)

/-- the data types with a case in the `switch` of simplemat.c:285 and 333 -/
def statType (data_type : Int) : Bool := data_type = 1 ∨ data_type = 2 ∨ data_type = 12 ∨ data_type = 3 ∨ data_type = 4

/-- `simple_mat_mean`: simplemat.c:276-318.  Simplification: `rows*cols` is evaluated once. -/
def simple_mat_mean (mat : Option Nat) : M FV := do
  cassert mat.isSome
  let s ← derefS mat
  cassert (s.channels = 1)
  let res ←
    if statType s.data_type then do
      let n ← ev (CI.lit s.rows * CI.lit s.cols)
      forA 0 n (FV.fin false 0) fun i res => do
        let v ← statElem s.data_type s.data i
        pure (f32.add res v)
    else pure (FV.fin false 0)
  pure (f32.div (f32.div res (f32.ofInt s.rows)) (f32.ofInt s.cols))

/-- `res += pow(d, 2)` with a `float` accumulator.  Assumption: `pow(x, 2)` is the correctly rounded square of `x`. -/
def addSquare (res : FV) (d : FV) : FV := f32.conv (f64.add (f64.conv res) (f64.mul d d))

/-- `simple_mat_variance`: simplemat.c:325-368 -/
def simple_mat_variance (mat : Option Nat) : M FV := do
  cassert mat.isSome
  let s ← derefS mat
  cassert (s.channels = 1)
  let mean ← simple_mat_mean mat
  let res ←
    if statType s.data_type then do
      let n ← ev (CI.lit s.rows * CI.lit s.cols)
      forA 0 n (FV.fin false 0) fun i res => do
        let v ← statElem s.data_type s.data i
        pure (addSquare res (f64.conv (f32.sub mean v)))
    else pure (FV.fin false 0)
  pure (f32.div (f32.div res (f32.ofInt s.rows)) (f32.ofInt s.cols))

/-- the grey image used by the statistics: simplemat.c:387-390, 416-421, 460-465.  It is never deleted. -/
def greyOfMat (mat : Option Nat) (channels : Int) : M (Option Nat) :=
  if channels ≠ 1 then sm_rgb2gray mat 0 else pure mat

/-- `simple_mat_grayscale_statistics`: simplemat.c:375-399.  `sizeof(gray_statist)` is the size of a pointer (8 bytes);
`gray_statist` is the handle of an array of `int`. -/
def simple_mat_grayscale_statistics (mat : Option Nat) (gray_statist : Nat) : M Unit := do
  cassert mat.isSome
  let s ← derefS mat
  cassert (s.data_type = 1)
  cassert ((8 : Int) = 256)
  let tmp ← greyOfMat mat s.channels
  let t ← derefS tmp
  forI 0 256 fun i => storeN 4 gray_statist i 0
  let n ← ev (CI.lit s.rows * CI.lit s.cols)
  forI 0 n fun i => do
    let v ← load t.data i
    let c ← loadN 4 gray_statist (ival v)
    storeN 4 gray_statist (ival v) (c + 1)

/-- one of the four terms of simplemat.c:432-439 -/
def contrastTerm (data : Nat) (use : Bool) (a b : CI) (res : FV) : M FV :=
  if use then do
    let p ← ev a
    let x ← load data p
    let q ← ev b
    let y ← load data q
    let d ← ev (CI.lit (ival x) - CI.lit (ival y))
    pure (addSquare res (f64.ofInt d))
  else pure res

/-- simplemat.c:432-439 -/
def contrastPixel (data : Nat) (rows cols i j : Int) (res : FV) : M FV := do
  let at_ : CI := CI.lit i * CI.lit cols + CI.lit j
  let res ← contrastTerm data (j ≠ 0) at_ (CI.lit i * CI.lit cols + CI.lit j - CI.lit 1) res
  let res ← contrastTerm data (j ≠ cols - 1) at_ (CI.lit i * CI.lit cols + CI.lit j + CI.lit 1) res
  let res ← contrastTerm data (i ≠ 0) at_ ((CI.lit i - CI.lit 1) * CI.lit cols + CI.lit j) res
  contrastTerm data (i ≠ rows - 1) at_ ((CI.lit i + CI.lit 1) * CI.lit cols + CI.lit j) res

/-- `simple_mat_contrast_ratio`: simplemat.c:407-443 -/
def simple_mat_contrast_ratio (mat : Option Nat) : M FV := do
  cassert mat.isSome
  let s ← derefS mat
  cassert (s.data_type = 1)
  let tmp ← greyOfMat mat s.channels
  let t ← derefS tmp
  let res ← forA 0 s.rows (FV.fin false 0) fun i res => forA 0 s.cols res fun j res => contrastPixel t.data s.rows s.cols i j res
  let n ← ev (CI.lit 4 * (CI.lit s.cols - CI.lit 2) * (CI.lit s.rows - CI.lit 2) + CI.lit 3 * CI.lit 2 * (CI.lit s.rows - CI.lit 2) +
    CI.lit 3 * CI.lit 2 * (CI.lit s.cols - CI.lit 2) + CI.lit 2 * CI.lit 4)
  pure (f32.div res (f32.ofInt n))

/-- `simple_mat_entropy`: simplemat.c:451-486.  Simplification: the computation after the call of
`simple_mat_grayscale_statistics`, which uses logarithms, is left to the parameter `rest`. -/
def simple_mat_entropy (mat : Option Nat) (rest : Nat → M FV) : M FV := do
  cassert mat.isSome
  let s ← derefS mat
  cassert (s.data_type = 1)
  let tmp ← greyOfMat mat s.channels
  let _ ← derefS tmp
  let gray ← malloc 1024
  memset gray 0 0 1024
  simple_mat_grayscale_statistics mat gray
  rest gray

end HyperCV
