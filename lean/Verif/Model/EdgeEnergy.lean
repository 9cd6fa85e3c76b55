/- Model of /repo/modules/algorithm/src/EdgeSignalEnergy.c and of the addition and the logarithm of float images in
/repo/modules/process/src/c_src/imageprocess.c. -/
import Verif.Model.Filter2D
import Verif.Model.Statistics
import Verif.Model.Decomp

namespace HyperCV

/-- `simple_mat_addition_float`: imageprocess.c:599-626.  All three images are indexed with the row stride of the overlap (the smaller
number of columns); neither the data types nor the size of the destination are checked. -/
def simple_mat_addition_float (mat1 mat2 dst_mat : Option Nat) : M Unit := do
  cassert (mat1 ≠ none ∧ mat2 ≠ none ∧ dst_mat ≠ none)
  let a ← derefS mat1
  let b ← derefS mat2
  cassert (a.channels = b.channels)
  let rows := if a.rows ≥ b.rows then b.rows else a.rows
  let cols := if a.cols ≥ b.cols then b.cols else a.cols
  let d ← derefS dst_mat
  forI 0 rows fun i =>
    forI 0 cols fun j =>
      forI 0 a.channels fun k => do
        let ix ← ev (CI.lit i * CI.lit cols * CI.lit a.channels + CI.lit j * CI.lit a.channels + CI.lit k)
        let v1 ← ldF a.data ix
        let v2 ← ldF b.data ix
        stF d.data ix (f32.add v1 v2)

/-- `simple_mat_log`: imageprocess.c:628-641.  `log` is the logarithm of the C library, a function from `double` to `double`; the result
is converted to `float`. -/
def simple_mat_log (log : FV → FV) (src_mat dst_mat : Option Nat) : M Unit := do
  let s ← derefS src_mat
  let d ← derefS dst_mat
  cassert (s.data_type = 4 ∧ d.data_type = 4)
  cassert (s.rows = d.rows ∧ s.cols = d.cols)
  let n ← ev (CI.lit s.rows * CI.lit s.cols)
  forI 0 n fun i => do
    let v ← ldF s.data i
    stF d.data i (f32.conv (log (f64.conv v)))

/-- the weights of `opt1` and `opt2`: EdgeSignalEnergy.c:15-16 -/
def edgeWeight1 (t : Int) : Int := if t = 4 then 4 else if t = 2 ∨ t = 6 then 1 else -1
def edgeWeight2 (t : Int) : Int := if t = 4 then 4 else if t = 0 ∨ t = 8 then 1 else -1

/-- a local array of nine weights divided by 6: EdgeSignalEnergy.c:15-22.  Simplification: the local array is a block that is released
at the end of the function. -/
def edgeKernel (w : Int → Int) : M Nat := do
  let k ← malloc 36
  forI 0 9 fun t => stF k t (f32.div (f32.ofInt (w t)) (f32.ofInt 6))
  pure k

/-- the sum of squares: EdgeSignalEnergy.c:37-40 -/
def edgeSum (data : Nat) (rows cols : Int) : M FV :=
  forA 0 rows (FV.fin false 0) fun i r => forA 0 cols r fun j r => do
    let p ← ev (CI.lit i * CI.lit cols + CI.lit j)
    let v ← ldF data p
    pure (addSquare r (f64.conv v))

/-- `cal_edge_signal_energy`: EdgeSignalEnergy.c:9-46.  Lines 12 and 13 are assignments to the header of the image. -/
def cal_edge_signal_energy (mat : Option Nat) : M FV := do
  let p ← nonNull mat
  let s0 ← getS p
  setS p { s0 with channels := 1 }
  let s1 ← getS p
  setS p { s1 with data_type := 1 }
  let opt1 ← edgeKernel edgeWeight1
  let opt2 ← edgeKernel edgeWeight2
  let s ← getS p
  let dst1 ← create_simple_mat s.rows s.cols 4 1
  let dst2 ← create_simple_mat s.rows s.cols 4 1
  hypercv_filter2D mat dst1 (some opt1) 3 3 0
  hypercv_filter2D mat dst2 (some opt2) 3 3 0
  simple_mat_addition_float dst1 dst2 dst1
  let d ← derefS dst1
  let r ← edgeSum d.data s.rows s.cols
  delete_simple_mat dst1
  delete_simple_mat dst2
  free opt1
  free opt2
  pure (f32.div (f32.div r (f32.ofInt s.rows)) (f32.ofInt s.cols))

end HyperCV
