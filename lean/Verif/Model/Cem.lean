/- Model of /repo/modules/algorithm/src/cem.c: detection of a spectrum by constrained energy minimisation. -/
import Verif.Model.Interleave
import Verif.Model.ImageProcess
import Verif.Model.Matrix

namespace HyperCV

/-- the conversion to band sequential order, in place: cem.c:18-19 -/
def cemToBsq (mat : Option Nat) (h : HyperMat) : M Unit :=
  if cmpstr h.tagMem "bsq".toList = 1 then pure () else convert2bsq mat

/-- cem.c:39-56: the filter and its application; `spectral` is the caller's array.  The arguments of the four products are passed as in the code, although
`MulMatrix_float` takes the result last. -/
def cemFilter (invdata t_data spectral : Nat) (samples lines bands data_type : Int) : M (Nat × Nat × Nat × Option Nat) := do
  let fir1 ← malloc (bands * 4).toNat
  let fir2 ← malloc (bands * 4).toNat
  let fir3 ← malloc 4
  MulMatrix_float fir1 invdata spectral bands bands 1
  MulMatrix_float fir2 spectral invdata 1 bands bands
  MulMatrix_float fir3 fir2 spectral 1 bands 1
  forI 0 bands fun i => do
    let a ← loadN 4 fir1 i
    let b ← loadN 4 fir3 0
    storeN 4 fir1 i (f32.encode (f32.div (f32.decode a) (f32.decode b)))
  let res ← create_simple_mat lines samples data_type 1
  let r ← derefS res
  let n ← ev (samples * lines)
  MulMatrix_float r.data t_data fir1 n bands 1
  pure (fir1, fir2, fir3, res)

/-- `hyper_mat_cem`: cem.c:14-70.  Simplification: a negative product `bands * sizeof(float)` (impossible for a cube) is an empty allocation. -/
def hyper_mat_cem (mat : Option Nat) (spectral : Nat) : M (Option Nat) := do
  let h0 ← derefH mat
  cassert (h0.data_type = 4)
  cemToBsq mat h0
  let h ← derefH mat
  let n ← ev (h.samples * h.lines)
  let src ← reshape_hypermat_2_simplemat mat h.bands n
  let s ← derefS src
  let t ← create_simple_mat s.cols s.rows h.data_type 1
  simple_mat_transport t src
  let corrmat ← create_simple_mat h.bands h.bands h.data_type 1
  let th ← derefS t
  let ch ← derefS corrmat
  let n2 ← ev (h.samples * h.lines)
  correlation_matrix_float ch.data s.data th.data h.bands n2 h.bands
  let invmat ← create_simple_mat h.bands h.bands h.data_type 1
  let ih ← derefS invmat
  invert_matrix_float ih.data ch.data h.bands
  let fr ← cemFilter ih.data th.data spectral h.samples h.lines h.bands h.data_type
  delete_simple_mat src
  delete_simple_mat t
  delete_simple_mat corrmat
  delete_simple_mat invmat
  free fr.1
  free fr.2.1
  free fr.2.2.1
  pure fr.2.2.2

end HyperCV
