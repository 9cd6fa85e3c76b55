/- Model of /repo/modules/algorithm/src/pca.c: principal component analysis. -/
import Verif.Model.ImageProcess
import Verif.Model.Spectral
import Verif.Model.Math
import Verif.Model.Decomp

namespace HyperCV

/-- the means are subtracted from the pixels, in place: pca.c:20-22 -/
def pcaCentre (x mean : Nat) (samples lines bands : Int) : M Unit := do
  let n ← ev (samples * lines)
  forI 0 n fun i =>
    forI 0 bands fun j => do
      let p ← ev (i * bands + j)
      let a ← ldF x p
      let b ← ldF mean i
      stF x p (f32.sub a b)

/-- `cal_covariance_matrix`: pca.c:9-32.  The product is added to what is in the result. -/
def cal_covariance_matrix (x mean_mat res_mat : Option Nat) : M Unit := do
  let mm ← derefS mean_mat
  let xh ← derefS x
  let rh ← derefS res_mat
  pcaCentre xh.data mm.data mm.cols mm.rows xh.cols
  let n ← ev (mm.cols * mm.rows)
  let t ← create_simple_mat xh.cols n 4 1
  simple_mat_transport t x
  let th ← derefS t
  let k ← ev (mm.rows * mm.cols)
  MulMatrix_float th.data xh.data rh.data xh.cols k xh.cols
  delete_simple_mat t

/-- one round of the iteration: pca.c:57-58.  The product is added to what is in `temp`. -/
def pcaRound (temp q r : Nat) (bands : Int) : M Unit := do
  matrix_QR_float temp q r bands
  MulMatrix_float q r temp bands bands bands

/-- the diagonal is copied: pca.c:63-64 -/
def pcaDiagonal (evalue temp : Nat) (bands : Int) : M Unit :=
  forI 0 bands fun k => do
    let p ← ev (k * bands + k)
    let v ← loadN 4 temp p
    storeN 4 evalue k v

/-- the part between the covariances and the deletions: pca.c:51-72; the results are the images deleted afterwards.  The array of eigenvalues is not freed. -/
def pcaProject (reshape_mat cov_mat : Option Nat) (res_data : Nat) (samples lines bands iteration : Int) :
    M (Option Nat × Option Nat × Option Nat × Option Nat) := do
  let ch ← derefS cov_mat
  let temp ← simple_mat_copy cov_mat
  let q_mat ← create_simple_mat ch.rows ch.cols 4 1
  let r_mat ← create_simple_mat ch.rows ch.cols 4 1
  let th ← derefS temp
  let qh ← derefS q_mat
  let rh ← derefS r_mat
  forI 0 iteration fun _ => pcaRound th.data qh.data rh.data bands
  let evalue ← malloc (bands * 4).toNat
  pcaDiagonal evalue th.data bands
  sort_array_down_float evalue bands
  let eigen_vector ← simple_mat_copy q_mat
  let eh ← derefS eigen_vector
  cal_eigen_vector_float ch.data eh.data evalue bands bands
  let xh ← derefS reshape_mat
  let n ← ev (samples * lines)
  MulMatrix_float xh.data eh.data res_data n bands bands
  pure (temp, q_mat, r_mat, eigen_vector)

/-- `hyper_mat_pca`: pca.c:36-88.  The check of the element type is an assignment: it always succeeds and makes the type `float`.  Simplification: the
headers of the result and of the images are read once. -/
def hyper_mat_pca (bip_mat res_bip_mat : Option Nat) (iteration : Int) : M Unit := do
  let h0 ← derefH bip_mat
  let bp ← nonNull bip_mat
  setH bp { h0 with data_type := 4 }
  let h ← derefH bip_mat
  let mean_mat ← create_simple_mat h.lines h.samples 4 1
  hyper_mat_mean bip_mat mean_mat
  let n ← ev (h.samples * h.lines)
  let reshape_mat ← reshape_hypermat_2_simplemat bip_mat n h.bands
  let cov_mat ← create_simple_mat h.bands h.bands 4 1
  cal_covariance_matrix reshape_mat mean_mat cov_mat
  let res ← derefH res_bip_mat
  let rest ← pcaProject reshape_mat cov_mat res.data h.samples h.lines h.bands iteration
  delete_simple_mat mean_mat
  delete_simple_mat cov_mat
  delete_simple_mat reshape_mat
  delete_simple_mat rest.2.2.1
  delete_simple_mat rest.2.1
  delete_simple_mat rest.1
  delete_simple_mat rest.2.2.2

end HyperCV
