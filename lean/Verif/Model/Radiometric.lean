/- Model of /repo/modules/process/src/c_src/RadiometricCalibration.c. -/
import Verif.Model.Spectral

namespace HyperCV

/-- the common form of the two corrections: a new cube of type 4 is filled element by element.  `elem` reads one element of the data and
one coefficient and gives their product. -/
def correctElems (bip_mat : Option Nat) (elem : HyperMat → (i j k : Int) → M FV) : M (Option Nat) := do
  let b ← derefH bip_mat
  let res ← create_hyper_mat b.samples b.lines b.bands 4 b.tagMem
  let r ← derefH res
  forI 0 b.lines fun i =>
    forI 0 b.samples fun j =>
      forI 0 b.bands fun k => do
        let v ← elem b i j k
        let p ← ev (CI.lit i * CI.lit b.samples * CI.lit b.bands + CI.lit j * CI.lit b.bands + CI.lit k)
        storeN 4 r.data p (f32.encode v)
  pure res

/-- `relative_radiometric_correction`: RadiometricCalibration.c:9-32.  The `unsigned short` element is promoted to `int` and converted to `float`. -/
def relative_radiometric_correction (bip_mat : Option Nat) (coefficient : Nat) : M (Option Nat) :=
  correctElems bip_mat fun b i j k => do
    let p ← ev (CI.lit i * CI.lit b.samples * CI.lit b.bands + CI.lit j * CI.lit b.bands + CI.lit k)
    let x ← loadN 2 b.data p
    let q ← ev (CI.lit k * CI.lit b.bands + CI.lit j)
    let c ← loadF coefficient q
    pure (f32.mul (f32.ofInt x) c)

/-- `absolute_radiometric_correction`: RadiometricCalibration.c:40-63 -/
def absolute_radiometric_correction (bip_mat : Option Nat) (coefficient : Nat) : M (Option Nat) :=
  correctElems bip_mat fun b i j k => do
    let p ← ev (CI.lit i * CI.lit b.samples * CI.lit b.bands + CI.lit j * CI.lit b.bands + CI.lit k)
    let x ← loadF b.data p
    let c ← loadF coefficient k
    pure (f32.mul x c)

end HyperCV
