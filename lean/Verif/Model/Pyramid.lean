/- Model of the image pyramids in /repo/modules/process/src/c_src/GeometricTransformation.c. -/
import Verif.Model.Gaussian

namespace HyperCV

/-- `hypercv_pyramid_down`: GeometricTransformation.c:74-103.  The C library's `exp` (not used for five taps) is the parameter `exp`. -/
def hypercv_pyramid_down (exp : FV → FV) (src dst : Option Nat) : M Unit := do
  let sp ← nonNull src
  let s ← getS sp
  let channels := s.channels
  cassert (s.rows ≥ 2 ∧ s.cols ≥ 2)
  let dp ← nonNull dst
  let d ← getS dp
  let hr ← ev ((CI.lit s.rows + 1) / 2)
  cassert (d.rows = hr)
  let hc ← ev ((CI.lit s.cols + 1) / 2)
  cassert (d.cols = hc)
  cassert (d.data_type = s.data_type)
  let tmp ← create_simple_mat s.rows s.cols s.data_type channels
  hypercv_gaussian_blur exp src tmp 5 5 (.fin false 0) (.fin false 0) 1
  let t ← derefS tmp
  forI 0 d.rows fun i =>
    forI 0 d.cols fun j =>
      forI 0 channels fun k => do
        let si ← ev (CI.lit 2 * CI.lit i * CI.lit s.cols * CI.lit channels + CI.lit 2 * CI.lit j * CI.lit channels + CI.lit k)
        let v ← load t.data si
        let di ← ev (CI.lit i * CI.lit d.cols * CI.lit channels + CI.lit j * CI.lit channels + CI.lit k)
        store d.data di v

/-- one element of the image with gaps: GeometricTransformation.c:129-140 -/
def pyrUpElem (s d t : SimpleMat) (i j k : Int) : M Unit :=
  if i % 2 = 1 ∨ j % 2 = 1 then do
    let di ← ev (CI.lit i * CI.lit d.cols * CI.lit s.channels + CI.lit j * CI.lit s.channels + CI.lit k)
    store t.data di 0
  else do
    let si ← ev (CI.lit (i / 2) * CI.lit s.cols * CI.lit s.channels + CI.lit (j / 2) * CI.lit s.channels + CI.lit k)
    let v ← load s.data si
    let di ← ev (CI.lit i * CI.lit d.cols * CI.lit s.channels + CI.lit j * CI.lit s.channels + CI.lit k)
    store t.data di v

/-- `hypercv_pyramid_up`: GeometricTransformation.c:105-151.  Simplification: the test for odd rows and columns is inside the loop over the channels,
which is written once instead of twice. -/
def hypercv_pyramid_up (exp : FV → FV) (src dst : Option Nat) : M Unit := do
  let sp ← nonNull src
  let s ← getS sp
  cassert (s.rows ≥ 2 ∧ s.cols ≥ 2)
  let dp ← nonNull dst
  let d ← getS dp
  let hr ← ev (CI.lit s.rows * 2)
  cassert (d.rows = hr)
  let hc ← ev (CI.lit s.cols * 2)
  cassert (d.cols = hc)
  cassert (d.data_type = s.data_type)
  let tmp ← simple_mat_copy dst
  let t ← derefS tmp
  forI 0 d.rows fun i =>
    forI 0 d.cols fun j =>
      forI 0 s.channels fun k => pyrUpElem s d t i j k
  let kernel ← gaussian_kernel exp 5 (.fin false 0) 4
  let kh ← derefS kernel
  forI 0 5 fun i => do
    let v ← loadN 4 kh.data i
    storeN 4 kh.data i (f32.encode (f32.mul (f32.decode v) (f32.ofInt 2)))
  hypercv_gaussian_blur_with_kernel tmp dst kernel kernel 1

end HyperCV
