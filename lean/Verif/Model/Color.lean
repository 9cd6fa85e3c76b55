/- Model of /repo/modules/process/src/c_src/colortransform.c. -/
import Verif.Model.SimpleMat
import Verif.Model.Round

namespace HyperCV

/-- `hypercv_colortransform`: colortransform.c:21-39.  After the checks (method codes 4, 6, 7 and 8, type.h:250-257)
control reaches the end of the non-void function without a `return`: the value the caller receives is
indeterminate, which is modelled as undefined behaviour. -/
def hypercv_colortransform (src_mat : Option Nat) (method : Int) : M (Option Nat) := do
  let _ ← nonNull src_mat
  cassert (method = 4 ∨ method = 6 ∨ method = 7 ∨ method = 8)
  fail (.ub .uninit)

/-- `sm_binary2rgb`: colortransform.c:46-65.  The product is an `int` stored into an `unsigned char`. -/
def sm_binary2rgb (binary_image : Option Nat) : M (Option Nat) := do
  let b ← derefS binary_image
  cassert (b.channels = 1)
  let rgb ← create_simple_mat b.rows b.cols 1 3
  let r ← derefS rgb
  forI 0 b.rows fun i =>
    forI 0 b.cols fun j =>
      forI 0 3 fun k => do
        let si ← ev (i * CI.lit b.cols + j)
        let v ← load b.data si
        let x ← ev (CI.lit (ival v) * CI.lit 255)
        let di ← ev (i * CI.lit b.cols * CI.lit 3 + j * CI.lit 3 + k)
        store r.data di (uchar x)
  pure rgb

/-- `sm_gray2rgb`: colortransform.c:72-91 -/
def sm_gray2rgb (gray_image : Option Nat) : M (Option Nat) := do
  let g ← derefS gray_image
  cassert (g.channels = 1)
  let rgb ← create_simple_mat g.rows g.cols 1 3
  let r ← derefS rgb
  forI 0 g.rows fun i =>
    forI 0 g.cols fun j =>
      forI 0 3 fun k => do
        let si ← ev (i * CI.lit g.cols + j)
        let v ← load g.data si
        let di ← ev (i * CI.lit g.cols * CI.lit 3 + j * CI.lit 3 + k)
        store r.data di v
  pure rgb

/-- `(int)x` for a floating value: undefined behaviour when it does not fit -/
def truncInt (x : FV) : M Int :=
  match x.trunc with
  | some n => pure n
  | none => fail (.ub .fpConv)

/-- `tmp > v ? tmp : v` of colortransform.c:121, `v` converted to float -/
def grayMaxStep (tmp : FV) (v : UInt8) : FV :=
  if FV.lt (f32.ofInt (ival v)) tmp then tmp else f32.ofInt (ival v)

/-- the constants of colortransform.c:127 as doubles -/
def wRed : FV := f64.round false (299 / 1000)
def wGreen : FV := f64.round false (578 / 1000)
def wBlue : FV := f64.round false (114 / 1000)

/-- the right-hand side of colortransform.c:127: computed in double, stored into a float -/
def grayWeighted (r g b : UInt8) : FV :=
  f32.conv (f64.add (f64.add (f64.mul (f64.ofInt (ival r)) wRed) (f64.mul (f64.ofInt (ival g)) wGreen))
    (f64.mul (f64.ofInt (ival b)) wBlue))

/-- `tmp/3+0.5` of colortransform.c:135: a float division, then a double addition -/
def grayMean (tmp : FV) : FV := f64.add (f64.conv (f32.div tmp (f32.ofInt 3))) (.fin false (1 / 2))

/-- the body of the inner loop of `sm_rgb2gray`: colortransform.c:116-136; returns the `int` stored into the
grey pixel -/
def grayPixel (rgb_data : Nat) (cols method i j : Int) : M Int := do
  if method = 1 then
    let tmp ← forA 0 3 (FV.fin false 0) fun k tmp => do
      let a ← ev (i * CI.lit cols * CI.lit 3 + j * CI.lit 3 + k)
      let v ← load rgb_data a
      pure (grayMaxStep tmp v)
    truncInt tmp
  else if method = 2 then
    let a ← ev (i * CI.lit cols * CI.lit 3 + j * CI.lit 3)
    let r ← load rgb_data a
    let a1 ← ev (i * CI.lit cols * CI.lit 3 + j * CI.lit 3 + CI.lit 1)
    let g ← load rgb_data a1
    let a2 ← ev (i * CI.lit cols * CI.lit 3 + j * CI.lit 3 + CI.lit 2)
    let b ← load rgb_data a2
    truncInt (grayWeighted r g b)
  else
    let tmp ← forA 0 3 (FV.fin false 0) fun k tmp => do
      let a ← ev (i * CI.lit cols * CI.lit 3 + j * CI.lit 3 + k)
      let v ← load rgb_data a
      pure (f32.add tmp (f32.ofInt (ival v)))
    truncInt (grayMean tmp)

/-- `sm_rgb2gray`: colortransform.c:98-142 -/
def sm_rgb2gray (rgb_image : Option Nat) (method : Int) : M (Option Nat) := do
  let s ← derefS rgb_image
  cassert (s.channels = 3)
  let gray ← create_simple_mat s.rows s.cols 1 1
  let g ← derefS gray
  forI 0 s.rows fun i =>
    forI 0 s.cols fun j => do
      let n ← grayPixel s.data s.cols method i j
      let di ← ev (i * CI.lit s.cols + j)
      store g.data di (uchar n)
  pure gray

/-- `sm_bgr2rgb`: colortransform.c:150-176 (the loop over `t` repeats the three assignments) -/
def sm_bgr2rgb (src_mat dst_mat : Option Nat) : M Unit := do
  let sp ← nonNull src_mat
  let dp ← nonNull dst_mat
  let s ← getS sp
  cassert (s.data_type = 1)
  let d ← getS dp
  cassert (s.rows = d.rows ∧ s.cols = d.cols ∧ s.channels = d.channels)
  cassert (s.channels = 3)
  forI 0 s.rows fun i =>
    forI 0 s.cols fun j =>
      forI 0 s.channels fun _ => do
        let a0 ← ev (i * CI.lit s.cols * CI.lit s.channels + j * CI.lit s.channels)
        let a1 ← ev (i * CI.lit s.cols * CI.lit s.channels + j * CI.lit s.channels + CI.lit 1)
        let a2 ← ev (i * CI.lit s.cols * CI.lit s.channels + j * CI.lit s.channels + CI.lit 2)
        let v2 ← load s.data a2
        store d.data a0 v2
        let v1 ← load s.data a1
        store d.data a1 v1
        let v0 ← load s.data a0
        store d.data a2 v0

end HyperCV
