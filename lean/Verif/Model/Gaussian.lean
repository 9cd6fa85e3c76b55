/- Model of the Gaussian filter in /repo/modules/process/src/c_src/filter.c. -/
import Verif.Model.Gradient
import Verif.Model.Math

namespace HyperCV

/-- the tables `temp1` .. `temp4` (filter.c:223-226) in units of 1/64, which is exact: `gaussTab h i` is entry `i` of the
kernel of size `2 * h + 1` -/
def gaussTab : Nat → List Nat
  | 0 => [64]
  | 1 => [16, 32, 16]
  | 2 => [4, 16, 24, 16, 4]
  | _ => [2, 7, 14, 18, 14, 7, 2]

/-- `(double)fixed_kernel[i]` -/
def fixedKernel (kernel_size i : Int) : FV := .fin false (((gaussTab (kernel_size / 2).toNat).getD i.toNat 0 : ℕ) / 64)

/-- `sigmaX`: filter.c:241.  Decimal constants are rounded to `double`. -/
def gaussSigma (kernel_size : Int) (sigma : FV) : FV :=
  if FV.lt (.fin false 0) sigma then sigma
  else f64.add (f64.mul (f64.sub (f64.mul (f64.ofInt (kernel_size - 1)) (.fin false (1/2))) (.fin false 1))
    (f64.round false (3/10))) (f64.round false (8/10))

/-- `t`: filter.c:249-250.  The C library's `exp` is the parameter `exp`. -/
def gaussT (exp : FV → FV) (fixed : Bool) (kernel_size : Int) (sigma : FV) (i : Int) : FV :=
  if fixed then fixedKernel kernel_size i
  else
    let sx := gaussSigma kernel_size sigma
    let scale2X := f64.div (.fin true (-1/2)) (f64.mul sx sx)
    let x := f64.sub (f64.ofInt i) (f64.mul (f64.ofInt (kernel_size - 1)) (.fin false (1/2)))
    exp (f64.mul (f64.mul scale2X x) x)

/-- filter.c:247-261: one iteration of the first loop -/
def gaussFill (exp : FV → FV) (fixed : Bool) (kernel_size : Int) (sigma : FV) (ktype : Int) (d : Nat) (i : Int) (sum : FV) : M FV :=
  let t := gaussT exp fixed kernel_size sigma i
  if ktype = 4 then do
    storeN 4 d i (f32.encode (f32.conv t))
    let v ← loadN 4 d i
    pure (f64.add sum (f64.conv (f32.decode v)))
  else do
    storeN 8 d i (f64.encode t)
    let v ← loadN 8 d i
    pure (f64.add sum (f64.decode v))

/-- filter.c:263-269: one iteration of the second loop -/
def gaussScale (ktype : Int) (d : Nat) (sum : FV) (i : Int) : M Unit :=
  if ktype = 4 then do
    let v ← loadN 4 d i
    storeN 4 d i (f32.encode (f32.conv (f64.mul (f64.conv (f32.decode v)) sum)))
  else do
    let v ← loadN 8 d i
    storeN 8 d i (f64.encode (f64.mul (f64.decode v) sum))

/-- `gaussian_kernel`: filter.c:217-271 -/
def gaussian_kernel (exp : FV → FV) (kernel_size : Int) (sigma : FV) (ktype : Int) : M (Option Nat) := do
  cassert (kernel_size > 0)
  cassert (ktype = 4 ∨ ktype = 5)
  let fixed := decide (kernel_size % 2 = 1 ∧ kernel_size ≤ 7) && FV.le sigma (.fin false 0)
  let kernel ← create_simple_mat 1 kernel_size ktype 1
  let d ← derefS kernel
  let sum ← forA 0 kernel_size (FV.fin false 0) fun i sum => gaussFill exp fixed kernel_size sigma ktype d.data i sum
  let sum' := f64.div (.fin false 1) sum
  forI 0 kernel_size fun i => gaussScale ktype d.data sum' i
  pure kernel

/-- `if (sum[k]<0) sum[k]=0; else if (sum[k]>255) sum[k]=255;`: filter.c:390-393, 436-439 -/
def clampF (v : FV) : FV :=
  if FV.lt v (.fin false 0) then .fin false 0
  else if FV.lt (.fin false 255) v then .fin false 255 else v

/-- one entry of an array of accumulators replaced -/
def setAt (f : Int → FV) (c : Int) (v : FV) : Int → FV := fun c' => if c' = c then v else f c'

/-- filter.c:368-386: tap `k` of the horizontal sum at (`i`, `j`).  The statements for `cn == 1` and the three unrolled ones
for `cn == 3` are written as a loop over the channels. -/
def gaussRowTap (s : SimpleMat) (kx : Nat) (ksize_width border_type i j k : Int) (sum : Int → FV) : M (Int → FV) := do
  let p ← ev (CI.lit j + CI.lit k - CI.lit (ksize_width / 2))
  let index ← tapIndex p s.cols border_type
  forA 0 s.channels sum fun c sum => do
    let w ← loadN 4 kx k
    let q ← ev (CI.lit i * s.cols * s.channels + CI.lit index * s.channels + c)
    let v ← load s.data q
    pure (setAt sum c (f32.add (sum c) (f32.mul (f32.decode w) (f32.ofInt (v.toNat : Int)))))

/-- filter.c:364-402 -/
def gaussRow (s t : SimpleMat) (kx : Nat) (ksize_width border_type i j : Int) : M Unit := do
  let sum ← forA 0 ksize_width (fun _ => FV.fin false 0) fun k sum => gaussRowTap s kx ksize_width border_type i j k sum
  forI 0 s.channels fun c => do
    let q ← ev (CI.lit i * t.cols * s.channels + CI.lit j * s.channels + c)
    storeN 4 t.data q (f32.encode (clampF (sum c)))

/-- filter.c:415-431: tap `k` of the vertical sum at column `i`, row `j` -/
def gaussColTap (s t : SimpleMat) (ky : Nat) (ksize_height border_type i j k : Int) (sum : Int → FV) : M (Int → FV) := do
  let p ← ev (CI.lit j + CI.lit k - CI.lit (ksize_height / 2))
  let index ← tapIndex p s.rows border_type
  forA 0 s.channels sum fun c sum => do
    let w ← loadN 4 ky k
    let q ← ev (CI.lit index * t.cols * s.channels + CI.lit i * s.channels + c)
    let v ← loadN 4 t.data q
    pure (setAt sum c (f32.add (sum c) (f32.mul (f32.decode w) (f32.decode v))))

/-- filter.c:410-451 -/
def gaussCol (s t d : SimpleMat) (ky : Nat) (ksize_height border_type i j : Int) : M Unit := do
  let sum ← forA 0 ksize_height (fun _ => FV.fin false 0) fun k sum => gaussColTap s t ky ksize_height border_type i j k sum
  forI 0 s.channels fun c => do
    let q ← ev (CI.lit j * d.cols * s.channels + CI.lit i * s.channels + c)
    store d.data q (saturate_cast_float2uchar (clampF (sum c)))

/-- `hypercv_gaussian_blur_with_kernel`: filter.c:322-454.  With a NULL destination the result is lost to the caller. -/
def hypercv_gaussian_blur_with_kernel (src dst kernel_x kernel_y : Option Nat) (border_type : Int) : M Unit := do
  let kx ← derefS kernel_x
  let ky ← derefS kernel_y
  let sp ← nonNull src
  cassert (kx.cols ≥ 0)
  cassert (ky.cols ≥ 0)
  cassert (border_type = 2 ∨ border_type = 4 ∨ border_type = 1 ∨ border_type = 3 ∨ border_type = 0)
  let s ← getS sp
  cassert (s.channels = 1 ∨ s.channels = 3)
  let dst' ← (match dst with
    | none => create_simple_mat s.rows s.cols s.data_type s.channels
    | some q => pure (some q))
  let d ← derefS dst'
  let temp ← create_simple_mat s.rows s.cols 4 s.channels
  let t ← derefS temp
  forI 0 s.rows fun i => forI 0 s.cols fun j => gaussRow s t kx.data kx.cols border_type i j
  forI 0 s.cols fun i => forI 0 s.rows fun j => gaussCol s t d ky.data ky.cols border_type i j

/-- `hypercv_gaussian_blur`: filter.c:282-313.  Lines 290-296 have no effect (comparisons used as statements), and so have
lines 301-304 (the sizes have been asserted to be positive).  Line 306: `max` is the macro of line 8. -/
def hypercv_gaussian_blur (exp : FV → FV) (src dst : Option Nat) (ksize_width ksize_height : Int) (sigma1 sigma2 : FV)
    (border_type : Int) : M Unit := do
  let _ ← nonNull src
  cassert (ksize_width > 0 ∧ ksize_width % 2 = 1 ∧ ksize_height > 0 ∧ ksize_height % 2 = 1)
  cassert (border_type = 2 ∨ border_type = 4 ∨ border_type = 1 ∨ border_type = 3 ∨ border_type = 0)
  let sigma2 := if FV.le sigma2 (.fin false 0) then sigma1 else sigma2
  let sigma1 := if FV.lt (.fin false 0) sigma1 then sigma1 else .fin false 0
  let sigma2 := if FV.lt (.fin false 0) sigma2 then sigma2 else .fin false 0
  let kx ← gaussian_kernel exp ksize_width sigma1 4
  let ky ← gaussian_kernel exp ksize_height sigma2 4
  hypercv_gaussian_blur_with_kernel src dst kx ky border_type

end HyperCV
