/- Model of /repo/modules/algorithm/src/dft.c:27-251, the Fourier transforms.  (`get_optimal_DFT_size` is in Model/DftSize.)
`float` expressions are evaluated in `float` and `double` expressions in `double` (x86-64). -/
import Verif.Model.Statistics
import Verif.Model.Decomp
import Verif.Model.Round

namespace HyperCV

/-- the functions `cos` and `sin` of the C library, from `double` to `double` -/
structure Trig where
  cos : FV → FV
  sin : FV → FV

/-- `PI`: /repo/modules/core/include/c_include/type.h:226, a constant of type `double` -/
def piD : FV := f64.round false (31415926 / 10000000)

/-- `(float)i*x/(float)rows + (float)j*y/(float)cols`: dft.c:67, 104, 144, 187, 220 -/
def dftTemp (rows cols i j x y : Int) : FV :=
  f32.add (f32.div (f32.mul (f32.ofInt i) (f32.ofInt x)) (f32.ofInt rows)) (f32.div (f32.mul (f32.ofInt j) (f32.ofInt y)) (f32.ofInt cols))

/-- `-2*PI*temp` and `2*PI*temp`: dft.c:68, 69, 105, 106, 146, 147, 188, 221.  `s` is -2 or 2. -/
def dftAngle (s : Int) (temp : FV) : FV := f64.mul (f64.mul (f64.ofInt s) piD) (f64.conv temp)

/-- `acc += t` for a `float` and a `double` -/
def addD (acc t : FV) : FV := f32.conv (f64.add (f64.conv acc) t)

/-- the sums for one frequency: dft.c:60-71 and 97-108.  `w` is the number of bytes of a pixel of the source.  Simplification: the
pixel is read once instead of twice. -/
def dftSums (L : Trig) (w src : Nat) (rows cols i j : Int) : M (FV × FV) :=
  forA 0 rows (FV.fin false 0, FV.fin false 0) fun x a => forA 0 cols a fun y a => do
    let temp := dftTemp rows cols i j x y
    let p ← ev (CI.lit x * CI.lit cols + CI.lit y)
    let b ← loadN w src p
    pure (addD a.1 (f64.mul (f64.ofInt b) (L.cos (dftAngle (-2) temp))), addD a.2 (f64.mul (f64.ofInt b) (L.sin (dftAngle (-2) temp))))

/-- the loop over all frequencies: dft.c:56-75 and 93-112 -/
def dftLoop (L : Trig) (w src re im : Nat) (rows cols : Int) : M Unit :=
  forI 0 rows fun i => forI 0 cols fun j => do
    let a ← dftSums L w src rows cols i j
    let p ← ev (CI.lit i * CI.lit cols + CI.lit j)
    stF re p a.1
    stF im p a.2

/-- the checks of the three functions: dft.c:29-32, 43-46 and 80-83 -/
def dftChecks (src re_mat im_mat : Option Nat) : M (SimpleMat × SimpleMat × SimpleMat) := do
  cassert (src ≠ none ∧ re_mat ≠ none ∧ im_mat ≠ none)
  let s ← derefS src
  let r ← derefS re_mat
  let i ← derefS im_mat
  cassert (s.rows = r.rows ∧ s.rows = i.rows ∧ s.cols = r.cols ∧ s.cols = i.cols)
  cassert (r.data_type = 4 ∧ i.data_type = 4)
  cassert (s.channels = r.channels ∧ s.channels = i.channels ∧ s.channels = 1)
  pure (s, r, i)

/-- `hypercv_dft_uchar`: dft.c:41-76 -/
def hypercv_dft_uchar (L : Trig) (src re_mat im_mat : Option Nat) : M Unit := do
  let (s, r, i) ← dftChecks src re_mat im_mat
  dftLoop L 1 s.data r.data i.data s.rows s.cols

/-- `hypercv_dft_ushort`: dft.c:78-113 -/
def hypercv_dft_ushort (L : Trig) (src re_mat im_mat : Option Nat) : M Unit := do
  let (s, r, i) ← dftChecks src re_mat im_mat
  dftLoop L 2 s.data r.data i.data s.rows s.cols

/-- `hypercv_dft`: dft.c:27-39 -/
def hypercv_dft (L : Trig) (src re_mat im_mat : Option Nat) : M Unit := do
  let (s, _, _) ← dftChecks src re_mat im_mat
  if s.data_type = 1 then hypercv_dft_uchar L src re_mat im_mat
  else if s.data_type = 12 then hypercv_dft_ushort L src re_mat im_mat
  else pure ()

/-- `(x+y)%2 == 0?1:-1`: dft.c:145 -/
def dftMove (x y : Int) : Int := if (x + y).tmod 2 = 0 then 1 else -1

/-- the sums for one frequency of the centred spectrum: dft.c:137-149 -/
def specSums (L : Trig) (src : Nat) (rows cols i j : Int) : M (FV × FV) :=
  forA 0 rows (FV.fin false 0, FV.fin false 0) fun x a => forA 0 cols a fun y a => do
    let temp := dftTemp rows cols i j x y
    let p ← ev (CI.lit x * CI.lit cols + CI.lit y)
    let b ← loadN 1 src p
    pure (addD a.1 (f64.mul (f64.mul (f64.ofInt b) (L.cos (dftAngle (-2) temp))) (f64.ofInt (dftMove x y))),
      addD a.2 (f64.mul (f64.mul (f64.ofInt b) (L.sin (dftAngle (-2) temp))) (f64.ofInt (dftMove x y))))

/-- `sqrt(re*re+im*im)/sqrt(rows*cols)`, converted to `float` for the call: dft.c:151.  `n` is `rows*cols`. -/
def specValue (re im : FV) (n : Int) : FV :=
  f32.conv (f64.div (f64.sqrt (f64.conv (f32.add (f32.mul re re) (f32.mul im im)))) (f64.sqrt (f64.ofInt n)))

/-- `hypercv_dft_frespectrum`: dft.c:116-155.  Neither data types nor channels are checked. -/
def hypercv_dft_frespectrum (L : Trig) (src dst : Option Nat) : M Unit := do
  cassert (src ≠ none)
  cassert (dst ≠ none)
  let s ← derefS src
  let d ← derefS dst
  cassert (s.rows = d.rows ∧ s.cols = d.cols)
  forI 0 s.rows fun i => forI 0 s.cols fun j => do
    let a ← specSums L s.data s.rows s.cols i j
    let n ← ev (CI.lit s.rows * CI.lit s.cols)
    let p ← ev (CI.lit i * CI.lit s.cols + CI.lit j)
    storeN 1 d.data p (saturate_cast_float2uchar (specValue a.1 a.2 n)).toNat

/-- the sum for one pixel: dft.c:182-190 and 214-223 -/
def idftSum (L : Trig) (re im : Nat) (rows cols i j : Int) : M FV :=
  forA 0 rows (FV.fin false 0) fun x a => forA 0 cols a fun y a => do
    let temp := dftTemp rows cols i j x y
    let p ← ev (CI.lit x * CI.lit cols + CI.lit y)
    let r ← ldF re p
    let v ← ldF im p
    pure (addD a (f64.sub (f64.mul (f64.conv r) (L.cos (dftAngle 2 temp))) (f64.mul (f64.conv v) (L.sin (dftAngle 2 temp)))))

/-- `saturate_cast_float2uchar(real / sqrt(rows*cols))`: dft.c:192 and 225.  `n` is `rows*cols`. -/
def idftValue (real : FV) (n : Int) : UInt8 :=
  saturate_cast_float2uchar (f32.conv (f64.div (f64.conv real) (f64.sqrt (f64.ofInt n))))

/-- the loop over all pixels: dft.c:178-194 and 210-227.  `w` is the number of bytes of a pixel of the destination; both functions
store the `unsigned char`. -/
def idftLoop (L : Trig) (w re im dst : Nat) (rows cols : Int) : M Unit :=
  forI 0 rows fun i => forI 0 cols fun j => do
    let a ← idftSum L re im rows cols i j
    let n ← ev (CI.lit rows * CI.lit cols)
    let p ← ev (CI.lit i * CI.lit cols + CI.lit j)
    storeN w dst p (idftValue a n).toNat

/-- the checks of the three functions: dft.c:167-169, 199-201 and 232-234 -/
def idftChecks (dt : Int) (re_mat im_mat dst_mat : Option Nat) : M (SimpleMat × SimpleMat × SimpleMat) := do
  let r ← derefS re_mat
  let i ← derefS im_mat
  let d ← derefS dst_mat
  cassert (r.rows = i.rows ∧ r.rows = d.rows ∧ r.cols = i.cols ∧ r.cols = d.cols)
  cassert (r.data_type = i.data_type ∧ r.data_type = 4)
  cassert (d.data_type = dt)
  pure (r, i, d)

/-- `hypercv_idft_uchar`: dft.c:165-195 -/
def hypercv_idft_uchar (L : Trig) (re_mat im_mat dst_mat : Option Nat) : M Unit := do
  let (r, i, d) ← idftChecks 1 re_mat im_mat dst_mat
  idftLoop L 1 r.data i.data d.data r.rows r.cols

/-- `hypercv_idft_ushort`: dft.c:197-228 -/
def hypercv_idft_ushort (L : Trig) (re_mat im_mat dst_mat : Option Nat) : M Unit := do
  let (r, i, d) ← idftChecks 12 re_mat im_mat dst_mat
  idftLoop L 2 r.data i.data d.data r.rows r.cols

/-- `hypercv_idft`: dft.c:157-163 -/
def hypercv_idft (L : Trig) (re_mat im_mat dst_mat : Option Nat) : M Unit := do
  let d ← derefS dst_mat
  if d.data_type = 1 then hypercv_idft_uchar L re_mat im_mat dst_mat
  else if d.data_type = 12 then hypercv_idft_ushort L re_mat im_mat dst_mat
  else pure ()

/-- `sqrt(pow(re,2)+pow(im,2))`, converted to `float`: dft.c:247.  Assumption: `pow(x, 2)` is the correctly rounded square of `x`. -/
def magnitudeF (re im : FV) : FV :=
  f32.conv (f64.sqrt (f64.add (f64.mul (f64.conv re) (f64.conv re)) (f64.mul (f64.conv im) (f64.conv im))))

/-- `hypercv_magnitude`: dft.c:230-251.  The imaginary part is read at `i*cols*j`. -/
def hypercv_magnitude (re_mat im_mat dst_mat : Option Nat) : M Unit := do
  let (r, i', d) ← idftChecks 4 re_mat im_mat dst_mat
  forI 0 r.rows fun i => forI 0 r.cols fun j => do
    let p ← ev (CI.lit i * CI.lit r.cols + CI.lit j)
    let x ← ldF r.data p
    let q ← ev (CI.lit i * CI.lit r.cols * CI.lit j)
    let y ← ldF i'.data q
    stF d.data p (magnitudeF x y)

end HyperCV
