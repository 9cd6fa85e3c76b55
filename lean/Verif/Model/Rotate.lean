/- Model of the rotation of cubes in /repo/modules/process/src/c_src/GeometricTransformation.c. -/
import Verif.Model.Interleave
import Verif.Model.Color

namespace HyperCV

/-- `fabs` of the C library, used at GeometricTransformation.c:175-178: the sign is dropped, exactly -/
def FV.abs : FV → FV
  | .nan => .nan
  | .inf _ => .inf false
  | .fin _ q => .fin false |q|

/-- the constant `PI` of type.h:226 as a double -/
def piConst : FV := f64.round false (31415926 / 10000000)

/-- `theta = angle * PI/180`: GeometricTransformation.c:159 -/
def rotAngle (angle : FV) : FV := f64.div (f64.mul angle piConst) (f64.ofInt 180)

/-- `a*c + b*s` computed in double and stored in a float: the eight corner coordinates of GeometricTransformation.c:166-173, all of this form up to
the signs of the two products -/
def cornerSum (a b : Int) (c s : FV) : FV := f32.conv (f64.add (f64.mul (f64.ofInt a) c) (f64.mul (f64.ofInt b) s))

/-- `a*c - b*s` stored in a float, see `cornerSum` -/
def cornerDiff (a b : Int) (c s : FV) : FV := f32.conv (f64.sub (f64.mul (f64.ofInt a) c) (f64.mul (f64.ofInt b) s))

/-- `float e = fabs(p - q)`: GeometricTransformation.c:175-178 (a float subtraction, `fabs` in double) -/
def extent (p q : FV) : FV := f32.conv (FV.abs (f64.conv (f32.sub p q)))

/-- `int v = (e1 > e2 ? e1 : e2)`: GeometricTransformation.c:180-181 -/
def wider (e1 e2 : FV) : M Int := truncInt (if FV.lt e2 e1 then e1 else e2)

/-- one pixel of the loop of GeometricTransformation.c:196-204: `c`, `s` the cosine and sine, `di`, `dj` the offsets -/
def rotPixel (h d : HyperMat) (width di dj : Int) (c s : FV) (i j : Int) : M Unit := do
  let x ← truncInt (f64.add (f64.add (f64.mul (f64.ofInt i) c) (f64.mul (f64.ofInt j) s)) (f64.ofInt di))
  let y ← truncInt (f64.add (f64.sub (f64.mul (f64.ofInt j) c) (f64.mul (f64.ofInt i) s)) (f64.ofInt dj))
  let dstOft ← ev ((CI.lit x * CI.lit width + CI.lit y) * CI.lit h.bands * CI.lit (get_elemsize h.data_type))
  let srcOft ← ev ((CI.lit i * CI.lit h.samples + CI.lit j) * CI.lit h.bands * CI.lit (get_elemsize h.data_type))
  let n ← ev (CI.lit h.bands * CI.lit (get_elemsize h.data_type))
  memcpy d.data dstOft h.data srcOft n

/-- the conversion to band interleaved by pixel, in place: GeometricTransformation.c:157-158 -/
def rotToBip (mat : Option Nat) (h : HyperMat) : M Unit :=
  if cmpstr h.tagMem "bip".toList = 1 then pure () else convert2bip mat

/-- `hyper_mat_rotate`: GeometricTransformation.c:154-208.  The functions `cos` and `sin` of the C library are the parameters `cos` and `sin`. -/
def hyper_mat_rotate (cos sin : FV → FV) (mat : Option Nat) (angle : FV) : M (Option Nat) := do
  let h0 ← derefH mat
  rotToBip mat h0
  let hd ← derefH mat
  let theta := rotAngle angle
  let c := cos theta
  let s := sin theta
  let h ← ev ((CI.lit hd.lines + 1) / 2)
  let w ← ev ((CI.lit hd.samples + 1) / 2)
  let x0 := cornerDiff (-w) h c s
  let y0 := cornerSum (-h) w c s
  let x1 := cornerDiff w h c s
  let y1 := cornerDiff (-h) w c s
  let x2 := cornerSum w h c s
  let y2 := cornerDiff h w c s
  let x3 := cornerSum (-w) h c s
  let y3 := cornerSum h w c s
  let width ← wider (extent x2 x0) (extent x3 x1)
  let height ← wider (extent y2 y0) (extent y3 y1)
  let dst ← create_hyper_mat_with_data width height hd.bands hd.data_type hd.tagMem none hd.wavelength
  let di ← truncInt (f32.add x0 (f32.ofInt (width / 2)))
  let dj ← truncInt (f32.add y0 (f32.ofInt (height / 2)))
  let d ← derefH dst
  forI 0 hd.lines fun i =>
    forI 0 hd.samples fun j => rotPixel hd d width di dj c s i j
  pure dst

end HyperCV
