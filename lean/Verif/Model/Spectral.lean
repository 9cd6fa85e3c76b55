/- Model of /repo/modules/process/src/c_src/spectralprocess.c.

A `float*` argument is the handle of a block and the number of elements before the one it points to. -/
import Verif.Model.Statistics
import Verif.Model.Interleave
import Verif.Base.Sqrt

namespace HyperCV

/-- one element of an array of `float`.  Simplification: pointer arithmetic is not limited to 32 bits. -/
def loadF (x : Nat) (i : Int) : M FV := do
  let b ← loadN 4 x i
  pure (f32.decode b)

/-- `sp_average`: spectralprocess.c:4-10 -/
def sp_average (x : Nat) (off : Int) (length : Int) : M FV := do
  let sum ← forA 0 length (FV.fin false 0) fun i sum => do
    let v ← loadF x (off + i)
    pure (f32.add sum v)
  pure (f32.div sum (f32.ofInt length))

/-- `sp_variance`: spectralprocess.c:12-19.  Assumption: `pow(x, 2)` is the correctly rounded square of `x`. -/
def sp_variance (x : Nat) (off : Int) (length : Int) : M FV := do
  let average ← sp_average x off length
  let sum ← forA 0 length (FV.fin false 0) fun i sum => do
    let v ← loadF x (off + i)
    pure (addSquare sum (f64.conv (f32.sub v average)))
  pure (f32.div sum (f32.ofInt length))

/-- `sp_standard_deviation`: spectralprocess.c:21-25 -/
def sp_standard_deviation (x : Nat) (off : Int) (length : Int) : M FV := do
  let sd ← sp_variance x off length
  pure (f32.conv (f64.sqrt (f64.conv sd)))

/-- `abs` of a `float`: the argument is converted to `int`, spectralprocess.c:96 -/
def absInt (v : FV) : M Int :=
  match v.trunc with
  | none => fail (.ub .fpConv)
  | some n => if n = -2147483648 then fail (.ub .overflow) else pure |n|

/-- the three sums of `spectral_angle_mapper` -/
structure SamSums where
  XY : FV
  X : FV
  Y : FV

/-- the sums of `spectral_angle_mapper`: spectralprocess.c:90-99 -/
def samLoop (x : Nat) (xoff : Int) (y : Nat) (yoff : Int) (length : Int) : M SamSums :=
  forA 0 length ⟨.fin false 0, .fin false 0, .fin false 0⟩ fun i s => do
    let a ← loadF x (xoff + i)
    let b ← loadF y (yoff + i)
    let n ← absInt (f32.mul a b)
    pure ⟨f32.add s.XY (f32.ofInt n), f32.add s.X (f32.mul a a), f32.add s.Y (f32.mul b b)⟩

/-- `spectral_angle_mapper`: spectralprocess.c:86-104; `acos` is the library function -/
def spectral_angle_mapper (acos : FV → FV) (x : Option (Nat × Int)) (y : Option (Nat × Int)) (length : Int) : M FV :=
  match x, y with
  | some (x, xoff), some (y, yoff) => do
    let s ← samLoop x xoff y yoff length
    pure (f32.conv (acos (f64.div (f64.conv s.XY) (f64.sqrt (f64.conv (f32.mul s.X s.Y))))))
  | _, _ => fail .exit

/-- `euclidean_distance`: spectralprocess.c:140-150 -/
def euclidean_distance (x : Nat) (xoff : Int) (y : Nat) (yoff : Int) (length : Int) : M FV := do
  let temp ← forA 0 length (FV.fin false 0) fun i temp => do
    let a ← loadF x (xoff + i)
    let b ← loadF y (yoff + i)
    pure (f32.add temp (f32.mul (f32.sub a b) (f32.sub a b)))
  pure (f32.conv (f64.sqrt (f64.conv temp)))

/-- `spectrum_SAM_match`: spectralprocess.c:39-78; `spectrum` is the handle of an array of `float`.  The comparison
`res>=threshold` is between two `float`s. -/
def spectrum_SAM_match (acos : FV → FV) (bip_mat : Option Nat) (spectrum : Option Nat) (threshold : FV) : M (Option Nat) := do
  let bp ← nonNull bip_mat
  let b ← getH bp
  cassert (cmpstr b.tagMem ['b', 'i', 'p'] = 1)
  let sp ← nonNull spectrum
  let match_image ← create_simple_mat b.lines b.samples 1 1
  let temp ← malloc (4 * b.bands).toNat
  let d ← derefS match_image
  forI 0 b.lines fun i =>
    forI 0 b.samples fun j => do
      let bip ← ev (CI.lit i * CI.lit b.samples * CI.lit b.bands)
      let o ← ev (CI.lit j * CI.lit b.bands)
      forI 0 b.bands fun k => do
        let v ← loadN 4 b.data (bip + o + k)
        storeN 4 temp k v
      let res ← spectral_angle_mapper acos (some (temp, 0)) (some (sp, 0)) b.bands
      let q ← ev (CI.lit i * CI.lit b.samples)
      store d.data (q + j) (if FV.le threshold res then 1 else 0)
  free temp
  pure match_image

/-- what `fscanf(fp, "%f", &temp)` finds at the current position of a file -/
inductive Item where
  /-- a number; it is stored in `temp` -/
  | num (v : FV)
  /-- something else: nothing is read or stored, and the position stays -/
  | junk

/-- the loop of `read_spectrum_file`: spectralprocess.c:123-127; `fuel` bounds the number of steps -/
def spectrumLoop (spectrum : Nat) : (fuel : Nat) → (temp : FV) → (sp : Int) → List Item → M Unit
  | 0, _, _, _ => fail .diverge
  | _ + 1, _, _, [] => pure ()
  | fuel + 1, _, sp, .num v :: rest => do
    storeN 4 spectrum sp (f32.encode v)
    spectrumLoop spectrum fuel v (sp + 1) rest
  | fuel + 1, temp, sp, .junk :: rest => do
    storeN 4 spectrum sp (f32.encode temp)
    spectrumLoop spectrum fuel temp (sp + 1) (.junk :: rest)

/-- `read_spectrum_file`: spectralprocess.c:111-132.  `file` is what the successive calls of `fscanf` find, `none` if the file cannot
be opened.  A negative `length` makes the size enormous, so that `malloc` fails and the first store is undefined. -/
def read_spectrum_file (fuel : Nat) (file : Option (List Item)) (length : Int) : M Nat := do
  let items ← match file with
    | none => fail .exit
    | some l => pure l
  if length < 0 then fail (.ub .nullDeref) else do
  let spectrum ← malloc (length * 4).toNat
  spectrumLoop spectrum fuel (.fin false 0) 0 items
  pure spectrum

/-- `hyper_mat_mean`: spectralprocess.c:156-177 -/
def hyper_mat_mean (bip_mat dst_mat : Option Nat) : M Unit := do
  let bp ← nonNull bip_mat
  let b ← getH bp
  cassert (cmpstr b.tagMem ['b', 'i', 'p'] = 1)
  let d ← derefS dst_mat
  cassert (b.samples = d.cols ∧ b.lines = d.rows)
  cassert (d.data_type = 4)
  forI 0 b.lines fun i =>
    forI 0 b.samples fun j => do
      let t1 ← ev (CI.lit i * CI.lit b.samples * CI.lit b.bands)
      let t2 ← ev (CI.lit j * CI.lit b.bands)
      let v ← sp_average b.data (t1 + t2) b.bands
      let q ← ev (CI.lit i * CI.lit d.cols + CI.lit j)
      storeN 4 d.data q (f32.encode v)

/-- `hyper_mat_transport`: spectralprocess.c:184-202 -/
def hyper_mat_transport (dst_mat src_mat : Option Nat) : M Unit := do
  let sp ← nonNull src_mat
  let s ← getH sp
  cassert (cmpstr s.tagMem ['b', 's', 'q'] = 1)
  let d ← derefH dst_mat
  cassert (s.samples = d.lines ∧ s.lines = d.samples ∧ s.bands = d.bands)
  let elemsize := get_elemsize s.data_type
  forI 0 s.bands fun k =>
    forI 0 d.lines fun i =>
      forI 0 d.samples fun j =>
        forI 0 elemsize fun t => do
          let q ← ev (CI.lit k * CI.lit s.samples * CI.lit s.lines * CI.lit elemsize + CI.lit j * CI.lit s.samples * CI.lit elemsize
            + CI.lit i * CI.lit elemsize + CI.lit t)
          let p ← ev (CI.lit k * CI.lit d.samples * CI.lit d.lines * CI.lit elemsize + CI.lit i * CI.lit d.samples * CI.lit elemsize
            + CI.lit j * CI.lit elemsize + CI.lit t)
          let v ← load s.data q
          store d.data p v

end HyperCV
