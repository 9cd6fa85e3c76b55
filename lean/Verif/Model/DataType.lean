/- Model of /repo/modules/process/src/c_src/datatypechange.c:14-386 (element type conversions). -/
import Verif.Model.Round
import Verif.Model.Interleave
import Verif.Model.SimpleMat

namespace HyperCV

/-- the shape shared by all `hyper_mat_*2*` functions of datatypechange.c: check the type, create the result
with the same geometry, convert element by element (`ws`/`wd` are the element sizes of the source and result
pointers, `f` the conversion of one element's bit pattern), copy the wavelengths.
There is no NULL check: a NULL argument is dereferenced. -/
def convElems (mat : Option Nat) (srcT dstT : Int) (ws wd : Nat) (f : Nat → Nat) : M (Option Nat) := do
  let h ← derefH mat
  cassert (h.data_type = srcT)
  let dst ← create_hyper_mat h.samples h.lines h.bands dstT h.tagMem
  let r ← derefH dst
  let datasize ← ev (h.samples * h.lines * h.bands)
  forI 0 datasize fun i => do
    let x ← loadN ws h.data i
    storeN wd r.data i (f x)
  copyWave h r h.bands
  pure dst

/-- `hyper_mat_uchar2short`: datatypechange.c:14-36 -/
def hyper_mat_uchar2short (mat : Option Nat) : M (Option Nat) :=
  convElems mat 1 2 1 2 fun x => bitsOf 2 x

/-- `hyper_mat_uchar2int`: datatypechange.c:43-65 -/
def hyper_mat_uchar2int (mat : Option Nat) : M (Option Nat) :=
  convElems mat 1 3 1 4 fun x => bitsOf 4 x

/-- `hyper_mat_uchar2float`: datatypechange.c:72-94; `data[i] = udata[i]*1.0` is computed in `double` and
converted to `float` -/
def hyper_mat_uchar2float (mat : Option Nat) : M (Option Nat) :=
  convElems mat 1 4 1 4 fun x => f32.encode (f32.conv (f64.mul (f64.ofInt x) (.fin false 1)))

/-- `hyper_mat_uchar2ushort`: datatypechange.c:101-123 -/
def hyper_mat_uchar2ushort (mat : Option Nat) : M (Option Nat) :=
  convElems mat 1 12 1 2 fun x => bitsOf 2 x

/-- `hyper_mat_float2int`: datatypechange.c:131-152 -/
def hyper_mat_float2int (mat : Option Nat) : M (Option Nat) :=
  convElems mat 4 3 4 4 fun x => bitsOf 4 (hypercv_round (f32.decode x))

/-- one element of `hyper_mat_float2char`: datatypechange.c:174-181 -/
def narrow_char (tmp : Int) : Int :=
  if tmp > 127 then 128 else if tmp < -127 then -127 else tmp

/-- `hyper_mat_float2char`: datatypechange.c:159-189 (`char` is signed on the platform) -/
def hyper_mat_float2char (mat : Option Nat) : M (Option Nat) :=
  convElems mat 4 1 4 1 fun x => bitsOf 1 (narrow_char (hypercv_round (f32.decode x)))

/-- `hyper_mat_float2short`: datatypechange.c:196-217 (the conversion to `short` wraps) -/
def hyper_mat_float2short (mat : Option Nat) : M (Option Nat) :=
  convElems mat 4 2 4 2 fun x => bitsOf 2 (hypercv_round (f32.decode x))

/-- one element of `hyper_mat_float2ushort`: datatypechange.c:239-243 -/
def narrow_ushort (tmp : Int) : Int := if tmp < 0 then 0 else tmp

/-- `hyper_mat_float2ushort`: datatypechange.c:224-250 -/
def hyper_mat_float2ushort (mat : Option Nat) : M (Option Nat) :=
  convElems mat 4 12 4 2 fun x => bitsOf 2 (narrow_ushort (hypercv_round (f32.decode x)))

/-- one element of `hyper_mat_float2uchar`: datatypechange.c:272-279 -/
def narrow_uchar (tmp : Int) : Int :=
  if tmp > 255 then 255 else if tmp < 0 then 0 else tmp

/-- `hyper_mat_float2uchar`: datatypechange.c:257-287 -/
def hyper_mat_float2uchar (mat : Option Nat) : M (Option Nat) :=
  convElems mat 4 1 4 1 fun x => bitsOf 1 (narrow_uchar (hypercv_round (f32.decode x)))

/-- one element of `hyper_mat_float2uint`: datatypechange.c:309-316 (the comparison is done in `long`) -/
def narrow_uint (tmp : Int) : Int :=
  if tmp > 4294967295 then 4294967295 else if tmp < 0 then 0 else tmp

/-- `hyper_mat_float2uint`: datatypechange.c:294-324 -/
def hyper_mat_float2uint (mat : Option Nat) : M (Option Nat) :=
  convElems mat 4 13 4 4 fun x => bitsOf 4 (narrow_uint (hypercv_round (f32.decode x)))

/-- `hyper_mat_ushort2float`: datatypechange.c:332-356 -/
def hyper_mat_ushort2float (mat : Option Nat) : M (Option Nat) :=
  convElems mat 12 4 2 4 fun x => f32.encode (f32.conv (f64.mul (f64.ofInt x) (.fin false 1)))

/-- one element of `simple_mat_float2uchar`: datatypechange.c:382-383; the second line is always true for an
`unsigned char` -/
def narrow_sm_uchar (r : Int) : UInt8 := uchar (if r ≤ 255 then r else 255)

/-- `simple_mat_float2uchar`: datatypechange.c:363-386 -/
def simple_mat_float2uchar (src : Option Nat) : M (Option Nat) := do
  let p ← nonNull src
  let s ← getS p
  cassert (s.data_type = 4)
  let dst ← create_simple_mat s.rows s.cols 1 s.channels
  let d ← derefS dst
  let n ← ev (s.rows * s.cols * s.channels)
  forI 0 n fun i => do
    let x ← loadN 4 s.data i
    store d.data i (narrow_sm_uchar (hypercv_round (f32.decode x)))
  pure dst

end HyperCV
