/- Model of /repo/modules/process/src/c_src/imageprocess.c:4-375: interleave conversions. -/
import Verif.Model.HyperMat

namespace HyperCV

/-- copy the wavelengths into the freshly created cube (the tail of each conversion routine,
e.g. imageprocess.c:119-123) -/
def copyWave (src dst : HyperMat) (bands : Int) : M Unit :=
  match src.wavelength with
  | none => pure ()
  | some sw =>
    match dst.wavelength with
    | none => fail (.ub .nullDeref)
    | some dw => memcpy dw 0 sw 0 (bands * 4)

/-- the innermost byte loop of every conversion routine, e.g. imageprocess.c:113-114; the index
variables are `unsigned int` -/
def copyElem (dst : Nat) (dst_index : Int) (src : Nat) (src_index : Int) (elem_size : Int) : M Unit :=
  forI 0 elem_size fun t => do
    let v ← load src (u32 (u32 src_index + t))
    store dst (u32 (u32 dst_index + t)) v

/-- `bil2bsq`: imageprocess.c:83-126 -/
def bil2bsq (bil_mat : Option Nat) : M (Option Nat) := do
  let p ← nonNull bil_mat
  let mat ← getH p
  if cmpstr mat.tagMem "bsq".toList = 1 then
    hyper_mat_copy bil_mat
  else do
  cassert (cmpstr mat.tagMem "bil".toList = 1)
  let samples := mat.samples
  let lines := mat.lines
  let bands := mat.bands
  let elem_size := get_elemsize mat.data_type
  let bsq_mat ← create_hyper_mat samples lines bands mat.data_type "bsq".toList
  let res ← derefH bsq_mat
  forI 0 bands fun k =>
    forI 0 lines fun i =>
      forI 0 samples fun j => do
        let bil_index ← ev ((i * samples * bands + k * samples + j) * elem_size)
        let bsq_index ← ev ((k * samples * lines + i * samples + j) * elem_size)
        copyElem res.data bsq_index mat.data bil_index elem_size
  copyWave mat res bands
  pure bsq_mat

/-- `bil2bip`: imageprocess.c:133-176 -/
def bil2bip (bil_mat : Option Nat) : M (Option Nat) := do
  let p ← nonNull bil_mat
  let mat ← getH p
  if cmpstr mat.tagMem "bip".toList = 1 then
    hyper_mat_copy bil_mat
  else do
  cassert (cmpstr mat.tagMem "bil".toList = 1)
  let samples := mat.samples
  let lines := mat.lines
  let bands := mat.bands
  let elem_size := get_elemsize mat.data_type
  let bip_mat ← create_hyper_mat samples lines bands mat.data_type "bip".toList
  let res ← derefH bip_mat
  forI 0 lines fun i =>
    forI 0 samples fun j =>
      forI 0 bands fun k => do
        let bil_index ← ev ((i * samples * bands + k * samples + j) * elem_size)
        let bip_index ← ev ((i * samples * bands + j * bands + k) * elem_size)
        copyElem res.data bip_index mat.data bil_index elem_size
  copyWave mat res bands
  pure bip_mat

/-- `bsq2bil`: imageprocess.c:183-226 -/
def bsq2bil (bsq_mat : Option Nat) : M (Option Nat) := do
  let p ← nonNull bsq_mat
  let mat ← getH p
  if cmpstr mat.tagMem "bil".toList = 1 then
    hyper_mat_copy bsq_mat
  else do
  cassert (cmpstr mat.tagMem "bsq".toList = 1)
  let samples := mat.samples
  let lines := mat.lines
  let bands := mat.bands
  let elem_size := get_elemsize mat.data_type
  let bil_mat ← create_hyper_mat samples lines bands mat.data_type "bil".toList
  let res ← derefH bil_mat
  forI 0 lines fun i =>
    forI 0 bands fun k =>
      forI 0 samples fun j => do
        let bsq_index ← ev ((k * samples * lines + i * samples + j) * elem_size)
        let bil_index ← ev ((i * samples * bands + k * samples + j) * elem_size)
        copyElem res.data bil_index mat.data bsq_index elem_size
  copyWave mat res bands
  pure bil_mat

/-- `bsq2bip`: imageprocess.c:233-277 -/
def bsq2bip (bsq_mat : Option Nat) : M (Option Nat) := do
  let p ← nonNull bsq_mat
  let mat ← getH p
  if cmpstr mat.tagMem "bip".toList = 1 then
    hyper_mat_copy bsq_mat
  else do
  cassert (cmpstr mat.tagMem "bsq".toList = 1)
  let samples := mat.samples
  let lines := mat.lines
  let bands := mat.bands
  let elem_size := get_elemsize mat.data_type
  let bip_mat ← create_hyper_mat samples lines bands mat.data_type "bip".toList
  let res ← derefH bip_mat
  forI 0 lines fun i =>
    forI 0 samples fun j =>
      forI 0 bands fun k => do
        let bsq_index ← ev ((k * samples * lines + i * samples + j) * elem_size)
        let bip_index ← ev ((i * samples * bands + j * bands + k) * elem_size)
        copyElem res.data bip_index mat.data bsq_index elem_size
  copyWave mat res bands
  pure bip_mat

/-- `bip2bsq`: imageprocess.c:284-327 -/
def bip2bsq (bip_mat : Option Nat) : M (Option Nat) := do
  let p ← nonNull bip_mat
  let mat ← getH p
  if cmpstr mat.tagMem "bsq".toList = 1 then
    hyper_mat_copy bip_mat
  else do
  cassert (cmpstr mat.tagMem "bip".toList = 1)
  let samples := mat.samples
  let lines := mat.lines
  let bands := mat.bands
  let elem_size := get_elemsize mat.data_type
  let bsq_mat ← create_hyper_mat samples lines bands mat.data_type "bsq".toList
  let res ← derefH bsq_mat
  forI 0 lines fun i =>
    forI 0 samples fun j =>
      forI 0 bands fun k => do
        let bsq_index ← ev ((k * samples * lines + i * samples + j) * elem_size)
        let bip_index ← ev ((i * samples * bands + j * bands + k) * elem_size)
        copyElem res.data bsq_index mat.data bip_index elem_size
  copyWave mat res bands
  pure bsq_mat

/-- `bip2bil`: imageprocess.c:334-375 -/
def bip2bil (bip_mat : Option Nat) : M (Option Nat) := do
  let p ← nonNull bip_mat
  let mat ← getH p
  if cmpstr mat.tagMem "bil".toList = 1 then
    hyper_mat_copy bip_mat
  else do
  cassert (cmpstr mat.tagMem "bip".toList = 1)
  let samples := mat.samples
  let lines := mat.lines
  let bands := mat.bands
  let elem_size := get_elemsize mat.data_type
  let bil_mat ← create_hyper_mat samples lines bands mat.data_type "bil".toList
  let res ← derefH bil_mat
  forI 0 lines fun i =>
    forI 0 samples fun j =>
      forI 0 bands fun k => do
        let bil_index ← ev ((i * samples * bands + k * samples + j) * elem_size)
        let bip_index ← ev ((i * samples * bands + j * bands + k) * elem_size)
        copyElem res.data bil_index mat.data bip_index elem_size
  copyWave mat res bands
  pure bil_mat

/-- `convert2bsq`: imageprocess.c:4-26 -/
def convert2bsq (mat : Option Nat) : M Unit := do
  let p ← nonNull mat
  let h ← getH p
  if cmpstr h.tagMem "bsq".toList = 1 then
    pure ()
  else if cmpstr h.tagMem "bil".toList = 1 then do
    let res ← bil2bsq mat
    hyper_mat_copy_to res mat
    delete_hyper_mat res
  else if cmpstr h.tagMem "bip".toList = 1 then do
    let res ← bip2bsq mat
    hyper_mat_copy_to res mat
    delete_hyper_mat res
  else pure ()

/-- `convert2bil`: imageprocess.c:28-51 -/
def convert2bil (mat : Option Nat) : M Unit := do
  let p ← nonNull mat
  let h ← getH p
  if cmpstr h.tagMem "bil".toList = 1 then
    pure ()
  else if cmpstr h.tagMem "bsq".toList = 1 then do
    let res ← bsq2bil mat
    hyper_mat_copy_to res mat
    delete_hyper_mat res
  else if cmpstr h.tagMem "bip".toList = 1 then do
    let res ← bip2bil mat
    hyper_mat_copy_to res mat
    delete_hyper_mat res
  else pure ()

/-- `convert2bip`: imageprocess.c:53-76 -/
def convert2bip (mat : Option Nat) : M Unit := do
  let p ← nonNull mat
  let h ← getH p
  if cmpstr h.tagMem "bip".toList = 1 then
    pure ()
  else if cmpstr h.tagMem "bil".toList = 1 then do
    let res ← bil2bip mat
    hyper_mat_copy_to res mat
    delete_hyper_mat res
  else if cmpstr h.tagMem "bsq".toList = 1 then do
    let res ← bsq2bip mat
    hyper_mat_copy_to res mat
    delete_hyper_mat res
  else pure ()

end HyperCV
