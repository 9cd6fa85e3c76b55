/- Model of /repo/modules/process/src/c_src/threshold.c. -/
import Verif.Model.Otsu

namespace HyperCV

/-- The checks and the loop shared by the fixed threshold routines (e.g. threshold.c:74-93): the routines
differ only in the assignment `f` from source byte (as `int`) to stored `int`. -/
def thresholdLoop (f : Int → Int) (src_mat dst_mat : Option Nat) : M Unit := do
  let sp ← nonNull src_mat
  let dp ← nonNull dst_mat
  let s ← getS sp
  let d ← getS dp
  cassert (s.rows = d.rows ∧ s.cols = d.cols ∧ s.channels = d.channels)
  cassert (s.data_type = 1)
  cassert (s.channels = 1)
  let n ← ev (s.rows * s.cols * s.channels)
  forI 0 n fun i => do
    let v ← load s.data i
    store d.data i (uchar (f (ival v)))

/-- `hypercv_threshold_binary`: threshold.c:72-93 -/
def hypercv_threshold_binary (src dst : Option Nat) (thresh max_value : Int) : M Unit :=
  thresholdLoop (fun v => if v > thresh then max_value else 0) src dst

/-- `hypercv_threshold_binary_inv`: threshold.c:95-116 -/
def hypercv_threshold_binary_inv (src dst : Option Nat) (thresh max_value : Int) : M Unit :=
  thresholdLoop (fun v => if v ≤ thresh then max_value else 0) src dst

/-- `hypercv_threshold_trunc`: threshold.c:118-139 -/
def hypercv_threshold_trunc (src dst : Option Nat) (thresh _max_value : Int) : M Unit :=
  thresholdLoop (fun v => if v > thresh then thresh else v) src dst

/-- `hypercv_threshold_tozero`: threshold.c:141-162 -/
def hypercv_threshold_tozero (src dst : Option Nat) (thresh _max_value : Int) : M Unit :=
  thresholdLoop (fun v => if v > thresh then v else 0) src dst

/-- `hypercv_threshold_tozero_inv`: threshold.c:164-185 -/
def hypercv_threshold_tozero_inv (src dst : Option Nat) (thresh _max_value : Int) : M Unit :=
  thresholdLoop (fun v => if v ≤ thresh then v else 0) src dst

/-- `hypercv_threshold_otsu`: threshold.c:189-214 -/
def hypercv_threshold_otsu (src_mat dst_mat : Option Nat) : M Unit := do
  let sp ← nonNull src_mat
  let dp ← nonNull dst_mat
  let s ← getS sp
  let d ← getS dp
  cassert (s.rows = d.rows ∧ s.cols = d.cols ∧ s.channels = d.channels)
  cassert (s.data_type = 1)
  cassert (s.channels = 1)
  let thresh ← otsuThreshold src_mat
  let n ← ev (s.rows * s.cols * s.channels)
  forI 0 n fun i => do
    let v ← load s.data i
    store d.data i (if ival v < thresh then 0 else 255)

/-- `hypercv_threshold`: threshold.c:218-258.  The modes MASK (7) and TRIANGLE (16) have empty bodies (lines 187, 216). -/
def hypercv_threshold (src dst : Option Nat) (thresh max_value type : Int) : M Unit := do
  let _ ← nonNull src
  let _ ← nonNull dst
  cassert (type = 0 ∨ type = 1 ∨ type = 2 ∨ type = 3 ∨ type = 4 ∨ type = 7 ∨ type = 8 ∨ type = 16)
  if type = 0 then hypercv_threshold_binary src dst thresh max_value
  else if type = 1 then hypercv_threshold_binary_inv src dst thresh max_value
  else if type = 2 then hypercv_threshold_trunc src dst thresh max_value
  else if type = 3 then hypercv_threshold_tozero src dst thresh max_value
  else if type = 4 then hypercv_threshold_tozero_inv src dst thresh max_value
  else if type = 7 then pure ()
  else if type = 8 then hypercv_threshold_otsu src dst
  else pure ()

end HyperCV
