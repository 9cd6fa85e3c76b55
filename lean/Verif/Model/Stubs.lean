/- Model of /repo/modules/process/src/c_src/hypercvresize.c and /repo/modules/algorithm/src/HoughLines.c. -/
import Verif.Model.SimpleMat

namespace HyperCV

/-- `simple_mat_resize`: hypercvresize.c:9-19.  The headers are read before the pointers are tested; nothing follows the tests. -/
def simple_mat_resize (src_mat dst_mat : Option Nat) (_flag : Int) : M Unit := do
  let s ← derefS src_mat
  let d ← derefS dst_mat
  cassert (decide (src_mat ≠ none ∧ dst_mat ≠ none))
  cassert (decide (s.data_type = d.data_type))

/-- `hypercv_hough_trans`: HoughLines.c:10-71.  Only the length of the accumulator is computed, everything else is a comment; `fRate` is a constant that is not
used. -/
def hypercv_hough_trans (_points : Option Nat) (_point_num RMax : Int) (_lineR _lineTheta : Option Nat) : M Unit := do
  let _ ← ev ((360 + 1) * (CI.lit RMax + 1))
  pure ()

end HyperCV
