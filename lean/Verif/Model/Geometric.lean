/- Model of /repo/modules/process/src/c_src/GeometricTransformation.c, part 1: flips. -/
import Verif.Model.SimpleMat

namespace HyperCV

/-- `simple_mat_flip_horizontal`: GeometricTransformation.c:9-25 -/
def simple_mat_flip_horizontal (src_mat dst_mat : Option Nat) : M Unit := do
  let sp ← nonNull src_mat
  let dp ← nonNull dst_mat
  let s ← getS sp
  let d ← getS dp
  let rows := s.rows
  let cols := s.cols
  let channels := s.channels
  cassert (rows = d.rows ∧ cols = d.cols ∧ channels = d.channels)
  forI 0 rows fun i =>
    forI 0 cols fun j =>
      forI 0 channels fun k => do
        let si ← ev (i * cols * channels + (CI.lit cols - CI.lit 1 - CI.lit j) * channels + k)
        let v ← load s.data si
        let di ← ev (i * cols * channels + j * channels + k)
        store d.data di v

/-- `simple_mat_flip_vertical`: GeometricTransformation.c:28-44 -/
def simple_mat_flip_vertical (src_mat dst_mat : Option Nat) : M Unit := do
  let sp ← nonNull src_mat
  let dp ← nonNull dst_mat
  let s ← getS sp
  let d ← getS dp
  let rows := s.rows
  let cols := s.cols
  let channels := s.channels
  cassert (rows = d.rows ∧ cols = d.cols ∧ channels = d.channels)
  forI 0 rows fun i => do
    let n ← ev (cols * channels)
    forI 0 n fun j => do
      let si ← ev ((CI.lit rows - CI.lit 1 - CI.lit i) * cols * channels + j)
      let v ← load s.data si
      let di ← ev (i * cols * channels + j)
      store d.data di v

/-- `simple_mat_flip`: GeometricTransformation.c:46-72 -/
def simple_mat_flip (src_mat dst_mat : Option Nat) (FLIPCODE : Int) : M Unit := do
  let sp ← nonNull src_mat
  let dp ← nonNull dst_mat
  let s ← getS sp
  let d ← getS dp
  cassert (s.rows = d.rows ∧ s.cols = d.cols)
  if FLIPCODE = 1 then simple_mat_flip_horizontal src_mat dst_mat
  else if FLIPCODE = 0 then simple_mat_flip_vertical src_mat dst_mat
  else if FLIPCODE = -1 then do
    let temp ← simple_mat_copy src_mat
    simple_mat_flip_horizontal src_mat temp
    simple_mat_flip_vertical temp dst_mat
    delete_simple_mat temp
  else simple_mat_flip_horizontal src_mat dst_mat

end HyperCV
