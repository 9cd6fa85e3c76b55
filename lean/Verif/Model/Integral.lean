/- Model of `hypercv_integral` in /repo/modules/process/src/c_src/filter.c. -/
import Verif.Model.SimpleMat
import Verif.Model.Round
import Verif.Model.Math

namespace HyperCV

/-- the loop body: filter.c:484-489.  `src_data` is promoted to `int`; the sums are `int`. -/
def integralStep (s d : SimpleMat) (i j : Int) : M Unit :=
  if i = 0 ∨ j = 0 then do
    let k ← ev (i * s.cols + j)
    let v ← load s.data k
    storeN 4 d.data k v.toNat
  else do
    let k ← ev (i * s.cols + j)
    let up ← ev ((CI.lit i - CI.lit 1) * s.cols + j)
    let lf ← ev (CI.lit i * s.cols + j - CI.lit 1)
    let ul ← ev ((CI.lit i - CI.lit 1) * s.cols + j - CI.lit 1)
    let a ← loadN 4 d.data up
    let b ← loadN 4 d.data lf
    let v ← load s.data k
    let c ← loadN 4 d.data ul
    let r ← ev (CI.lit (sval 4 a) + CI.lit (sval 4 b) + CI.lit (v.toNat : Int) - CI.lit (sval 4 c))
    storeN 4 d.data k (bitsOf 4 r)

/-- `hypercv_integral`: filter.c:461-491 -/
def hypercv_integral (src dst : Option Nat) : M Unit := do
  let sp ← nonNull src
  let s ← getS sp
  cassert (s.data_type = 1)
  cassert (s.channels = 1)
  let dst' ← (match dst with
    | none => create_simple_mat s.rows s.cols 3 1
    | some q => pure (some q))
  let d ← derefS dst'
  cassert (d.channels = 1 ∧ d.data_type = 3)
  forI 0 s.rows fun i => forI 0 s.cols fun j => integralStep s d i j

end HyperCV
