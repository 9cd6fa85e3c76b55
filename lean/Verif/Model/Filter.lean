/- Model of /repo/modules/process/src/c_src/filter.c, part 1: padding. -/
import Verif.Model.SimpleMat

namespace HyperCV

/-- `hypercv_make_const_border`: filter.c:40-69 (`bottom`, `right` and `border_type` are not used by the
code).  The comparisons `i-top<0||i-top>=src_rows||...` are evaluated left to right with checked subtraction,
which cannot overflow in the only caller; they are written here on integers. -/
def hypercv_make_const_border (src dst : Option Nat) (top left : Int) (value : UInt8) : M Unit := do
  let sp ← nonNull src
  let s ← getS sp
  let d ← derefS dst
  forI 0 d.rows fun i => forI 0 d.cols fun j =>
    if i - top < 0 ∨ i - top ≥ s.rows ∨ j - left < 0 ∨ j - left ≥ s.cols then
      forI 0 s.channels fun k => do
        let di ← ev (CI.lit i * d.cols * s.channels + CI.lit j * s.channels + k)
        store d.data di value
    else
      forI 0 s.channels fun k => do
        let si ← ev ((CI.lit i - top) * s.cols * s.channels + (CI.lit j - left) * s.channels + k)
        let v ← load s.data si
        let di ← ev (CI.lit i * d.cols * s.channels + CI.lit j * s.channels + k)
        store d.data di v

/-- the loop of `hypercv_copy_make_border` for the non-constant borders: filter.c:538-551 -/
def copyBorderLoop (s d : SimpleMat) (top left border_type : Int) : M Unit :=
  forI 0 d.rows fun i => forI 0 d.cols fun j => do
    let pj ← ev (CI.lit j - left)
    let index_j ← borderM pj s.cols border_type
    let pi ← ev (CI.lit i - top)
    let index_i ← borderM pi s.rows border_type
    forI 0 d.channels fun k => do
      let si ← ev (CI.lit index_i * s.cols * d.channels + CI.lit index_j * d.channels + k)
      let v ← load s.data si
      let di ← ev (CI.lit i * d.cols * d.channels + CI.lit j * d.channels + k)
      store d.data di v

/-- `hypercv_copy_make_border`: filter.c:504-553 -/
def hypercv_copy_make_border (src : Option Nat) (top bottom left right border_type : Int) (value : UInt8) :
    M (Option Nat) := do
  let sp ← nonNull src
  cassert (left ≥ 0 ∧ right ≥ 0 ∧ top ≥ 0 ∧ bottom ≥ 0)
  cassert (border_type = 2 ∨ border_type = 4 ∨ border_type = 1 ∨ border_type = 3 ∨ border_type = 0)
  if top = 0 ∧ left = 0 ∧ bottom = 0 ∧ right = 0 then simple_mat_copy src
  else do
    let s ← getS sp
    let r ← ev (CI.lit s.rows + top + bottom)
    let c ← ev (CI.lit s.cols + left + right)
    let dst ← create_simple_mat r c s.data_type s.channels
    if border_type = 0 then do
      hypercv_make_const_border src dst top left value
      pure dst
    else do
      let d ← derefS dst
      copyBorderLoop s d top left border_type
      pure dst

end HyperCV
