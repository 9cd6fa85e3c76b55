/- Model of /repo/modules/algorithm/src/HisEqualization.c, lines 13-37. -/
import Verif.Model.SimpleMat

namespace HyperCV

/-- `int hist[256] = {0}` and the loop counting grey levels: HisEqualization.c:24-27.  Simplification: the local array is a
function; all its indices are bytes or 1..255, so they are in bounds. -/
def histCount (data : Nat) (n : Int) : M (Int → Int) :=
  forA 0 n (fun _ => 0) fun i hist => do
    let p ← load data i
    let h ← ev (CI.lit (hist (ival p)) + CI.lit 1)
    pure fun v => if v = ival p then h else hist v

/-- the cumulative sums, scaled as they are computed: HisEqualization.c:29-33 -/
def histCumulate (n : Int) (hist : Int → Int) : M (Int → Int) :=
  forA 1 256 hist fun i hist => do
    let s ← ev (CI.lit (hist i) + CI.lit (hist (i - 1)))
    let t ← ev (CI.lit s * CI.lit 255 / CI.lit n)
    pure fun v => if v = i then t else hist v

/-- `HisEqualization`: HisEqualization.c:13-37.  Simplification: `rows*cols` is evaluated once instead of in every iteration. -/
def HisEqualization (src_mat dst_mat : Option Nat) : M Unit := do
  cassert (src_mat.isSome && dst_mat.isSome)
  let s ← derefS src_mat
  let d ← derefS dst_mat
  cassert (s.rows = d.rows ∧ d.cols = s.cols)
  let n ← ev (CI.lit s.rows * CI.lit s.cols)
  let hist ← histCount s.data n
  let hist ← histCumulate n hist
  forI 0 n fun i => do
    let p ← load s.data i
    store d.data i (uchar (hist (ival p)))

end HyperCV
