/- Model of the general linear filter and of the median and mean filters in
/repo/modules/process/src/c_src/filter.c. -/
import Verif.Model.Gaussian

namespace HyperCV

/-- filter.c:116-127: the contribution of tap (`x`, `y`) to pixel (`i`, `j`).  The statement for `cn == 1` and the three for
`cn == 3` are written as a loop over the channels; for other channel counts nothing is done. -/
def filterTap (s d : SimpleMat) (kernel : Nat) (k_cols i j x y index_i index_j : Int) : M Unit :=
  forI 0 (if s.channels = 1 ∨ s.channels = 3 then s.channels else 0) fun c => do
    let p ← ev (CI.lit i * s.cols * s.channels + CI.lit j * s.channels + c)
    let q ← ev (CI.lit index_i * s.cols * s.channels + CI.lit index_j * s.channels + c)
    let r ← ev (CI.lit x * k_cols + y)
    let k ← loadN 4 kernel r
    let v ← load s.data q
    let old ← loadN 4 d.data p
    storeN 4 d.data p (f32.encode (f32.add (f32.decode old) (f32.mul (f32.decode k) (f32.ofInt (v.toNat : Int)))))

/-- filter.c:109-128: row `x` of the kernel -/
def filterRow (s d : SimpleMat) (kernel : Nat) (k_cols border_type i j x index_i : Int) : M Unit :=
  forI 0 k_cols fun y => do
    let p ← ev (CI.lit j + CI.lit y - CI.lit (k_cols / 2))
    let index_j ← tapIndex p s.cols border_type
    filterTap s d kernel k_cols i j x y index_i index_j

/-- filter.c:102-129: one pixel -/
def filterPixel (s d : SimpleMat) (kernel : Nat) (k_rows k_cols border_type i j : Int) : M Unit :=
  forI 0 k_rows fun x => do
    let p ← ev (CI.lit i + CI.lit x - CI.lit (k_rows / 2))
    let index_i ← tapIndex p s.rows border_type
    filterRow s d kernel k_cols border_type i j x index_i

/-- `hypercv_filter2D`: filter.c:86-132.  Line 90 is an assignment: it makes 4 the data type of the destination. -/
def hypercv_filter2D (src dst : Option Nat) (kernel : Option Nat) (k_rows k_cols border_type : Int) : M Unit := do
  let sp ← nonNull src
  let dp ← nonNull dst
  let kp ← nonNull kernel
  let d0 ← getS dp
  setS dp { d0 with data_type := 4 }
  let s ← getS sp
  let d ← getS dp
  forI 0 s.rows fun i => forI 0 s.cols fun j => filterPixel s d kp k_rows k_cols border_type i j

/-- `hypercv_medianblur`: filter.c:140-170.  The first assertion requires the input to be NULL, and line 144 then
dereferences it, so that nothing after line 144 can be reached. -/
def hypercv_medianblur (src_mat _dst_mat : Option Nat) (size : Int) : M Unit := do
  cassert (src_mat = none)
  cassert (Int.tmod size 2 = 1)
  let _ ← derefS src_mat
  pure ()

/-- `hypercv_meanblur`: filter.c:178-213.  As above. -/
def hypercv_meanblur (src_mat _dst_mat : Option Nat) (_size : Int) : M Unit := do
  cassert (src_mat = none)
  let _ ← derefS src_mat
  pure ()

end HyperCV
