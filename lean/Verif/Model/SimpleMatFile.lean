/- Model of /repo/modules/core/src/c_src/simplemat.c, reading of raw image files. -/
import Verif.Model.SimpleMat
import Verif.Model.Header

namespace HyperCV

/-- `smread`: simplemat.c:68-88.  The file is modelled by its contents, `none` is a file that cannot be opened (line 75); a name is always
given (line 70).  A negative number of bytes makes `malloc` fail, and `fread` writes to NULL.  Simplification: both factors are
checked, not only their product. -/
def smread (image : Option (List UInt8)) (rows cols data_type channels : Int) : M (Option Nat) := do
  match image with
  | none => fail .exit
  | some img => do
    let elem_size := get_elemsize data_type
    let data_size ← ev (CI.lit rows * CI.lit cols)
    let n ← ev (CI.lit data_size * CI.lit elem_size)
    if elem_size < 0 ∨ data_size < 0 then fail (.ub .nullDeref) else do
    let data ← malloc n.toNat
    freadInto data img n
    create_simple_mat_with_data rows cols data_type channels (some data)

end HyperCV
