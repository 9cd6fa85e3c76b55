/- Model of the unfinished wavelet decomposition, /repo/modules/process/src/c_src/dwt.c:38-66, 145-185. -/
import Verif.Model.Wavelet
import Verif.Model.Filter

namespace HyperCV

/-- what `sub_wavedec` does: dwt.c:38-66.  `wb` is followed before the call (`wb->len`, line 59).  The structure has 32 bytes (dwt.h:21-26).
Nothing follows the call. -/
def sub_wavedec_effects (src : Option Nat) (wb : Option WaveletBase) (border_type : Int) : M Unit := do
  let _res ← calloc 32
  match wb with
  | none => fail (.ub .nullDeref)
  | some wb => do
    let n ← ev (CI.lit wb.len - 1)
    let _extmat ← hypercv_copy_make_border src n n n n border_type 0
    pure ()

/-- `sub_wavedec`: dwt.c:38-66, called for its value.  The function ends without `return`: to use the value is undefined behaviour. -/
def sub_wavedec (src : Option Nat) (wb : Option WaveletBase) (border_type : Int) : M WtCoefset := do
  sub_wavedec_effects src wb border_type
  fail (.ub .uninit)

/-- what `hypercv_wavedec` does: dwt.c:145-173.  `wt_info` has 32 bytes (dwt.h:11-17); simplification: the values stored in it (lines 160-164) are not modelled.
`calloc` with a negative number fails (line 166); the body of the loop is a comment (lines 168-171). -/
def hypercv_wavedec_effects (src : Option Nat) (wt_level _wave_type _border_type : Int) : M Unit := do
  let sp ← nonNull src
  let _temp ← simple_mat_copy (some sp)
  let _res ← calloc 32
  if wt_level < 0 then pure ()
  else do
    let _cs ← calloc (wt_level * 8).toNat
    pure ()

/-- `hypercv_wavedec`: dwt.c:145-173, called for its value.  The function ends without `return`: to use the value is undefined behaviour. -/
def hypercv_wavedec (src : Option Nat) (wt_level wave_type border_type : Int) : M WtInfo := do
  hypercv_wavedec_effects src wt_level wave_type border_type
  fail (.ub .uninit)

/-- `hypercv_dwt1D_float`: dwt.c:177-182: empty -/
def hypercv_dwt1D_float (_signal _res : Option Nat) (_length : Int) : M Unit := pure ()

end HyperCV
