/- Specification vocabulary for border extrapolation. -/
import Verif.Spec.Image

namespace HyperCV.Spec

/-- the documented extensions (type.h:129-135): `aaaaaa|abcdefgh|hhhhhhh`, `fedcba|abcdefgh|hgfedcb`,
`cdefgh|abcdefgh|abcdefg`, `gfedcb|abcdefgh|gfedcba` -/
inductive Extension where
  | replicate | reflect | wrap | reflect101

/-- the codes of type.h:83-86 -/
def Extension.code : Extension → Int
  | replicate => 1
  | reflect => 2
  | wrap => 3
  | reflect101 => 4

/-- the source index the documented pattern shows at position `p` -/
def Extension.index (e : Extension) (p len : Int) : Int :=
  match e with
  | replicate => if p < 0 then 0 else if p < len then p else len - 1
  | wrap => p % len
  | reflect => if p % (2 * len) < len then p % (2 * len) else 2 * len - 1 - p % (2 * len)
  | reflect101 =>
    if len = 1 then 0
    else if p % (2 * len - 2) < len then p % (2 * len - 2) else 2 * len - 2 - p % (2 * len - 2)

end HyperCV.Spec
