/- Model of the floating point helpers of /repo/modules/core/include/c_include/type.h. -/
import Verif.Base.Sem
import Verif.Base.Float

namespace HyperCV

/-- `HYPERCV_ROUND`: type.h:97-119, the x86-64 GNU branch (lines 109-111): `cvtsd2si` rounds to nearest,
ties to even (the default rounding mode), and returns the "integer indefinite" value -2^31 for NaN, infinities
and results that do not fit in 32 bits.  A `float` argument is promoted to `double` without change of value. -/
def hypercv_round : FV → Int
  | .fin _ q => if -2147483648 ≤ rne q ∧ rne q ≤ 2147483647 then rne q else -2147483648
  | _ => -2147483648

/-- `saturate_cast_float2uchar`: type.h:195-205 -/
def saturate_cast_float2uchar (value : FV) : UInt8 :=
  if FV.lt (.fin false 255) value then 255
  else if FV.lt value (.fin false 0) then 0
  else uchar (hypercv_round value)

/-- bit pattern of an integer stored in an object of `w` bytes (two's complement, modulo 256^w) -/
def bitsOf (w : Nat) (x : Int) : Nat := (x % 256 ^ w).toNat

end HyperCV
