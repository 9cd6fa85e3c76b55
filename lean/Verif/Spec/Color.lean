/- Specification vocabulary for colour conversions. -/
import Verif.Spec.Image

namespace HyperCV.Spec

/-- `n` is the grey level of the colour (`r`, `g`, `b`): the maximum (method 1), the integer part of
0.299 r + 0.578 g + 0.114 b (method 2), or the mean rounded to the nearest integer (any other method; a third
of an integer is never half way between two integers). -/
def GreyOf (method : Int) (r g b n : Nat) : Prop :=
  if method = 1 then n = max r (max g b)
  else if method = 2 then 1000 * n ≤ 299 * r + 578 * g + 114 * b ∧ 299 * r + 578 * g + 114 * b < 1000 * (n + 1)
  else 3 * n ≤ r + g + b + 1 ∧ r + g + b ≤ 3 * n + 1

/-- the outcome of a routine that allocates and returns a new byte image: `R` x `C` pixels, `ch` channels,
contents `px`; existing objects are untouched -/
def NewImage8 (m : Mem) (r : Except Err (Option Nat × Mem)) (R C ch : Nat) (px : Nat → Nat → Nat → UInt8) : Prop :=
  ∃ q m', r = .ok (some q, m') ∧ IsImage8 m' q R C ch px ∧ FreshImg m m' q ∧ Frame m m' ∧ m'.WF

end HyperCV.Spec
