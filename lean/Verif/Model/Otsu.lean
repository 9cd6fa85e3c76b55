/- Model of `otsuThreshold`: /repo/modules/process/src/c_src/threshold.c:9-70. -/
import Verif.Model.SimpleMat
import Verif.Base.Float

namespace HyperCV

/-- `b * 0.114 + g * 0.587 + r * 0.299` in `double`: threshold.c:33 -/
def otsuLuma (b g r : Int) : FV :=
  f64.add (f64.add (f64.mul (f64.ofInt b) (f64.round false (114 / 1000))) (f64.mul (f64.ofInt g) (f64.round false (587 / 1000))))
    (f64.mul (f64.ofInt r) (f64.round false (299 / 1000)))

/-- the two comparisons with the limits: threshold.c:34, 35 -/
def otsuClamp (temp : FV) : FV :=
  let temp := if temp.lt (.fin false 0) then .fin false 0 else temp
  if (FV.fin false 255).lt temp then .fin false 255 else temp

/-- the index `(int)temp` into the array of 256 counters: threshold.c:36 -/
def otsuIndex (temp : FV) : M Nat :=
  match temp.trunc with
  | none => fail (.ub .fpConv)
  | some n => if 0 ≤ n ∧ n < 256 then pure n.toNat else fail (.ub .oob)

/-- the histogram: threshold.c:27, 29-38.  The local array of 256 `double`s is a function from levels to values. -/
def otsuHist (img : SimpleMat) : M (Nat → FV) := do
  let step ← ev (img.cols * img.channels)
  forA 0 img.rows (fun _ => FV.fin false 0) fun i h =>
    forA 0 img.cols h fun j h => do
      let a ← ev (i * step + j * CI.lit 3)
      let b ← load img.data a
      let a ← ev (i * step + j * CI.lit 3 + CI.lit 1)
      let g ← load img.data a
      let a ← ev (i * step + j * CI.lit 3 + CI.lit 2)
      let r ← load img.data a
      let k ← otsuIndex (otsuClamp (otsuLuma (ival b) (ival g) (ival r)))
      pure fun x => if x = k then f64.add (h x) (f64.ofInt 1) else h x

/-- `gSum += j*Histogram[j]` for `n` values of `j` from `lo` on: threshold.c:49-52 and 54-57 -/
def otsuSum (h : Nat → FV) (lo : Nat) : Nat → FV
  | 0 => .fin false 0
  | n + 1 => f64.add (otsuSum h lo n) (f64.mul (f64.ofInt ((lo + n : Nat) : Int)) (h (lo + n)))

/-- the variance between the classes for level `i`: threshold.c:46-60.  `N0` and `N1` are the numbers of pixels of the two classes. -/
def otsuG (h : Nat → FV) (N N0 N1 : FV) (i : Nat) : FV :=
  let w0 := f64.div N0 N
  let w1 := f64.sub (f64.ofInt 1) w0
  let u0 := f64.div (otsuSum h 0 (i + 1)) N0
  let u1 := f64.div (otsuSum h (i + 1) (255 - i)) N1
  f64.mul (f64.mul (f64.mul w0 w1) (f64.sub u0 u1)) (f64.sub u0 u1)

/-- the search for the largest value: threshold.c:40-66, from level `i` on, `n` levels left; `N0`, `tempg` and `T` are the variables of the
loop.  Ends early when no pixel is above the level. -/
def otsuScan (h : Nat → FV) (N : FV) : Nat → Nat → FV → FV → Nat → Nat
  | 0, _, _, _, T => T
  | n + 1, i, N0, tempg, T =>
    let N0 := f64.add N0 (h i)
    let N1 := f64.sub N N0
    if (FV.fin false 0).feq N1 then T
    else
      let g := otsuG h N N0 N1 i
      if tempg.lt g then otsuScan h N n (i + 1) N0 g i else otsuScan h N n (i + 1) N0 tempg T

/-- `otsuThreshold`: threshold.c:9-70.  The product `width*height` (line 28) is computed before the histogram. -/
def otsuThreshold (img : Option Nat) : M Int := do
  let s ← derefS img
  let n ← ev (s.cols * s.rows)
  let h ← otsuHist s
  pure (otsuScan h (f64.ofInt n) 256 0 (.fin false 0) (.fin true (-1)) 0 : Nat)

end HyperCV
