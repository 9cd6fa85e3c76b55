/- Programs that use cubes, images and files together: the operations, and what they mean.  Nothing here knows about memory or about the format of the files. -/
import Verif.Spec.Session
import Verif.Spec.ClientFiles
import Verif.Spec.Gradient

namespace HyperCV.Spec

/-- the operations of a program -/
inductive WorkOp
  /-- an operation on cube and image variables -/
  | session (o : SessionOp)
  /-- cube `x` is saved under the name `name` -/
  | save (x : Nat) (name : List Char)
  /-- a new cube variable: the cube that was saved under the name `name` -/
  | load (name : List Char)
  /-- byte image `z` becomes the sum of the byte images `x` and `y`, modulo 256; `z` may be `x` or `y` -/
  | add (x y z : Nat)
  /-- byte image `y` becomes white where the larger of the two Sobel derivatives of byte image `x`, continued by `e`, is over the threshold, and black elsewhere -/
  | edges (x y : Nat) (e : Extension) (threshold : Int)
  /-- byte image `y` becomes the discrete Laplacian of byte image `x`, continued by `e`, limited to 0..255; doubled if `twice` -/
  | laplacian (x y : Nat) (e : Extension) (twice : Bool)
  /-- the elements of cube `y`, in the order in which it has them, replace those of cube `x` from number `start` on -/
  | splice (x y start : Nat)

/-- the pixels of a byte image -/
def ImgVal.bytes (c : ImgVal) (i j _ch : Nat) : UInt8 := UInt8.ofNat (c.px i j)

/-- a number limited to 0..255 -/
def limit (z : Int) : Nat := if z < 0 then 0 else if z > 255 then 255 else z.toNat

/-- meaning of one operation: the new values of the variables, the cubes that are saved, and what the program sees; `none` if the program may not do this -/
def WorkOp.step (st : Store) (im : Images) (d : Disk) : WorkOp → Option (Store × Images × Disk × List Nat)
  | .session o => do
    let (st', im', out) ← o.step st im
    some (st', im', d, out)
  | .save x name => do
    let (st', d', out) ← (FileOp.save x name).step st d
    some (st', im, d', out)
  | .load name => do
    let (st', d', out) ← (FileOp.load name).step st d
    some (st', im, d', out)
  | .add x y z => do
    let a ← im.get x
    let b ← im.get y
    let c ← im.get z
    if a.R = c.R ∧ a.C = c.C ∧ a.dt = 1 ∧ b.R = c.R ∧ b.C = c.C ∧ b.dt = 1 ∧ c.dt = 1 then
      some (st, im.set z (some { c with px := fun i j => (a.px i j + b.px i j) % 256 }), d, [])
    else none
  | .edges x y e threshold => do
    let a ← im.get x
    let c ← im.get y
    if x ≠ y ∧ a.R = c.R ∧ a.C = c.C ∧ a.dt = 1 ∧ c.dt = 1 then
      some (st, im.set y (some { c with px := fun i j =>
        if (max (sobelDx e a.R a.C a.bytes i j).natAbs (sobelDy e a.R a.C a.bytes i j).natAbs : Int) > threshold then 255 else 0 }), d, [])
    else none
  | .laplacian x y e twice => do
    let a ← im.get x
    let c ← im.get y
    if x ≠ y ∧ a.R = c.R ∧ a.C = c.C ∧ a.dt = 1 ∧ c.dt = 1 then
      some (st, im.set y (some { c with px := fun i j => limit ((if twice then 2 else 1) * laplace e a.R a.C a.bytes i j) }), d, [])
    else none
  | .splice x y start => do
    let a ← st.get x
    let b ← st.get y
    if x ≠ y ∧ a.dt = b.dt ∧ start + b.S * b.L * b.B ≤ a.S * a.L * a.B then
      some (st.set x (some { a with elem := fun i j k =>
        let n := a.lay.pos a.S a.L a.B i j k
        if start ≤ n ∧ n < start + b.S * b.L * b.B then b.at (n - start) else a.elem i j k }), im, d, [])
    else none

/-- meaning of a program -/
def workMeaning : Store → Images → Disk → List WorkOp → Option (Store × Images × Disk × List Nat)
  | st, im, d, [] => some (st, im, d, [])
  | st, im, d, op :: ops => do
    let (st1, im1, d1, o1) ← op.step st im d
    let (st2, im2, d2, o2) ← workMeaning st1 im1 d1 ops
    some (st2, im2, d2, o1 ++ o2)

/-- number of the operations with files -/
def workFileCalls : List WorkOp → Nat
  | [] => 0
  | .save _ _ :: ops => workFileCalls ops + 1
  | .load _ :: ops => workFileCalls ops + 1
  | _ :: ops => workFileCalls ops

end HyperCV.Spec
