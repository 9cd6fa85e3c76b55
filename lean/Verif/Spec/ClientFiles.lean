/- Programs that use cubes and save them in files: the operations, and what they mean.  Nothing here knows about memory or about the format of the files. -/
import Verif.Spec.Client
import Verif.Base.Float

namespace HyperCV.Spec

/-- the operations of a program -/
inductive FileOp
  /-- an operation on cube variables -/
  | cube (o : CubeOp)
  /-- variable `x` is saved under the name `name` -/
  | save (x : Nat) (name : List Char)
  /-- a new variable: the cube that was saved under the name `name` -/
  | load (name : List Char)

/-- the cubes that were saved, the last one first -/
abbrev Disk := List (List Char × CubeVal)

/-- the cube that was saved last under the name `name` -/
def Disk.get (d : Disk) (name : List Char) : Option CubeVal := List.lookup name d

/-- the name of the header that belongs to the file `name` -/
def headerName (name : List Char) : List Char := name ++ ['.', 'h', 'd', 'r']

/-- neither `name` is the name of a header that was saved, nor is its header the name of a file that was saved -/
def Disk.Apart (d : Disk) (name : List Char) : Prop := ∀ e ∈ d, e.1 ≠ headerName name ∧ name ≠ headerName e.1

instance (d : Disk) (name : List Char) : Decidable (d.Apart name) :=
  inferInstanceAs (Decidable (∀ e ∈ d, e.1 ≠ headerName name ∧ name ≠ headerName e.1))

/-- the bit pattern of a finite number below 10⁹ -/
def Printable (bits : Nat) : Bool :=
  match f32.decode bits with
  | .fin _ q => decide (-1000000000 < q ∧ q < 1000000000)
  | _ => false

/-- the number that one gets if one writes the number `bits` with six decimals and reads this again: the `float` nearest to the `double` nearest to the multiple of
10⁻⁶ nearest to it -/
def asPrinted (bits : Nat) : Nat :=
  match f32.decode bits with
  | .fin s q => f32.encode (f32.conv (f64.round s ((if s = true then -1 else 1) * (((rne (|q| * 1000000)).toNat : ℚ) / 1000000)))) % 256 ^ 4
  | _ => bits

/-- a cube after it was saved and read again -/
def CubeVal.reread (c : CubeVal) : CubeVal := { c with wave := fun k => asPrinted (c.wave k) }

/-- meaning of one operation: the new values of the variables, the cubes that are saved, and what the program sees; `none` if the program may not do this -/
def FileOp.step (st : Store) (d : Disk) : FileOp → Option (Store × Disk × List Nat)
  | .cube o => do
    let (st', out) ← o.step st
    some (st', d, out)
  | .save x name => do
    let c ← st.get x
    if (∀ k, k < c.B → Printable (c.wave k) = true) ∧ 20 * c.B ≤ 2147483647 ∧ d.Apart name then some (st, (name, c) :: d, []) else none
  | .load name => do
    let c ← d.get name
    some (st ++ [some c.reread], d, [])

/-- meaning of a program -/
def filesMeaning : Store → Disk → List FileOp → Option (Store × Disk × List Nat)
  | st, d, [] => some (st, d, [])
  | st, d, op :: ops => do
    let (st1, d1, o1) ← op.step st d
    let (st2, d2, o2) ← filesMeaning st1 d1 ops
    some (st2, d2, o1 ++ o2)

/-- number of the operations with files -/
def fileCalls : List FileOp → Nat
  | [] => 0
  | .cube _ :: ops => fileCalls ops
  | _ :: ops => fileCalls ops + 1

/-- fresh storage of `20 n` bytes ends with a zero byte -/
def ZeroLast (m : Mem) : Prop := ∀ b n, 0 < n → m.junk b (20 * n - 1) = 0

end HyperCV.Spec
