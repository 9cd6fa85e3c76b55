/- Histories of programs that are stopped: what can be relied upon.  Nothing here knows about memory or about the format of the files. -/
import Verif.Spec.Work

namespace HyperCV.Spec

/-- one run of a program: the operations that were done, and the save during which it was stopped, if it was stopped during one.  (A run that is stopped between two
operations, or during one that does not write files, is the run of the operations before.) -/
structure Run where
  ops : List WorkOp
  stopped : Option (Nat × List Char) := none

/-- the cubes that were not saved under `name` -/
def Disk.without (d : Disk) (name : List Char) : Disk := d.filter fun e => e.1 ≠ name

/-- meaning of one run that finds the cubes `d`: what it sees, and the cubes that can be relied upon after it: if it was stopped during a save, those with other
names; `none` if the program may not do this -/
def Run.meaning (d : Disk) (r : Run) : Option (Disk × List Nat) := do
  let (st, _, d1, out) ← workMeaning [] [] d r.ops
  match r.stopped with
  | none => some (d1, out)
  | some (x, name) =>
    let _ ← (FileOp.save x name).step st d1
    some (d1.without name, out)

/-- meaning of a history: the cubes that can be relied upon, and what each run sees -/
def historyMeaning : Disk → List Run → Option (Disk × List (List Nat))
  | d, [] => some (d, [])
  | d, r :: rs => do
    let (d1, out) ← r.meaning d
    let (d2, outs) ← historyMeaning d1 rs
    some (d2, out :: outs)

end HyperCV.Spec
