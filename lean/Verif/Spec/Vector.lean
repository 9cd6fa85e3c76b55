/- Specification vocabulary for the vector macros: operations on lists. -/
import Verif.Model.Vector
import Verif.Spec.Cube

namespace HyperCV.Spec

/-- operations of a user of the vector macros -/
inductive VOp where
  | push (v : Nat)
  | pop
  | erase (i : Int)
  | free

/-- effect of an operation on the list of elements; erasing an index out of range changes nothing -/
def VOp.onList : VOp → List Nat → List Nat
  | .push v, l => l ++ [v]
  | .pop, l => l.dropLast
  | .erase i, l => if 0 ≤ i ∧ i < l.length then l.eraseIdx i.toNat else l
  | .free, _ => []

/-- `pop` is only applied to a non-empty vector, pushed values are elements of `E` bytes and indices are `int`s -/
def VOp.Legal (E : Nat) : VOp → List Nat → Prop
  | .push v, _ => v < 256 ^ E
  | .pop, l => l ≠ []
  | .erase i, _ => -2147483648 ≤ i ∧ i ≤ 2147483647
  | .free, _ => True

/-- the list after a history -/
def listAfter : List VOp → List Nat → List Nat
  | [], l => l
  | op :: ops, l => listAfter ops (op.onList l)

/-- every operation of the history is legal where it is applied -/
def LegalHist (E : Nat) : List VOp → List Nat → Prop
  | [], _ => True
  | op :: ops, l => op.Legal E l ∧ LegalHist E ops (op.onList l)

/-- one operation of the program on the vector variable -/
def VOp.run (E : Nat) : VOp → Option Nat → M (Option Nat)
  | .push v, vec => vector_push_back E vec v
  | .pop, vec => do vector_pop_back vec; pure vec
  | .erase i, vec => do vector_erase E vec i; pure vec
  | .free, vec => vector_free vec

/-- a history of operations of the program -/
def runHist (E : Nat) : List VOp → Option Nat → M (Option Nat)
  | [], vec => pure vec
  | op :: ops, vec => do
    let vec ← op.run E vec
    runHist E ops vec

/-- what the program can observe of the vector is exactly the list `l`: size, emptiness, every element, and a
capacity that is at least the size -/
def Shows (E : Nat) (m : Mem) (vec : Option Nat) (l : List Nat) : Prop :=
  vector_size vec m = .ok (l.length, m) ∧
  vector_empty vec m = .ok (l.isEmpty, m) ∧
  (∃ cap, vector_capacity vec m = .ok (cap, m) ∧ l.length ≤ cap) ∧
  ∀ i (hi : i < l.length), vector_at E vec (i : Int) m = .ok (l[i], m)

end HyperCV.Spec
