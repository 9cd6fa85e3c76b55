/- Several programs one after another, each of which starts with the files that the one before has left behind, whether this has come to its end or has been stopped
during a save (hmsave, /repo/modules/core/src/c_src/hypermat.c:309-325 and 337-386).  Nothing but the files is kept: each program starts with a memory of its own. -/
import Verif.Model.Work
import Verif.Spec.Interrupt
import Verif.Spec.History

namespace HyperCV
open Spec

/-- a memory with which a program may start: there is room in it, fresh storage of `20 n` bytes ends with a zero byte, and no address is 48 modulo 64 -/
def StartsIn (m : Mem) : Prop := m.WF ∧ ZeroLast m ∧ ∀ h, m.addr h % 16 = 0 ∧ m.addr h % 64 ≠ 48

/-- one run leads from the files `fs` to the files `fs'`, in some memory; it sees `out`.  If it was stopped during a save, some of the actions of the save were done,
and of what was written to open files any part is there. -/
def RunLeads (other : Text → Option FV) (r : Run) (fs fs' : Files) (out : List Nat) : Prop :=
  ∃ m, StartsIn m ∧ ∃ fs1 envC envI m1, execWorkAll other fs [] [] r.ops m = .ok ((fs1, envC, envI, out), m1) ∧
    match r.stopped with
    | none => fs' = fs1
    | some (x, name) => ∃ acts m2 j, hmsaveActs name (ptr envC x) m1 = .ok (acts, m2) ∧ Found (runActs (Streams.closed fs1) (acts.take j)) fs'

/-- several runs -/
def HistoryLeads (other : Text → Option FV) : List Run → Files → Files → List (List Nat) → Prop
  | [], fs, fs', outs => fs' = fs ∧ outs = []
  | r :: rs, fs, fs', outs => ∃ fs1 out outs', RunLeads other r fs fs1 out ∧ HistoryLeads other rs fs1 fs' outs' ∧ outs = out :: outs'

end HyperCV
