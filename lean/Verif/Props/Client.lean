/- Property theorems on whole programs that use cubes. -/
import Verif.Proof.Client
import Verif.Props.Image

namespace HyperCV
open Spec

/-- **C107**.  Every program, however long, that creates cubes, converts, cuts, copies, reads, writes and releases them, and has a meaning (it uses no released
cube and no element outside a cube): in every memory it runs to its end without undefined behaviour, it sees exactly the values its meaning says, and at its end
the memory represents the meaning, see `Represents`. -/
theorem C107_programs_mean_what_they_say (ops : List CubeOp) (st : Store) (out : List Nat) (hs : meaning [] ops = some (st, out)) (m : Mem) (hm : m.WF) :
    ∃ env m', execAll [] ops m = .ok ((env, out), m') ∧ Represents (· < m.next) m m' env st :=
  execAll_run ops (represents_start hm) hs

/-- **C107**.  If the program has released all its cubes, the memory is as it was before: nothing leaked. -/
theorem C107_no_leak (ops : List CubeOp) (st : Store) (out : List Nat) (hs : meaning [] ops = some (st, out)) (hall : ∀ x, st.get x = none) (m : Mem) (hm : m.WF) :
    ∃ env m', execAll [] ops m = .ok ((env, out), m') ∧ m'.blk = m.blk ∧ m'.hm = m.hm ∧ m'.sm = m.sm := by
  obtain ⟨env, m', run, hr⟩ := C107_programs_mean_what_they_say ops st out hs m hm
  refine ⟨env, m', run, ?_⟩
  have none_blk : ∀ h, m.next ≤ h → m'.blk h = none := by
    intro h hh
    by_contra hb
    obtain ⟨x, c, p, hdr, e, _⟩ := hr.blocks h (by omega) hb
    rw [hall x] at e; cases e
  have none_hm : ∀ h, m.next ≤ h → m'.hm h = none := by
    intro h hh
    by_contra hb
    obtain ⟨x, c, e, _⟩ := hr.headers h (by omega) hb
    rw [hall x] at e; cases e
  refine ⟨funext fun h => ?_, funext fun h => ?_, funext fun h => ?_⟩
  · by_cases hh : h < m.next
    · exact (hr.frame h hh).1
    · rw [none_blk h (by omega), (hm h (by omega)).1]
  · by_cases hh : h < m.next
    · exact (hr.frame h hh).2.1
    · rw [none_hm h (by omega), (hm h (by omega)).2.1]
  · by_cases hh : h < m.next
    · exact (hr.frame h hh).2.2
    · rw [hr.images h (by omega), (hm h (by omega)).2.2]

/-- **C107**.  What a program sees does not depend on the memory it is started in: not on what is allocated there, not on the contents of fresh memory, not on
the bytes that follow the tag of a cube. -/
theorem C107_output_determined (ops : List CubeOp) (st : Store) (out : List Nat) (hs : meaning [] ops = some (st, out)) (m1 m2 : Mem) (h1 : m1.WF) (h2 : m2.WF)
    {env1 env2 : List (Option Nat)} {out1 out2 : List Nat} {m1' m2' : Mem} (r1 : execAll [] ops m1 = .ok ((env1, out1), m1'))
    (r2 : execAll [] ops m2 = .ok ((env2, out2), m2')) : out1 = out2 := by
  obtain ⟨_, _, e1, _⟩ := C107_programs_mean_what_they_say ops st out hs m1 h1
  obtain ⟨_, _, e2, _⟩ := C107_programs_mean_what_they_say ops st out hs m2 h2
  rw [r1] at e1
  rw [r2] at e2
  cases e1
  cases e2
  rfl

/-- a program: a cube of 3 samples, 2 lines and 4 bands of 16 bit numbers gets an element and a wavelength; it is converted, a part of the result is cut out, the
first cube is brought into another order, is overwritten, and so on; all the while the program looks at what it has -/
def someProgram : List CubeOp :=
  [.create 3 2 4 12 .bil, .write 0 1 2 3 777, .writeWave 0 3 1065353216, .convert 0 .bil .bip, .range 1 1 1 2 1 2 2, .read 2 0 1 1, .readWave 2 1,
   .convertIn 0 .bsq, .read 0 1 2 3, .write 1 1 2 3 9, .read 0 1 2 3, .copyTo 1 0, .read 0 1 2 3, .delete 1, .read 0 1 2 3, .create 1 1 4 1 .bsq, .copyWaves 0 3,
   .readWave 3 3, .delete 0, .delete 2, .read 3 0 0 0, .delete 3]

example : ∃ st, meaning [] someProgram = some (st, [777, 1065353216, 777, 777, 9, 9, 1065353216, 0]) ∧ ∀ x, st.get x = none := by
  refine ⟨_, rfl, ?_⟩
  intro x
  match x with
  | 0 => rfl
  | 1 => rfl
  | 2 => rfl
  | 3 => rfl
  | n + 4 => rfl

example : Mem.empty.WF := empty_WF

/-- a program without meaning: it reads a cube it has released -/
example : meaning [] [.create 3 2 4 12 .bil, .delete 0, .read 0 0 0 0] = none := rfl

end HyperCV
