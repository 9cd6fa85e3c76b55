/- Property theorems on whole programs that use cubes and images together. -/
import Verif.Proof.Session

namespace HyperCV
open Spec

/-- no object lies 48 bytes behind a multiple of 64 (an allocator that returns multiples of 16 may do that), see C11 -/
def Spec.GoodAddr (m : Mem) : Prop := ∀ h, m.addr h % 16 = 0 ∧ m.addr h % 64 ≠ 48

/-- **C108**.  Every program, however long, that creates, converts, cuts, copies, reads, writes and releases cubes, creates, copies, transposes, mirrors, thresholds,
reads, writes and releases images, takes bands out of cubes, puts bands into byte cubes and reshapes cubes to images, and has a meaning: it runs to its end without
undefined behaviour, it sees exactly the values its meaning says, and at its end the memory represents the meaning, see `RepresentsBoth`.
Missing from the full property: memories in which an object lies 48 bytes behind a multiple of 64, where it is false, see `C108_refuted`. -/
theorem C108_programs_partial (ops : List SessionOp) (st : Store) (im : Images) (out : List Nat) (hs : sessionMeaning [] [] ops = some (st, im, out))
    (m : Mem) (hm : m.WF) (ha : GoodAddr m) :
    ∃ envC envI m', execSessionAll [] [] ops m = .ok ((envC, envI, out), m') ∧ RepresentsBoth m m' envC st envI im :=
  session_run ha ops (session_start hm) hs

/-- **C108**.  If the program has released all its cubes and images, the memory is as it was before: nothing leaked. -/
theorem C108_no_leak_partial (ops : List SessionOp) (st : Store) (im : Images) (out : List Nat) (hs : sessionMeaning [] [] ops = some (st, im, out))
    (hall : ∀ x, st.get x = none) (hall' : ∀ x, im.get x = none) (m : Mem) (hm : m.WF) (ha : GoodAddr m) :
    ∃ envC envI m', execSessionAll [] [] ops m = .ok ((envC, envI, out), m') ∧ m'.blk = m.blk ∧ m'.hm = m.hm ∧ m'.sm = m.sm := by
  obtain ⟨envC, envI, m', run, hr⟩ := C108_programs_partial ops st im out hs m hm ha
  refine ⟨envC, envI, m', run, ?_⟩
  have noI : ∀ h, ¬ OfImages m' envI im h := by
    rintro h ⟨x, c, p, e, _⟩
    rw [hall' x] at e; cases e
  have noC : ∀ h, ¬ OfCubes m' envC st h := by
    rintro h ⟨x, c, p, e, _⟩
    rw [hall x] at e; cases e
  have nb : ∀ h, m.next ≤ h → m'.blk h = none := by
    intro h hh
    by_contra hb
    obtain ⟨x, c, p, hdr, e, _⟩ := hr.cubes.blocks h (fun e => e.elim (by omega) (noI h)) hb
    rw [hall x] at e; cases e
  have nh : ∀ h, m.next ≤ h → m'.hm h = none := fun h hh => hr.images.cubes h (fun e => e.elim (by omega) (noC h))
  have ns : ∀ h, m.next ≤ h → m'.sm h = none := fun h hh => hr.cubes.images h (fun e => e.elim (by omega) (noI h))
  refine ⟨funext fun h => ?_, funext fun h => ?_, funext fun h => ?_⟩
  · by_cases hh : h < m.next
    · exact (hr.frame h hh).1
    · rw [nb h (by omega), (hm h (by omega)).1]
  · by_cases hh : h < m.next
    · exact (hr.frame h hh).2.1
    · rw [nh h (by omega), (hm h (by omega)).2.1]
  · by_cases hh : h < m.next
    · exact (hr.frame h hh).2.2
    · rw [ns h (by omega), (hm h (by omega)).2.2]

/-- **C108**.  What a program sees does not depend on the memory it is started in. -/
theorem C108_output_partial (ops : List SessionOp) (st : Store) (im : Images) (out : List Nat) (hs : sessionMeaning [] [] ops = some (st, im, out))
    (m1 m2 : Mem) (h1 : m1.WF) (h2 : m2.WF) (a1 : GoodAddr m1) (a2 : GoodAddr m2) {c1 c2 i1 i2 : List (Option Nat)} {out1 out2 : List Nat} {m1' m2' : Mem}
    (r1 : execSessionAll [] [] ops m1 = .ok ((c1, i1, out1), m1')) (r2 : execSessionAll [] [] ops m2 = .ok ((c2, i2, out2), m2')) : out1 = out2 := by
  obtain ⟨_, _, _, e1, _⟩ := C108_programs_partial ops st im out hs m1 h1 a1
  obtain ⟨_, _, _, e2, _⟩ := C108_programs_partial ops st im out hs m2 h2 a2
  rw [r1] at e1
  rw [r2] at e2
  cases e1
  cases e2
  rfl

/-- **C108 is false as stated**: in every memory in which the new image comes to lie 48 bytes behind a multiple of 64, the program that creates an image of
any size and type and releases it has a meaning, and its execution ends in undefined behaviour. -/
theorem C108_refuted (m : Mem) (hb : m.addr (m.next + 1) % 64 = 48) (R C E : Nat) (dt : Int) (hR : 0 < R) (hC : 0 < C) (hE : elemBytes dt = some E)
    (hN : R * C * E ≤ 2147483551) :
    (∃ st im out, sessionMeaning [] [] [.image (.create R C dt), .image (.delete 0)] = some (st, im, out)) ∧
    execSessionAll [] [] [.image (.create R C dt), .image (.delete 0)] m = .error (.ub .badFree) := by
  constructor
  · have h : (ImgVal.mk R C dt E fun _ _ => 0).Fits := hN
    refine ⟨[], [none], [], ?_⟩
    simp only [sessionMeaning, SessionOp.step, ImgOp.step, hE, Option.bind_eq_bind, Option.bind_some, hR, hC, h, and_self, if_true]
    rfl
  · have run := create_sm_ok (m := m) hR hC Nat.one_pos hE (by rw [Nat.mul_one]; exact hN)
    have step : execSession [] [] (.image (.create R C dt)) m = .ok (([], [some (m.next + 1)], []),
        m.newImage R C dt 1 E (fun p => if p < R * C * E then 0 else m.junk m.next p)) := by
      have : execImg [] (.create R C dt) m = .ok (([some (m.next + 1)], []), m.newImage R C dt 1 E (fun p => if p < R * C * E then 0 else m.junk m.next p)) :=
        bind_ok run
      exact bind_ok this
    unfold execSessionAll
    rw [bind_ok step]
    refine bind_err ?_
    unfold execSessionAll
    refine bind_err ?_
    show ((execImg [some (m.next + 1)] (.delete 0)) >>= _) _ = _
    refine bind_err ?_
    show ((delete_simple_mat (some (m.next + 1))) >>= _) _ = _
    exact bind_err (delete_sm_bad (newImage_sm m R C dt 1 E _) rfl hb)

/-- a program: a cube of bytes is filled at one place, its band is taken out, transposed, mirrored, thresholded and put back into another band; the cube is
reshaped; everything is released -/
def someSession : List SessionOp :=
  [.cube (.create 3 2 4 1 .bip), .cube (.write 0 1 2 3 77), .cube (.convertIn 0 .bsq), .image (.create 2 3 1), .takeBand 0 3 0, .image (.read 0 1 2),
   .image (.create 3 2 1), .image (.transpose 0 1), .image (.read 1 2 1), .image (.copy 1), .image (.flip 1 2 (-1)), .image (.read 2 0 0), .image (.flip 2 2 (-1)),
   .image (.flip 2 1 1), .image (.read 1 2 0), .image (.threshold 0 0 50 200 0), .image (.read 0 1 2), .putBand 0 0 1, .cube (.read 0 1 2 1), .cube (.read 0 1 2 3),
   .reshape 0 4 6, .image (.read 3 1 5), .cube (.delete 0), .image (.read 3 3 5), .image (.write 3 0 0 5), .image (.read 3 0 0), .image (.delete 0), .image (.delete 1), .image (.delete 2),
   .image (.delete 3)]

example : ∃ st im, sessionMeaning [] [] someSession = some (st, im, [77, 77, 77, 77, 200, 200, 77, 200, 77, 5]) ∧ (∀ x, st.get x = none) ∧ ∀ x, im.get x = none := by
  refine ⟨_, _, rfl, ?_, ?_⟩
  · intro x
    match x with
    | 0 => rfl
    | n + 1 => rfl
  · intro x
    match x with
    | 0 => rfl
    | 1 => rfl
    | 2 => rfl
    | 3 => rfl
    | n + 4 => rfl

example : Mem.empty.WF ∧ GoodAddr Mem.empty := ⟨empty_WF, fun _ => ⟨rfl, by show 0 % 64 ≠ 48; decide⟩⟩

example : ({ Mem.empty with addr := fun _ => 48 } : Mem).addr (Mem.empty.next + 1) % 64 = 48 := rfl

end HyperCV
