/- C119: whole programs that use cubes, images and files together. -/
import Verif.Proof.Work
import Verif.Props.Session

namespace HyperCV
open Spec

/-- **C119, partial**.  Every program, however long, that works with cubes, images and files together and has a meaning (see `workMeaning`): it runs to its end without
undefined behaviour and sees exactly the values its meaning says; what existed before is unchanged; at its end the cubes and images are in memory as the meaning
says; every cube that was saved can be read again in every memory, by another program, with the same result; and no other file has changed.

Missing: fresh storage that does not end with a zero byte (`C14_refuted`), memories in which an object lies 48 bytes behind a multiple of 64 (`C108_refuted`), and
that no storage is lost (`C119_refuted_leak`): beside the variables, `leaks` is allocated. -/
theorem C119_programs_partial (other : Text → Option FV) (ops : List WorkOp) (st : Store) (im : Images) (d : Disk) (out : List Nat)
    (hs : workMeaning [] [] [] ops = some (st, im, d, out)) (fs : Files) (m : Mem) (hm : m.WF) (hz : ZeroLast m) (ha : GoodAddr m) :
    ∃ (fs' : Files) (envC envI : List (Option Nat)) (m' : Mem) (leaks : List Nat), execWorkAll other fs [] [] ops m = .ok ((fs', envC, envI, out), m') ∧
      Frame m m' ∧ RepresentsBeside (fun h => h < m.next ∨ h ∈ leaks) m' m' envC st envI im ∧
      (∀ name c, d.get name = some c → ∀ m2 : Mem, m2.WF → ZeroLast m2 →
        ∃ q m3, hmreadFile other fs' name (headerName name) m2 = .ok (some q, m3) ∧ HasValue m3 q c.reread ∧ Frame m2 m3) ∧
      (∀ n, (∀ e ∈ d, n ≠ e.1 ∧ n ≠ headerName e.1) → fs' n = fs n) := by
  obtain ⟨fs', envC, envI, m', leaks, run, hb, _⟩ := work_run other hz ha ops (work_start hm fs) hs
  refine ⟨fs', envC, envI, m', leaks, run, hb.frame, hb.rep, ?_, hb.rest⟩
  intro name c hc m2 hm2 hz2
  obtain ⟨img, g1, g2, g3⟩ := hb.stored name c hc
  obtain ⟨mi, v, w, i1, i2, i3, i4, i5, i6, i7, i8, run2, hv⟩ := load_exact other g3 hm2 hz2
  refine ⟨_, _, ?_, hv, frame_trans i2 (convMem_frame mi c.lay) (by omega)⟩
  unfold hmreadFile
  rw [g1, g2]
  exact run2

/-- **C119 refuted**: storage is lost.  After a program that has released all its cubes and images, exactly two blocks are still allocated for every time it saved or
read a cube; nothing else is. -/
theorem C119_refuted_leak (other : Text → Option FV) (ops : List WorkOp) (st : Store) (im : Images) (d : Disk) (out : List Nat)
    (hs : workMeaning [] [] [] ops = some (st, im, d, out)) (hall : ∀ x, st.get x = none) (hall' : ∀ x, im.get x = none) (fs : Files) (m : Mem)
    (hm : m.WF) (hz : ZeroLast m) (ha : GoodAddr m) :
    ∃ (fs' : Files) (envC envI : List (Option Nat)) (m' : Mem) (leaks : List Nat), execWorkAll other fs [] [] ops m = .ok ((fs', envC, envI, out), m') ∧
      leaks.Nodup ∧ leaks.length = 2 * workFileCalls ops ∧ m'.hm = m.hm ∧ m'.sm = m.sm ∧
      ∀ h, m.next ≤ h → (m'.blk h ≠ none ↔ h ∈ leaks) := by
  obtain ⟨fs', envC, envI, m', leaks, run, hb, hl⟩ := work_run other hz ha ops (work_start hm fs) hs
  have noI : ∀ h, ¬ OfImages m' envI im h := by
    rintro h ⟨x, c, p, e, _⟩
    rw [hall' x] at e; cases e
  have noC : ∀ h, ¬ OfCubes m' envC st h := by
    rintro h ⟨x, c, p, e, _⟩
    rw [hall x] at e; cases e
  refine ⟨fs', envC, envI, m', leaks, run, hb.nodup, by simpa using hl, ?_, ?_, ?_⟩
  · funext h
    by_cases hh : h < m.next
    · exact (hb.frame h hh).2.1
    · rw [(hm h (by omega)).2.1]
      by_cases hc : h ∈ leaks
      · exact (hb.bare h hc).1
      · exact hb.rep.images.cubes h (fun e => e.elim (fun e => e.elim (by omega) hc) (noC h))
  · funext h
    by_cases hh : h < m.next
    · exact (hb.frame h hh).2.2
    · rw [(hm h (by omega)).2.2]
      by_cases hc : h ∈ leaks
      · exact (hb.bare h hc).2
      · exact hb.rep.cubes.images h (fun e => e.elim (fun e => e.elim (by omega) hc) (noI h))
  · intro h hh
    constructor
    · intro hne
      by_contra hc
      obtain ⟨x, c, p, hdr, e, _⟩ := hb.rep.cubes.blocks h (fun e => e.elim (fun e => e.elim (by omega) hc) (noI h)) hne
      rw [hall x] at e; cases e
    · exact fun h1 => (hb.lost h h1).2

/-- **C119**.  What a program sees depends neither on the memory nor on the files it is started with. -/
theorem C119_output_determined_partial (other : Text → Option FV) (ops : List WorkOp) (st : Store) (im : Images) (d : Disk) (out : List Nat)
    (hs : workMeaning [] [] [] ops = some (st, im, d, out)) (fs1 fs2 : Files) (m1 m2 : Mem) (h1 : m1.WF) (h2 : m2.WF) (z1 : ZeroLast m1) (z2 : ZeroLast m2)
    (a1 : GoodAddr m1) (a2 : GoodAddr m2) {r1 r2 : Files × List (Option Nat) × List (Option Nat) × List Nat} {m1' m2' : Mem}
    (e1 : execWorkAll other fs1 [] [] ops m1 = .ok (r1, m1')) (e2 : execWorkAll other fs2 [] [] ops m2 = .ok (r2, m2')) : r1.2.2.2 = r2.2.2.2 := by
  obtain ⟨_, _, _, _, _, g1, _⟩ := C119_programs_partial other ops st im d out hs fs1 m1 h1 z1 a1
  obtain ⟨_, _, _, _, _, g2, _⟩ := C119_programs_partial other ops st im d out hs fs2 m2 h2 z2 a2
  rw [e1] at g1
  rw [e2] at g2
  cases g1
  cases g2
  rfl

/-- a program: a cube of bytes is filled at one place and saved; a band is taken out; its edges, its Laplacian and a sum are computed and put into another band; the
cube is saved under another name and read again; a part of it is spliced; everything is released -/
def someWork : List WorkOp :=
  [.session (.cube (.create 3 2 4 1 .bsq)), .session (.cube (.write 0 1 2 3 77)), .save 0 "a".toList, .session (.image (.create 2 3 1)), .session (.takeBand 0 3 0),
   .session (.image (.create 2 3 1)), .edges 0 1 .replicate 100, .session (.image (.read 1 1 1)), .session (.image (.read 1 0 0)),
   .laplacian 0 1 .reflect true, .session (.image (.read 1 0 2)), .session (.image (.read 1 1 2)), .add 0 1 1, .add 0 1 1, .add 0 1 1, .session (.image (.read 1 1 2)),
   .session (.image (.read 1 0 2)), .session (.putBand 1 0 0), .save 0 "b".toList, .load "a".toList, .load "b".toList, .session (.cube (.read 1 1 2 0)), .session (.cube (.read 2 1 2 0)),
   .session (.cube (.range 2 0 0 0 2 3 1)), .splice 1 3 6, .session (.cube (.read 1 1 2 1)), .session (.cube (.read 1 1 2 3)), .session (.cube (.delete 0)),
   .session (.cube (.delete 1)), .session (.cube (.delete 2)), .session (.cube (.delete 3)), .session (.image (.delete 0)), .session (.image (.delete 1))]

example : (workMeaning [] [] [] someWork).map (fun r => (r.2.2.2, r.1.map (·.isSome), r.2.1.map (·.isSome), r.2.2.1.map (·.1)))
    = some ([255, 0, 154, 0, 231, 154, 0, 231, 231, 77], [false, false, false, false], [false, false], ["b".toList, "a".toList]) ∧ workFileCalls someWork = 4 := by
  decide +kernel

/-- a program without meaning: an image is its own source of edges -/
example : (workMeaning [] [] [] [.session (.image (.create 2 3 1)), .edges 0 0 .replicate 100]).isNone = true := by decide +kernel

example : Mem.empty.WF ∧ ZeroLast Mem.empty ∧ GoodAddr Mem.empty := ⟨empty_WF, fun _ _ _ => rfl, fun _ => ⟨rfl, by show 0 % 64 ≠ 48; decide⟩⟩

end HyperCV
