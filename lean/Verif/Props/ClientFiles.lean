/- C114: whole programs that use cubes and save them in files. -/
import Verif.Proof.ClientFiles

namespace HyperCV
open Spec

theorem between_start (hm : m.WF) (fs : Files) : Between m m fs fs [] [] [] [] := by
  refine ⟨?_, fun _ _ => ⟨rfl, rfl, rfl⟩, rfl, List.nodup_nil, by simp, ?_, fun _ _ => rfl⟩
  · have e : (fun h => h < m.next ∨ h ∈ ([] : List Nat)) = (· < m.next) := by funext h; simp
    rw [e]
    exact represents_start hm
  · intro name c h
    cases h

/-- **C114, partial**.  Every program, however long, that also saves its cubes and reads them again and has a meaning, where fresh storage of `20 n` bytes ends with
a zero byte: it runs to its end without undefined behaviour; it sees exactly the values its meaning says (a cube that is read is the one that was saved last under
this name, whatever happened to the variable since, with its wavelengths rounded to six decimals); what existed before is unchanged; the cubes are in memory as the
meaning says; every cube that was saved can be read again in every memory, by another program, with the same result; and no other file has changed.

Missing: storage without such a zero byte (`C14_refuted`), and that no storage is lost (`C114_refuted_leak`): beside the cubes, `leaks` is allocated. -/
theorem C114_programs_with_files_partial (other : Text → Option FV) (ops : List FileOp) (st : Store) (d : Disk) (out : List Nat)
    (hs : filesMeaning [] [] ops = some (st, d, out)) (fs : Files) (m : Mem) (hm : m.WF) (hz : ZeroLast m) :
    ∃ (fs' : Files) (env : List (Option Nat)) (m' : Mem) (leaks : List Nat), execFiles other fs [] ops m = .ok ((fs', env, out), m') ∧ Frame m m' ∧
      Represents (fun h => h < m.next ∨ h ∈ leaks) m' m' env st ∧
      (∀ name c, d.get name = some c → ∀ m2 : Mem, m2.WF → ZeroLast m2 →
        ∃ q m3, hmreadFile other fs' name (headerName name) m2 = .ok (some q, m3) ∧ HasValue m3 q c.reread ∧ Frame m2 m3) ∧
      (∀ n, (∀ e ∈ d, n ≠ e.1 ∧ n ≠ headerName e.1) → fs' n = fs n) := by
  obtain ⟨fs', env, m', leaks, run, hb, _⟩ := files_run other hz ops (between_start hm fs) (le_refl _) hs
  refine ⟨fs', env, m', leaks, run, hb.frame, hb.rep, ?_, hb.rest⟩
  intro name c hc m2 hm2 hz2
  obtain ⟨img, g1, g2, g3⟩ := hb.stored name c hc
  obtain ⟨mi, v, w, i1, i2, i3, i4, i5, i6, i7, i8, run2, hv⟩ := load_exact other g3 hm2 hz2
  refine ⟨_, _, ?_, hv, frame_trans i2 (convMem_frame mi c.lay) (by omega)⟩
  unfold hmreadFile
  rw [g1, g2]
  exact run2

/-- **C114 refuted**: storage is lost.  After a program that has released all its cubes, two blocks are still allocated for every time it saved or read a cube. -/
theorem C114_refuted_leak (other : Text → Option FV) (ops : List FileOp) (st : Store) (d : Disk) (out : List Nat)
    (hs : filesMeaning [] [] ops = some (st, d, out)) (hall : ∀ x, st.get x = none) (fs : Files) (m : Mem) (hm : m.WF) (hz : ZeroLast m) :
    ∃ (fs' : Files) (env : List (Option Nat)) (m' : Mem) (leaks : List Nat), execFiles other fs [] ops m = .ok ((fs', env, out), m') ∧ leaks.Nodup ∧ leaks.length = 2 * fileCalls ops ∧
      ∀ h, m.next ≤ h → (m'.blk h ≠ none ↔ h ∈ leaks) := by
  obtain ⟨fs', env, m', leaks, run, hb, hl⟩ := files_run other hz ops (between_start hm fs) (le_refl _) hs
  refine ⟨fs', env, m', leaks, run, hb.nodup, by simpa using hl, ?_⟩
  intro h hh
  constructor
  · intro hne
    by_contra hc
    obtain ⟨x, c, p, hdr, e, _⟩ := hb.rep.blocks h (by rintro (h1 | h1); exacts [by omega, hc h1]) hne
    rw [hall x] at e; cases e
  · exact fun h1 => (hb.lost h h1).2

/-- **C114**.  What a program sees depends neither on the memory nor on the files it is started with. -/
theorem C114_output_determined_partial (other : Text → Option FV) (ops : List FileOp) (st : Store) (d : Disk) (out : List Nat)
    (hs : filesMeaning [] [] ops = some (st, d, out)) (fs1 fs2 : Files) (m1 m2 : Mem) (h1 : m1.WF) (h2 : m2.WF) (z1 : ZeroLast m1) (z2 : ZeroLast m2)
    {r1 r2 : Files × List (Option Nat) × List Nat} {m1' m2' : Mem} (e1 : execFiles other fs1 [] ops m1 = .ok (r1, m1'))
    (e2 : execFiles other fs2 [] ops m2 = .ok (r2, m2')) : r1.2.2 = r2.2.2 := by
  obtain ⟨_, _, _, _, g1, _⟩ := C114_programs_with_files_partial other ops st d out hs fs1 m1 h1 z1
  obtain ⟨_, _, _, _, g2, _⟩ := C114_programs_with_files_partial other ops st d out hs fs2 m2 h2 z2
  rw [e1] at g1
  rw [e2] at g2
  cases g1
  cases g2
  rfl

/-- **C114**.  A wavelength that six decimals determine is not changed by saving and reading. -/
theorem C114_wavelength_kept {bits : Nat} (hb : bits < 256 ^ 4) (h : SixDecimals (f32.decode bits)) : asPrinted bits = bits := by
  have e : asPrinted bits = f32.encode (readBack (f32.decode bits)) % 256 ^ 4 := by
    unfold asPrinted
    cases hd : f32.decode bits with
    | nan => rw [hd] at h; cases h
    | inf => rw [hd] at h; cases h
    | fin s q => rfl
  rw [e, readBack_eq (good_decode f32_std _) h]
  cases hd : f32.decode bits with
  | nan => rw [hd] at h; cases h
  | inf => rw [hd] at h; cases h
  | fin s q =>
    rw [encode_decode (F := f32) (by exact hb) hd, Nat.mod_eq_of_lt hb]

/-- a program: a cube with an element and the wavelength 500 is saved; the variable changes and is saved under another name; both files are read; the first file is
replaced; and so on -/
def someFileProgram : List FileOp :=
  [.cube (.create 3 2 2 12 .bil), .cube (.write 0 1 2 1 777), .cube (.writeWave 0 1 0x43FA0000), .save 0 "a".toList, .cube (.write 0 1 2 1 5),
   .save 0 "b".toList, .load "a".toList, .cube (.read 1 1 2 1), .cube (.readWave 1 1), .load "b".toList, .cube (.read 2 1 2 1),
   .cube (.convertIn 2 .bsq), .save 2 "a".toList, .cube (.delete 0), .cube (.delete 1), .cube (.delete 2), .load "a".toList, .cube (.read 3 1 2 1),
   .cube (.delete 3)]

example : (filesMeaning [] [] someFileProgram).map (fun r => (r.2.2, r.1.map (·.isSome), r.2.1.map (·.1)))
    = some ([777, 0x43FA0000, 5, 5], [false, false, false, false], ["a".toList, "b".toList, "a".toList]) ∧ fileCalls someFileProgram = 6 := by
  decide +kernel

/-- a wavelength that is changed: 2⁻²⁰ becomes 10⁻⁶ -/
example : asPrinted 0x35800000 = 0x358637BD := by decide +kernel

/-- a program without meaning: a file has the name of the header of another one -/
example : (filesMeaning [] [] [.cube (.create 3 2 2 12 .bil), .save 0 "a".toList, .save 0 "a.hdr".toList]).isNone = true := by decide +kernel

example : Mem.empty.WF ∧ ZeroLast Mem.empty := ⟨empty_WF, fun _ _ _ => rfl⟩

end HyperCV
