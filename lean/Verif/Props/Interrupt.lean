/- C115: programs that are stopped while they save a cube. -/
import Verif.Proof.Interrupt
import Verif.Props.ClientFiles

namespace HyperCV
open Spec

/-- **C115, partial**.  Every program that has a meaning and then saves a cube under `name`, and is stopped at any point of this (`j` actions with the files are
done, and of what was written to the open files any part is there): every cube that was saved under another name can be read as before; all files but the two with
this name are unchanged; if the save had not begun, all cubes can be read as before; if it was complete, all cubes can be read as the meaning says, and the files
are those that the save leaves behind.

Missing: that under `name` there is either the old or the new cube (`C115_refuted_mixed`, `C115_refuted_undefined`, `C115_refuted_uninitialised`). -/
theorem C115_stopped_save_partial (other : Text → Option FV) (ops : List FileOp) (x : Nat) (name : Text) {st st' : Store} {d d' : Disk} {out out' : List Nat}
    (hs : filesMeaning [] [] ops = some (st, d, out)) (hx : (FileOp.save x name).step st d = some (st', d', out'))
    (fs : Files) (m : Mem) (hm : m.WF) (hz : ZeroLast m) :
    ∃ fs1 env m1 acts fs2 m2, execFiles other fs [] ops m = .ok ((fs1, env, out), m1) ∧ hmsaveActs name (ptr env x) m1 = .ok (acts, m1) ∧
      hmsaveFile fs1 name (ptr env x) m1 = .ok (fs2, m2) ∧
      ∀ j fs', Found (runActs (Streams.closed fs1) (acts.take j)) fs' →
        (∀ n c, n ≠ name → d.get n = some c → Reads other fs' n c) ∧
        (∀ n, n ≠ name → n ≠ headerName name → fs' n = fs1 n) ∧
        (j = 0 → fs' = fs1 ∧ ∀ n c, d.get n = some c → Reads other fs' n c) ∧
        (acts.length ≤ j → fs' = fs2 ∧ ∀ n c, d'.get n = some c → Reads other fs' n c) := by
  obtain ⟨fs1, env, m1, leaks, run, hb, _⟩ := files_run other hz ops (between_start hm fs) (le_refl _) hs
  obtain ⟨c, p, img, a1, a2, a3, a4, a5, a6, a7, a8, a9⟩ := save_here hb hx
  refine ⟨fs1, env, m1, _, _, _, run, a6, a9, ?_⟩
  intro j fs' hf
  have oth : ∀ n, n ≠ name → n ≠ headerName name → fs' n = fs1 n := fun n h1 h2 => found_closed hf (acts_other _ _ _ _ _ h1 h2)
  have oldr : ∀ n c, n ≠ name → d.get n = some c → Reads other fs' n c := by
    intro n e hn he
    have hmem : ∃ e0 ∈ d, e0.1 = n := by
      obtain ⟨l1, l2, h, _⟩ := List.lookup_eq_some_iff.1 he
      exact ⟨(n, e), by rw [h]; simp, rfl⟩
    obtain ⟨e0, k1, k2⟩ := hmem
    obtain ⟨k3, k4⟩ := a8 e0 k1
    rw [k2] at k3 k4
    exact reads_of_stored other (hb.stored n e he) (oth n hn k3) (oth _ (Ne.symm k4) fun h => hn (headerName_inj h))
  refine ⟨oldr, oth, ?_, ?_⟩
  · rintro rfl
    have : fs' = fs1 := funext fun n => found_closed hf rfl
    subst this
    exact ⟨rfl, fun n c hc => reads_of_stored other (hb.stored n c hc) rfl rfl⟩
  · intro hj
    obtain ⟨j', rfl⟩ : ∃ j', j = j' + 6 := ⟨j - 6, by simp [saveActs] at hj; omega⟩
    rw [acts_all] at hf
    have f1 : fs' name = some (.image img) := by
      have := hf name
      rwa [set_ne _ _ (headerName_ne name), set_self] at this
    have f2 : fs' (headerName name) = some (.header (headerText c)) := by
      have := hf (headerName name)
      rwa [set_self] at this
    constructor
    · funext n
      by_cases h2 : n = headerName name
      · subst h2
        rw [f2, write_self]
      · rw [write_ne _ _ h2]
        by_cases h1 : n = name
        · subst h1
          rw [f1, write_self]
        · rw [write_ne _ _ h1, oth n h1 h2]
    · intro n e he
      by_cases hn : n = name
      · subst hn
        have : e = c := by
          rw [a7] at he
          simp [Disk.get, List.lookup] at he
          exact he.symm
        subst this
        exact reads_of_stored other ⟨img, f1, f2, a5⟩ rfl rfl
      · refine oldr n e hn ?_
        have hne : (n == name) = false := by simpa using hn
        rw [a7] at he
        simpa [Disk.get, List.lookup, hne] using he

/-- **C115 refuted**: two cubes are mixed.  If a cube is saved under the name of a cube with the same sizes, type and order, and the program is stopped when the
image is in its file and the header has not been opened, one reads a cube with the new elements and the old wavelengths. -/
theorem C115_refuted_mixed (other : Text → Option FV) (ops : List FileOp) (x : Nat) (name : Text) {st st' : Store} {d d' : Disk} {out out' : List Nat}
    (hs : filesMeaning [] [] ops = some (st, d, out)) (hx : (FileOp.save x name).step st d = some (st', d', out'))
    {old new : CubeVal} (ho : d.get name = some old) (hn : st.get x = some new)
    (same : old.S = new.S ∧ old.L = new.L ∧ old.B = new.B ∧ old.dt = new.dt ∧ old.lay = new.lay) (fs : Files) (m : Mem) (hm : m.WF) (hz : ZeroLast m) :
    ∃ fs1 env m1 acts j fs', execFiles other fs [] ops m = .ok ((fs1, env, out), m1) ∧ hmsaveActs name (ptr env x) m1 = .ok (acts, m1) ∧
      Found (runActs (Streams.closed fs1) (acts.take j)) fs' ∧ Reads other fs' name { new with wave := old.wave } := by
  obtain ⟨fs1, env, m1, leaks, run, hb, _⟩ := files_run other hz ops (between_start hm fs) (le_refl _) hs
  obtain ⟨c, p, img, a1, a2, a3, a4, a5, a6, a7, a8, a9⟩ := save_here hb hx
  rw [hn] at a1
  cases a1
  obtain ⟨img0, g1, g2, g3⟩ := hb.stored name old ho
  obtain ⟨q1, q2, q3, q4, q5⟩ := same
  refine ⟨fs1, env, m1, _, 2, fs1.write name (.image img), run, a6, ?_, ?_⟩
  · rw [acts_2]
    intro n
    by_cases h : n = name
    · subst h
      rw [set_self, write_self]
      exact ⟨img.length, by simp [cutAt]⟩
    · rw [set_ne _ _ h, write_ne _ _ h]
      unfold Streams.closed
      cases fs1 n <;> rfl
  · have hsv : Saved img { new with wave := old.wave } :=
      ⟨a5.size, a5.posS, a5.posL, a5.posB, a5.fits, a5.h20, a5.len, a5.elems, a5.bound, fun k hk => g3.wbound k (by rw [q3]; exact hk),
        fun k hk => g3.print k (by rw [q3]; exact hk)⟩
    have ht : headerText { new with wave := old.wave } = headerText old := by
      unfold headerText
      rw [q1, q2, q3, q4, q5]
      rfl
    exact reads_of_stored other (fs := fs1.write name (.image img)) ⟨img, write_self _ _ _, by rw [write_ne _ _ (Ne.symm (headerName_ne name)), g2, ht], hsv⟩ rfl rfl

/-- **C115 refuted**: reading has undefined behaviour.  If the program is stopped when the header has been opened, the old cube (if there was one) is lost, and
reading under this name uses variables that were never set. -/
theorem C115_refuted_undefined (other : Text → Option FV) (ops : List FileOp) (x : Nat) (name : Text) {st st' : Store} {d d' : Disk} {out out' : List Nat}
    (hs : filesMeaning [] [] ops = some (st, d, out)) (hx : (FileOp.save x name).step st d = some (st', d', out'))
    (fs : Files) (m : Mem) (hm : m.WF) (hz : ZeroLast m) :
    ∃ fs1 env m1 acts j fs', execFiles other fs [] ops m = .ok ((fs1, env, out), m1) ∧ hmsaveActs name (ptr env x) m1 = .ok (acts, m1) ∧
      Found (runActs (Streams.closed fs1) (acts.take j)) fs' ∧ ∀ m2, hmreadFile other fs' name (headerName name) m2 = .error (.ub .uninit) := by
  obtain ⟨fs1, env, m1, leaks, run, hb, _⟩ := files_run other hz ops (between_start hm fs) (le_refl _) hs
  obtain ⟨c, p, img, a1, a2, a3, a4, a5, a6, a7, a8, a9⟩ := save_here hb hx
  refine ⟨fs1, env, m1, _, 3, (fs1.write name (.image img)).write (headerName name) (.header []), run, a6, ?_, ?_⟩
  · rw [acts_3]
    intro n
    by_cases h2 : n = headerName name
    · subst h2
      rw [set_self, write_self]
      exact ⟨0, rfl⟩
    · rw [set_ne _ _ h2, write_ne _ _ h2]
      by_cases h : n = name
      · subst h
        rw [set_self, write_self]
        exact ⟨img.length, by simp [cutAt]⟩
      · rw [set_ne _ _ h, write_ne _ _ h]
        unfold Streams.closed
        cases fs1 n <;> rfl
  · intro m2
    unfold hmreadFile
    rw [write_self, write_ne _ _ (headerName_ne name), write_self]
    rfl

/-- **C115 refuted**: the elements are not initialised.  If the program is stopped before it has closed the image, the header may be complete and the image empty;
then one reads, without any error, a cube with the sizes and wavelengths of the new one, whose elements are what happened to be in the storage. -/
theorem C115_refuted_uninitialised (other : Text → Option FV) (ops : List FileOp) (x : Nat) (name : Text) {st st' : Store} {d d' : Disk} {out out' : List Nat}
    (hs : filesMeaning [] [] ops = some (st, d, out)) (hx : (FileOp.save x name).step st d = some (st', d', out'))
    {new : CubeVal} (hn : st.get x = some new) (fs : Files) (m : Mem) (hm : m.WF) (hz : ZeroLast m) :
    ∃ fs1 env m1 acts j fs', execFiles other fs [] ops m = .ok ((fs1, env, out), m1) ∧ hmsaveActs name (ptr env x) m1 = .ok (acts, m1) ∧
      Found (runActs (Streams.closed fs1) (acts.take j)) fs' ∧ ∀ m2 : Mem, m2.WF → ZeroLast m2 →
        ∃ q m3, hmreadFile other fs' name (headerName name) m2 = .ok (some q, m3) ∧ HasValue m3 q (new.uninitialised (m2.junk (m2.next + 4))).reread ∧ Frame m2 m3 := by
  obtain ⟨fs1, env, m1, leaks, run, hb, _⟩ := files_run other hz ops (between_start hm fs) (le_refl _) hs
  obtain ⟨c, p, img, a1, a2, a3, a4, a5, a6, a7, a8, a9⟩ := save_here hb hx
  rw [hn] at a1
  cases a1
  refine ⟨fs1, env, m1, _, 5, (fs1.write name (.image [])).write (headerName name) (.header (headerText new)), run, a6, ?_, ?_⟩
  · rw [acts_5]
    intro n
    by_cases h2 : n = headerName name
    · subst h2
      rw [set_self, write_self]
    · rw [set_ne _ _ h2, write_ne _ _ h2]
      by_cases h : n = name
      · subst h
        rw [set_self, write_self]
        exact ⟨0, rfl⟩
      · rw [set_ne _ _ h, write_ne _ _ h]
        unfold Streams.closed
        cases fs1 n <;> rfl
  · intro m2 hm2 hz2
    set N := new.S * new.L * new.B * new.E with hN
    have hg : ∀ i, i < N → (tab N (m2.junk (m2.next + 4))).getD i 0 = m2.junk (m2.next + 4) i := by
      intro i hi
      rw [List.getD_eq_getElem?_getD, tab_get? _ hi]
      rfl
    have hsv : Saved (tab N (m2.junk (m2.next + 4))) (new.uninitialised (m2.junk (m2.next + 4))) := by
      refine ⟨a5.size, a5.posS, a5.posL, a5.posB, a5.fits, a5.h20, tab_length _ _, ?_, ?_, a5.wbound, a5.print⟩
      · intro i j k t hi hj hk ht
        replace ht : t < new.E := ht
        replace hi : i < new.L := hi
        replace hj : j < new.S := hj
        replace hk : k < new.B := hk
        have hb : new.lay.pos new.S new.L new.B i j k * new.E + t < N := by
          have := byte_lt new.lay (E := new.E) hi hj hk; omega
        show (tab N (m2.junk (m2.next + 4))).getD (new.lay.pos new.S new.L new.B i j k * new.E + t) 0 = leByte (leNat (tab new.E fun t => _)) t
        rw [leByte_leNat _ ht, hg _ hb]
      · intro i j k hi hj hk
        have := leNat_lt (tab new.E fun t => m2.junk (m2.next + 4) (new.lay.pos new.S new.L new.B i j k * new.E + t))
        rwa [tab_length] at this
    obtain ⟨mi, v, w, i1, i2, i3, i4, i5, i6, i7, i8, run2, hv⟩ := load_part other (file := []) hsv hm2 hz2 (by
      intro i hi
      rw [hg i hi]
      simp)
    refine ⟨_, _, ?_, hv, frame_trans i2 (convMem_frame mi _) (by omega)⟩
    unfold hmreadFile
    rw [write_self, write_ne _ _ (headerName_ne name), write_self]
    exact run2

/-- **C115**.  If there was no header of this name and the program is stopped before it opens the header, reading reports that the file cannot be opened. -/
theorem C115_no_header (other : Text → Option FV) (fs fs' : Files) (name : Text) (mat : Option Nat) {m m1 m2 : Mem} {acts : List FileAct}
    (hno : fs (headerName name) = none) (ha : hmsaveActs name mat m = .ok (acts, m1)) {j : Nat} (hj : j ≤ 2)
    (hf : Found (runActs (Streams.closed fs) (acts.take j)) fs') : ∃ m3, hmreadFile other fs' name (headerName name) m2 = .ok (none, m3) := by
  have h0 : fs' (headerName name) = none := by
    have e : ∃ img txt, acts = saveActs name img txt := by
      unfold hmsaveActs at ha
      cases hr : hmsave mat m with
      | error e => rw [bind_err hr] at ha; cases ha
      | ok r =>
        rw [bind_ok hr] at ha
        cases ha
        exact ⟨_, _, rfl⟩
    obtain ⟨img, txt, rfl⟩ := e
    rw [acts_states] at hf
    rw [← hno]
    refine found_closed hf ?_
    have hne := Ne.symm (headerName_ne name)
    match j, hj with
    | 0, _ => rfl
    | 1, _ => exact set_ne _ _ hne
    | 2, _ => exact set_ne _ _ hne
  unfold hmreadFile
  rw [h0]
  unfold hmread_with_hdr
  rw [bind_ok (malloc_run _ _)]
  dsimp only
  cases fs' name with
  | none => exact ⟨_, rfl⟩
  | some c => cases c <;> exact ⟨_, rfl⟩

/-- a program that saves a cube and changes the variable (an element and a wavelength); then it saves it again under the same name -/
def replaceProgram : List FileOp :=
  [.cube (.create 3 2 2 12 .bil), .cube (.write 0 1 2 1 777), .cube (.writeWave 0 1 0x43FA0000), .save 0 "a".toList, .save 0 "b".toList,
    .cube (.write 0 1 2 1 5), .cube (.writeWave 0 1 0x44000000)]

/-- the old cube, the new cube and the one that is read when they are mixed are three different cubes -/
example : ((filesMeaning [] [] replaceProgram).bind fun r => do
      let old ← r.2.1.get "a".toList
      let new ← r.1.get 0
      let mixed := { new with wave := old.wave }
      let _ ← (FileOp.save 0 "a".toList).step r.1 r.2.1
      some [(old.elem 1 2 1, asPrinted (old.wave 1)), (new.elem 1 2 1, asPrinted (new.wave 1)), (mixed.elem 1 2 1, asPrinted (mixed.wave 1))])
    = some [(777, 0x43FA0000), (5, 0x44000000), (5, 0x43FA0000)] := by
  decide +kernel

end HyperCV
