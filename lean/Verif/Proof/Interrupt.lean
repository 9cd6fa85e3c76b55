/- The actions of a save, and what is found after some of them. -/
import Verif.Proof.ClientFiles
import Verif.Spec.Interrupt

namespace HyperCV
open Spec

variable {m m0 m' : Mem} {env : List (Option Nat)} {st : Store}

/-- saving a cube: the files -/
theorem saved_of_cube {p : Nat} {c : CubeVal} (hv : HasValue m p c) (hpr : ∀ k, k < c.B → Printable (c.wave k) = true) (h20 : 20 * c.B ≤ 2147483647) :
    ∃ img, hmsave (some p) m = .ok ((img, headerText c), m) ∧ Saved img c := by
  obtain ⟨img, t1, t2, t3⟩ := save_run hv.1.1 hv.2.2.1 (by omega)
  exact ⟨img, t1, hv.1.1.size, hv.1.1.posS, hv.1.1.posL, hv.1.1.posB, hv.2.2, h20, t2, t3, hv.1.2, hv.2.1, hpr⟩

theorem set_self (s : Streams) (n : Text) (x : Content × Bool) : s.set n x n = some x := by simp [Streams.set]

theorem set_ne (s : Streams) {n k : Text} (x : Content × Bool) (h : k ≠ n) : s.set n x k = s k := by simp [Streams.set, h]

/-- the actions that save the image `img` with the header `txt` -/
def saveActs (name : Text) (img : List UInt8) (txt : Text) : List FileAct :=
  [.openImage name, .putImage name img, .openHeader (headerName name), .putHeader (headerName name) txt, .close (headerName name), .close name]

/-- the states of the two files during a save -/
theorem acts_states (s : Streams) (name : Text) (img : List UInt8) (txt : Text) (j : Nat) :
    runActs s ((saveActs name img txt).take j) = match j with
      | 0 => s
      | 1 => s.set name (.image [], true)
      | 2 => s.set name (.image img, true)
      | 3 => (s.set name (.image img, true)).set (headerName name) (.header [], true)
      | 4 => (s.set name (.image img, true)).set (headerName name) (.header txt, true)
      | 5 => (s.set name (.image img, true)).set (headerName name) (.header txt, false)
      | _ => (s.set name (.image img, false)).set (headerName name) (.header txt, false) := by
  have e1 : FileAct.run (s.set name (.image [], true)) (.putImage name img) = s.set name (.image img, true) := by
    simp only [FileAct.run, set_self, List.nil_append]
    funext n
    by_cases h : n = name <;> simp [Streams.set, h]
  have e2 : FileAct.run ((s.set name (.image img, true)).set (headerName name) (.header [], true)) (.putHeader (headerName name) txt)
      = (s.set name (.image img, true)).set (headerName name) (.header txt, true) := by
    simp only [FileAct.run, set_self, List.nil_append]
    funext n
    by_cases h : n = headerName name <;> simp [Streams.set, h]
  have e3 : FileAct.run ((s.set name (.image img, true)).set (headerName name) (.header txt, true)) (.close (headerName name))
      = (s.set name (.image img, true)).set (headerName name) (.header txt, false) := by
    simp only [FileAct.run, set_self]
    funext n
    by_cases h : n = headerName name <;> simp [Streams.set, h]
  have e4 : FileAct.run ((s.set name (.image img, true)).set (headerName name) (.header txt, false)) (.close name)
      = (s.set name (.image img, false)).set (headerName name) (.header txt, false) := by
    simp only [FileAct.run, set_ne _ _ (headerName_ne name), set_self]
    funext n
    by_cases h : n = name
    · subst h
      simp [Streams.set, headerName_ne]
    · by_cases h' : n = headerName name <;> simp [Streams.set, h, h', Ne.symm (headerName_ne name)]
  have e0 : FileAct.run s (.openImage name) = s.set name (.image [], true) := rfl
  have eh : ∀ s' : Streams, FileAct.run s' (.openHeader (headerName name)) = s'.set (headerName name) (.header [], true) := fun _ => rfl
  match j with
  | 0 => rfl
  | 1 => rfl
  | 2 => simp only [saveActs, List.take, runActs, List.foldl, e0, e1]
  | 3 => simp only [saveActs, List.take, runActs, List.foldl, e0, e1, eh]
  | 4 => simp only [saveActs, List.take, runActs, List.foldl, e0, e1, eh, e2]
  | 5 => simp only [saveActs, List.take, runActs, List.foldl, e0, e1, eh, e2, e3]
  | j + 6 =>
    rw [List.take_of_length_le (by simp [saveActs])]
    simp only [saveActs, runActs, List.foldl, e0, e1, eh, e2, e3, e4]

theorem acts_2 (s : Streams) (name : Text) (img : List UInt8) (txt : Text) : runActs s ((saveActs name img txt).take 2) = s.set name (.image img, true) :=
  acts_states s name img txt 2

theorem acts_3 (s : Streams) (name : Text) (img : List UInt8) (txt : Text) :
    runActs s ((saveActs name img txt).take 3) = (s.set name (.image img, true)).set (headerName name) (.header [], true) :=
  acts_states s name img txt 3

theorem acts_5 (s : Streams) (name : Text) (img : List UInt8) (txt : Text) :
    runActs s ((saveActs name img txt).take 5) = (s.set name (.image img, true)).set (headerName name) (.header txt, false) :=
  acts_states s name img txt 5

theorem acts_all (s : Streams) (name : Text) (img : List UInt8) (txt : Text) (j : Nat) :
    runActs s ((saveActs name img txt).take (j + 6)) = (s.set name (.image img, false)).set (headerName name) (.header txt, false) :=
  acts_states s name img txt (j + 6)

/-- the files that are not saved do not change -/
theorem acts_other (s : Streams) (name : Text) (img : List UInt8) (txt : Text) (j : Nat) {n : Text} (h1 : n ≠ name) (h2 : n ≠ headerName name) :
    runActs s ((saveActs name img txt).take j) n = s n := by
  rw [acts_states]
  split <;> simp only [set_ne _ _ h1, set_ne _ _ h2]

theorem found_closed {s : Streams} {fs fs' : Files} {n : Text} (hf : Found s fs') (h : s n = Streams.closed fs n) : fs' n = fs n := by
  have := hf n
  rw [h] at this
  unfold Streams.closed at this
  cases hn : fs n with
  | none => rw [hn] at this; exact this
  | some c => rw [hn] at this; exact this

/-- a cube whose two files are as they were can be read -/
theorem reads_of_stored (other : Text → Option FV) {fs fs' : Files} {n : Text} {c : CubeVal} (hs : Stored fs n c) (h1 : fs' n = fs n)
    (h2 : fs' (headerName n) = fs (headerName n)) : Reads other fs' n c := by
  intro m2 hm2 hz2
  obtain ⟨img, g1, g2, g3⟩ := hs
  obtain ⟨mi, v, w, i1, i2, i3, i4, i5, i6, i7, i8, run2, hv⟩ := load_exact other g3 hm2 hz2
  refine ⟨_, _, ?_, hv, frame_trans i2 (convMem_frame mi c.lay) (by omega)⟩
  unfold hmreadFile
  rw [h1, h2, g1, g2]
  exact run2

/-- the save of variable `x` under `name` in a state between two operations -/
theorem save_here {fs0 fs : Files} {d d' : Disk} {leaks : List Nat} {st' : Store} {x : Nat} {name : Text} {out : List Nat}
    (hb : Between m0 m fs0 fs env st d leaks) (hs : (FileOp.save x name).step st d = some (st', d', out)) :
    ∃ c p img, st.get x = some c ∧ ptr env x = some p ∧ HasValue m p c ∧ hmsave (some p) m = .ok ((img, headerText c), m) ∧ Saved img c ∧
      hmsaveActs name (ptr env x) m = .ok (saveActs name img (headerText c), m) ∧ d' = (name, c) :: d ∧ d.Apart name ∧
      hmsaveFile fs name (ptr env x) m = .ok ((fs.write name (.image img)).write (headerName name) (.header (headerText c)),
        (m.grow (name.length + 5) (m.junk m.next)).grow 4 (m.junk (m.next + 1))) := by
  simp only [FileOp.step] at hs
  cases hx : st.get x with
  | none => rw [hx] at hs; cases hs
  | some c =>
    rw [hx] at hs
    simp only [Option.bind_eq_bind, Option.bind_some] at hs
    split at hs
    · rename_i hc
      obtain ⟨hpr, h20, hap⟩ := hc
      cases hs
      obtain ⟨p, hp, hv, ho⟩ := hb.rep.cube x c hx
      obtain ⟨img, r1, r2⟩ := saved_of_cube hv hpr h20
      obtain ⟨img', txt', s1, _, s4⟩ := hmsaveFile_run hb.rep.wf hv.1.1 hv.2.2.1
      rw [r1] at s1
      cases s1
      refine ⟨c, p, img, rfl, ptr_some hp, hv, r1, r2, ?_, rfl, hap, ?_⟩
      · rw [ptr_some hp]
        unfold hmsaveActs
        rw [bind_ok r1]
        rfl
      · rw [ptr_some hp]
        exact s4 m hb.rep.wf (frame_refl m) fs name
    · cases hs

end HyperCV
