/- C120: cubes survive any number of programs that are stopped. -/
import Verif.Proof.Work
import Verif.Proof.Interrupt
import Verif.Model.History

namespace HyperCV
open Spec

variable {m m0 : Mem} {envC envI : List (Option Nat)} {st : Store} {im : Images}

/-! ### Helper lemmas -/

/-- the save of variable `x` under `name` in a state between two operations -/
theorem workSave_acts {fs0 fs : Files} {d d' : Disk} {leaks : List Nat} {st' : Store} {x : Nat} {name : Text} {out : List Nat}
    (hb : Working m0 m fs0 fs envC st envI im d leaks) (hs : (FileOp.save x name).step st d = some (st', d', out)) :
    ∃ c img, st.get x = some c ∧ Saved img c ∧ hmsaveActs name (ptr envC x) m = .ok (saveActs name img (headerText c), m) ∧ d.Apart name := by
  simp only [FileOp.step] at hs
  cases hx : st.get x with
  | none => rw [hx] at hs; cases hs
  | some c =>
    rw [hx] at hs
    simp only [Option.bind_eq_bind, Option.bind_some] at hs
    split at hs
    · rename_i hc
      obtain ⟨hpr, h20, hap⟩ := hc
      obtain ⟨p, hp, hv, _⟩ := hb.rep.cubes.cube x c hx
      obtain ⟨img, r1, r2⟩ := saved_of_cube hv hpr h20
      refine ⟨c, img, rfl, r2, ?_, hap⟩
      rw [ptr_some hp]
      unfold hmsaveActs
      rw [bind_ok r1]
      rfl
    · cases hs

theorem without_get {d : Disk} {name n : Text} {c : CubeVal} (h : (d.without name).get n = some c) : n ≠ name ∧ d.get n = some c := by
  unfold Disk.without Disk.get at *
  induction d with
  | nil => cases h
  | cons e d ih =>
    obtain ⟨a, b⟩ := e
    rw [List.filter_cons] at h
    by_cases ha : a = name
    · subst ha
      simp only [ne_eq, not_true_eq_false, decide_false, Bool.false_eq_true, if_false] at h
      obtain ⟨h1, h2⟩ := ih h
      refine ⟨h1, ?_⟩
      have : (n == a) = false := by simpa using h1
      rw [List.lookup_cons, this]
      exact h2
    · simp only [ne_eq, ha, not_false_eq_true, decide_true, if_true] at h
      rw [List.lookup_cons] at h ⊢
      by_cases hn : n = a
      · subst hn
        simp only [beq_self_eq_true] at h ⊢
        exact ⟨ha, h⟩
      · have : (n == a) = false := by simpa using hn
        rw [this] at h ⊢
        exact ih h

theorem get_mem {d : Disk} {n : Text} {c : CubeVal} (h : d.get n = some c) : (n, c) ∈ d := by
  obtain ⟨l1, l2, e, _⟩ := List.lookup_eq_some_iff.1 h
  rw [e]
  simp

/-- a program that finds the cubes `d` -/
theorem work_start_disk (hm : m.WF) {fs : Files} {d : Disk} (hst : ∀ n c, d.get n = some c → Stored fs n c) : Working m m fs fs [] [] [] [] d [] := by
  obtain ⟨h1, h2, h3, h4, h5, h6, h7, h8, _, _⟩ := work_start hm fs
  exact ⟨h1, h2, h3, h4, h5, h6, h7, h8, hst, fun _ _ => rfl⟩

/-- a save that is stopped does not touch the other cubes -/
theorem stopped_keeps {fs0 fs : Files} {d d' : Disk} {leaks : List Nat} {st' : Store} {x : Nat} {name : Text} {out : List Nat}
    (hb : Working m0 m fs0 fs envC st envI im d leaks) (hs : (FileOp.save x name).step st d = some (st', d', out)) {acts : List FileAct} {m2 : Mem}
    (ha : hmsaveActs name (ptr envC x) m = .ok (acts, m2)) {j : Nat} {fs' : Files} (hf : Found (runActs (Streams.closed fs) (acts.take j)) fs') :
    ∀ n c, (d.without name).get n = some c → Stored fs' n c := by
  obtain ⟨c0, img0, _, _, a3, a4⟩ := workSave_acts hb hs
  rw [a3] at ha
  cases ha
  have oth : ∀ n, n ≠ name → n ≠ headerName name → fs' n = fs n := fun n h1 h2 => found_closed hf (acts_other _ _ _ _ _ h1 h2)
  intro n c hc
  obtain ⟨h1, h2⟩ := without_get hc
  obtain ⟨img, g1, g2, g3⟩ := hb.stored n c h2
  obtain ⟨k3, k4⟩ := a4 _ (get_mem h2)
  exact ⟨img, (oth n h1 k3).trans g1, (oth _ (Ne.symm k4) fun h => h1 (headerName_inj h)).trans g2, g3⟩

theorem run_leads (other : Text → Option FV) {r : Run} {d d' : Disk} {out out' : List Nat} {fs fs' : Files} (hs : r.meaning d = some (d', out))
    (hst : ∀ n c, d.get n = some c → Stored fs n c) (h : RunLeads other r fs fs' out') : out' = out ∧ ∀ n c, d'.get n = some c → Stored fs' n c := by
  obtain ⟨m, ⟨hm, hz, ha⟩, fs1, envC, envI, m1, run, hend⟩ := h
  unfold Run.meaning at hs
  cases h1 : workMeaning [] [] d r.ops with
  | none => rw [h1] at hs; cases hs
  | some q =>
    obtain ⟨st, im, d1, o1⟩ := q
    rw [h1] at hs
    simp only [Option.bind_eq_bind, Option.bind_some] at hs
    obtain ⟨fs2, c2, i2, m2, leaks, run2, hb, _⟩ := work_run other hz ha r.ops (work_start_disk hm hst) h1
    rw [run] at run2
    cases run2
    cases h2 : r.stopped with
    | none =>
      rw [h2] at hs hend
      cases hs
      subst hend
      exact ⟨rfl, hb.stored⟩
    | some xn =>
      obtain ⟨x, name⟩ := xn
      rw [h2] at hs hend
      simp only at hs hend
      obtain ⟨acts, m3, j, h3, h4⟩ := hend
      cases h5 : (FileOp.save x name).step st d1 with
      | none => rw [h5] at hs; cases hs
      | some q =>
        obtain ⟨s3, d3, o3⟩ := q
        rw [h5] at hs
        simp only [Option.bind_some] at hs
        cases hs
        exact ⟨rfl, stopped_keeps hb h5 h3 h4⟩

theorem history_leads (other : Text → Option FV) (rs : List Run) : ∀ {d d' : Disk} {outs outs' : List (List Nat)} {fs fs' : Files},
    historyMeaning d rs = some (d', outs) → (∀ n c, d.get n = some c → Stored fs n c) → HistoryLeads other rs fs fs' outs' →
    outs' = outs ∧ ∀ n c, d'.get n = some c → Stored fs' n c := by
  induction rs with
  | nil =>
    intro d d' outs outs' fs fs' hs hst h
    cases hs
    obtain ⟨rfl, rfl⟩ := h
    exact ⟨rfl, hst⟩
  | cons r rs ih =>
    intro d d' outs outs' fs fs' hs hst h
    obtain ⟨fs1, out, outs1, h1, h2, rfl⟩ := h
    unfold historyMeaning at hs
    cases h3 : r.meaning d with
    | none => rw [h3] at hs; cases hs
    | some q =>
      obtain ⟨d1, o1⟩ := q
      rw [h3] at hs
      simp only [Option.bind_eq_bind, Option.bind_some] at hs
      cases h4 : historyMeaning d1 rs with
      | none => rw [h4] at hs; cases hs
      | some q =>
        obtain ⟨d2, o2⟩ := q
        rw [h4] at hs
        cases hs
        obtain ⟨rfl, k2⟩ := run_leads other h3 hst h1
        obtain ⟨rfl, k4⟩ := ih h4 k2 h2
        exact ⟨rfl, k4⟩

/-- a run that has a meaning comes to its end, or to the save during which it is stopped -/
theorem run_possible (other : Text → Option FV) {r : Run} {d d' : Disk} {out : List Nat} {fs : Files} (hr : r.meaning d = some (d', out))
    (hst : ∀ n c, d.get n = some c → Stored fs n c) {m : Mem} (hm : StartsIn m) :
    ∃ fs1 envC envI m1, execWorkAll other fs [] [] r.ops m = .ok ((fs1, envC, envI, out), m1) ∧
      ∀ x name, r.stopped = some (x, name) → ∃ acts, hmsaveActs name (ptr envC x) m1 = .ok (acts, m1) ∧ acts.length = 6 := by
  obtain ⟨hw, hz, ha⟩ := hm
  unfold Run.meaning at hr
  cases h1 : workMeaning [] [] d r.ops with
  | none => rw [h1] at hr; cases hr
  | some q =>
    obtain ⟨st, im, d1, o1⟩ := q
    rw [h1] at hr
    simp only [Option.bind_eq_bind, Option.bind_some] at hr
    obtain ⟨fs2, c2, i2, m2, leaks, run2, hb, _⟩ := work_run other hz ha r.ops (work_start_disk hw hst) h1
    cases h2 : r.stopped with
    | none =>
      rw [h2] at hr
      cases hr
      exact ⟨fs2, c2, i2, m2, run2, fun _ _ e => by cases e⟩
    | some xn =>
      obtain ⟨x, name⟩ := xn
      rw [h2] at hr
      simp only at hr
      cases h5 : (FileOp.save x name).step st d1 with
      | none => rw [h5] at hr; cases hr
      | some q =>
        obtain ⟨s3, d3, o3⟩ := q
        rw [h5] at hr
        simp only [Option.bind_some] at hr
        cases hr
        refine ⟨fs2, c2, i2, m2, run2, ?_⟩
        intro x' name' e
        cases e
        obtain ⟨c, img, _, _, a3, _⟩ := workSave_acts hb h5
        exact ⟨_, a3, rfl⟩

theorem found_all (fs : Files) : Found (Streams.closed fs) fs := by
  intro n
  unfold Streams.closed
  cases fs n <;> rfl

theorem history_happens (other : Text → Option FV) {m : Mem} (hm : StartsIn m) (rs : List Run) : ∀ {d d' : Disk} {outs : List (List Nat)} {fs : Files},
    historyMeaning d rs = some (d', outs) → (∀ n c, d.get n = some c → Stored fs n c) → ∃ fs', HistoryLeads other rs fs fs' outs := by
  induction rs with
  | nil =>
    intro d d' outs fs hs hst
    cases hs
    exact ⟨fs, rfl, rfl⟩
  | cons r rs ih =>
    intro d d' outs fs hs hst
    unfold historyMeaning at hs
    cases h3 : r.meaning d with
    | none => rw [h3] at hs; cases hs
    | some q =>
      obtain ⟨d1, o1⟩ := q
      rw [h3] at hs
      simp only [Option.bind_eq_bind, Option.bind_some] at hs
      cases h4 : historyMeaning d1 rs with
      | none => rw [h4] at hs; cases hs
      | some q =>
        obtain ⟨d2, o2⟩ := q
        rw [h4] at hs
        cases hs
        obtain ⟨fs1, envC, envI, m1, run, hact⟩ := run_possible other h3 hst hm
        have hl : RunLeads other r fs fs1 o1 := by
          refine ⟨m, hm, fs1, envC, envI, m1, run, ?_⟩
          split
          · rfl
          · rename_i x name e
            obtain ⟨acts, h5, _⟩ := hact x name e
            exact ⟨acts, m1, 0, h5, found_all fs1⟩
        obtain ⟨_, k2⟩ := run_leads other h3 hst hl
        obtain ⟨fs', h6⟩ := ih h4 k2
        exact ⟨fs', fs1, o1, o2, hl, h6, rfl⟩

/-! ### The theorems -/

/-- **C120, partial**.  Any number of programs run one after another, each of them with the files that the one before has left; any of them may have been stopped at
any point of a save.  Every program saw exactly the values that the meaning of the history says, whatever the stopped saves have left in the files; every cube that
can be relied upon (it was saved completely, and no later save under its name was stopped) can be read in every memory, with the values that were saved; and every
further program that has a meaning with these cubes runs to its end, without undefined behaviour, and sees what its meaning says.

Missing: that a cube is still there, old or new, if a save under its name was stopped (`C120_refuted_undefined`), memories that are not as `StartsIn` says
(`C14_refuted`, `C108_refuted`). -/
theorem C120_history_partial (other : Text → Option FV) (rs : List Run) (d : Disk) (outs : List (List Nat)) (hs : historyMeaning [] rs = some (d, outs))
    (fs fs' : Files) (outs' : List (List Nat)) (h : HistoryLeads other rs fs fs' outs') :
    outs' = outs ∧ (∀ name c, d.get name = some c → Reads other fs' name c) ∧
    ∀ (ops : List WorkOp) (st : Store) (im : Images) (d' : Disk) (out : List Nat), workMeaning [] [] d ops = some (st, im, d', out) → ∀ m, StartsIn m →
      ∃ (fs2 : Files) (envC envI : List (Option Nat)) (m' : Mem) (leaks : List Nat), execWorkAll other fs' [] [] ops m = .ok ((fs2, envC, envI, out), m') ∧
        Frame m m' ∧ RepresentsBeside (fun h => h < m.next ∨ h ∈ leaks) m' m' envC st envI im ∧ ∀ name c, d'.get name = some c → Reads other fs2 name c := by
  obtain ⟨h1, h2⟩ := history_leads other rs hs (fun _ _ e => by cases e) h
  refine ⟨h1, fun name c hc => reads_of_stored other (h2 name c hc) rfl rfl, ?_⟩
  intro ops st im d' out hm m ⟨hw, hz, ha⟩
  obtain ⟨fs2, envC, envI, m', leaks, run, hb, _⟩ := work_run other hz ha ops (work_start_disk hw h2) hm
  exact ⟨fs2, envC, envI, m', leaks, run, hb.frame, hb.rep, fun name c hc => reads_of_stored other (hb.stored name c hc) rfl rfl⟩

/-- **C120**.  In every choice of memories, the next run always comes to its end or to the point where it is stopped; the save has six actions, and it can be stopped
after each of them. -/
theorem C120_possible (other : Text → Option FV) (rs : List Run) (d : Disk) (outs : List (List Nat)) (hs : historyMeaning [] rs = some (d, outs))
    (r : Run) (d' : Disk) (out : List Nat) (hr : r.meaning d = some (d', out)) (fs fs' : Files) (h : HistoryLeads other rs fs fs' outs) (m : Mem) (hm : StartsIn m) :
    ∃ fs1 envC envI m1, execWorkAll other fs' [] [] r.ops m = .ok ((fs1, envC, envI, out), m1) ∧
      ∀ x name, r.stopped = some (x, name) → ∃ acts, hmsaveActs name (ptr envC x) m1 = .ok (acts, m1) ∧ acts.length = 6 := by
  obtain ⟨_, hst⟩ := history_leads other rs hs (fun _ _ e => by cases e) h
  exact run_possible other hr hst hm

/-- **C120**.  Every history that has a meaning happens, whatever is in the files before. -/
theorem C120_happens (other : Text → Option FV) (rs : List Run) (d : Disk) (outs : List (List Nat)) (hs : historyMeaning [] rs = some (d, outs)) (fs : Files)
    (m : Mem) (hm : StartsIn m) : ∃ fs', HistoryLeads other rs fs fs' outs :=
  history_happens other hm rs hs (fun _ _ e => by cases e)

/-- **C120 refuted**: after every history, a run that is stopped during a save may leave behind files with which reading under this name has undefined behaviour, even
if there was a cube with this name before. -/
theorem C120_refuted_undefined (other : Text → Option FV) (rs : List Run) (d : Disk) (outs : List (List Nat)) (hs : historyMeaning [] rs = some (d, outs))
    (ops : List WorkOp) (x : Nat) (name : Text) (d' : Disk) (out : List Nat) (hr : (Run.mk ops (some (x, name))).meaning d = some (d', out))
    (fs fs' : Files) (h : HistoryLeads other rs fs fs' outs) (m : Mem) (hm : StartsIn m) :
    ∃ fs2, RunLeads other (Run.mk ops (some (x, name))) fs' fs2 out ∧ ∀ m2, hmreadFile other fs2 name (headerName name) m2 = .error (.ub .uninit) := by
  obtain ⟨fs1, envC, envI, m1, run, hact⟩ := C120_possible other rs d outs hs _ d' out hr fs fs' h m hm
  obtain ⟨acts, ha, _⟩ := hact x name rfl
  have e : ∃ img txt, acts = saveActs name img txt := by
    unfold hmsaveActs at ha
    cases hq : hmsave (ptr envC x) m1 with
    | error e => rw [bind_err hq] at ha; cases ha
    | ok r =>
      rw [bind_ok hq] at ha
      cases ha
      exact ⟨_, _, rfl⟩
  obtain ⟨img, txt, rfl⟩ := e
  refine ⟨(fs1.write name (.image img)).write (headerName name) (.header []), ⟨m, hm, fs1, envC, envI, m1, run, _, _, 3, ha, ?_⟩, ?_⟩
  · rw [acts_3]
    intro n
    by_cases h2 : n = headerName name
    · subst h2
      rw [set_self, write_self]
      exact ⟨0, rfl⟩
    · rw [set_ne _ _ h2, write_ne _ _ h2]
      by_cases h : n = name
      · subst h
        rw [set_self, write_self]
        exact ⟨img.length, by simp [cutAt]⟩
      · rw [set_ne _ _ h, write_ne _ _ h]
        unfold Streams.closed
        cases fs1 n <;> rfl
  · intro m2
    unfold hmreadFile
    rw [write_self, write_ne _ _ (headerName_ne name), write_self]
    rfl

/-- a history: the first run saves two cubes; the second reads one, changes it, is stopped while it saves it again under the name of the first; the third reads the
other, and is stopped while it saves a third one; the fourth saves the first one again -/
def someHistory : List Run :=
  [{ ops := [.session (.cube (.create 3 2 2 1 .bsq)), .session (.cube (.write 0 1 2 1 77)), .save 0 "a".toList, .session (.cube (.write 0 1 2 1 78)), .save 0 "b".toList] },
   { ops := [.load "a".toList, .session (.cube (.read 0 1 2 1)), .session (.cube (.write 0 0 0 0 5))], stopped := some (0, "a".toList) },
   { ops := [.load "b".toList, .session (.cube (.read 0 1 2 1))], stopped := some (0, "c".toList) },
   { ops := [.load "b".toList, .session (.cube (.read 0 1 2 1)), .save 0 "a".toList, .load "a".toList, .session (.cube (.read 1 1 2 1))] }]

example : (historyMeaning [] someHistory).map (fun r => (r.1.map (·.1), r.2)) = some (["a".toList, "b".toList], [[], [77], [78], [78, 78]]) := by
  decide +kernel

/-- after the second run, "a" cannot be relied upon: reading it has no meaning -/
example : (historyMeaning [] (someHistory.take 2 ++ [{ ops := [.load "a".toList] }])).isNone = true := by decide +kernel

example : StartsIn Mem.empty := ⟨empty_WF, fun _ _ _ => rfl, fun _ => ⟨rfl, by show 0 % 64 ≠ 48; decide⟩⟩

/-- the history happens -/
example (other : Text → Option FV) (fs : Files) : ∃ fs' outs, HistoryLeads other someHistory fs fs' outs := by
  have he : (historyMeaning [] someHistory).isSome = true := by decide +kernel
  obtain ⟨⟨d', outs⟩, hr⟩ := Option.isSome_iff_exists.1 he
  obtain ⟨fs', h⟩ := C120_happens other someHistory d' outs hr fs Mem.empty ⟨empty_WF, fun _ _ _ => rfl, fun _ => ⟨rfl, by show 0 % 64 ≠ 48; decide⟩⟩
  exact ⟨fs', outs, h⟩

end HyperCV
