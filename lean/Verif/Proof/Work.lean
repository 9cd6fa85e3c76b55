/- Programs that use cubes, images and files together: every operation does what its meaning says. -/
import Verif.Model.Work
import Verif.Proof.Session
import Verif.Props.ClientFiles
import Verif.Props.Gradient
import Verif.Props.ByteAdd
import Verif.Props.Splicing

namespace HyperCV
open Spec

variable {others old : Nat → Prop} {m0 m m' : Mem} {env envC envI : List (Option Nat)} {st st' : Store} {im im' : Images}

/-! ### Storage that nobody owns -/

/-- blocks that nobody owns appear beside the images -/
theorem images_more (hr : RepresentsImages others m0 m env im) (hf : Frame m m') (hw : m'.WF) (hn : m.next ≤ m'.next) (hhm : m'.hm = m.hm)
    (hsm : m'.sm = m.sm) {P : Nat → Prop} (hP : ∀ h, P h → m.next ≤ h ∧ h < m'.next) (hb : ∀ h, m.next ≤ h → m'.blk h ≠ none → P h) :
    RepresentsImages (fun h => others h ∨ P h) m' m' env im := by
  have ow : ∀ p x, OwnsImg m' p x ↔ OwnsImg m p x := fun p x => ownsImg_congr (by rw [hsm]) x
  refine ⟨hw, ?_, fun _ _ => ⟨rfl, rfl, rfl⟩, rfl, hr.same, ?_, ?_, ?_, ?_, ?_⟩
  · rintro h (hh | hh)
    · exact (hr.later h hh).trans_le hn
    · exact (hP h hh).2
  · intro x c hx
    obtain ⟨p, e, hv, ho⟩ := hr.image x c hx
    have hlt := ownsImg_lt hr.wf hv
    refine ⟨p, e, image_owned hv (fun y hy => ⟨(hf y (hlt y hy)).1, (hf y (hlt y hy)).2.2⟩), ?_⟩
    intro h hh
    rw [ow] at hh
    rintro (h1 | h1)
    · exact ho h hh h1
    · have := hlt h hh
      have := (hP h h1).1
      omega
  · intro x y c d p q hxy hx hy hp hq z hz
    rw [ow, ow] at hz
    exact hr.apart x y c d p q hxy hx hy hp hq z hz
  · intro h h0 hb'
    by_cases hl : h < m.next
    · rw [(hf h hl).1] at hb'
      obtain ⟨x, c, p, e1, e2, e3⟩ := hr.blocks h (fun h1 => h0 (Or.inl h1)) hb'
      refine ⟨x, c, p, e1, e2, ?_⟩
      unfold PixelBlock
      rw [hsm]
      exact e3
    · exact absurd (Or.inr (hb h (by omega) hb')) h0
  · intro h h0 hb'
    rw [hsm] at hb'
    exact hr.headers h (fun h1 => h0 (Or.inl h1)) hb'
  · intro h h0
    rw [hhm]
    exact hr.cubes h (fun h1 => h0 (Or.inl h1))

theorem or_right_swap (P Q R : Nat → Prop) : (fun h => (P h ∨ Q h) ∨ R h) = fun h => (P h ∨ R h) ∨ Q h := by
  funext h
  apply propext
  tauto

/-- blocks that nobody owns appear beside cubes and images -/
theorem beside_more (hr : RepresentsBeside old m0 m envC st envI im) (hf : Frame m m') (hw : m'.WF) (hn : m.next ≤ m'.next) (hhm : m'.hm = m.hm)
    (hsm : m'.sm = m.sm) {P : Nat → Prop} (hP : ∀ h, P h → m.next ≤ h ∧ h < m'.next) (hb : ∀ h, m.next ≤ h → m'.blk h ≠ none → P h) :
    RepresentsBeside (fun h => old h ∨ P h) m' m' envC st envI im := by
  refine ⟨fun _ _ => ⟨rfl, rfl, rfl⟩, rfl, ?_, ?_⟩
  · have e : (fun h => (old h ∨ P h) ∨ OfImages m' envI im h) = fun h => (old h ∨ OfImages m envI im h) ∨ P h := by
      rw [or_right_swap]
      funext h
      rw [of_images_kept (m := m) (m' := m') (fun x _ => by rw [hsm])]
    rw [e]
    exact represents_more hr.cubes hf hw hn hhm hsm hP hb
  · have e : (fun h => (old h ∨ P h) ∨ OfCubes m' envC st h) = fun h => (old h ∨ OfCubes m envC st h) ∨ P h := by
      rw [or_right_swap]
      funext h
      rw [of_cubes_kept (m := m) (m' := m') (fun x _ => by rw [hhm])]
    rw [e]
    exact images_more hr.images hf hw hn hhm hsm hP hb

theorem beside_rebase (hr : RepresentsBeside old m0 m envC st envI im) : RepresentsBeside old m m envC st envI im :=
  ⟨fun _ _ => ⟨rfl, rfl, rfl⟩, rfl, hr.cubes, hr.images⟩

/-! ### The new operations -/

theorem addImages_step {p q r : Nat} {a b c : ImgVal} (ha : HasImage m p a) (hb : HasImage m q b) (hc : HasImage m r c) (e1 : a.R = c.R) (e2 : a.C = c.C)
    (e3 : a.dt = 1) (e4 : b.R = c.R) (e5 : b.C = c.C) (e6 : b.dt = 1) (e7 : c.dt = 1) :
    ∃ m', simple_mat_addition_uchar (some p) (some q) (some r) m = .ok ((), m') ∧
      HasImage m' r { c with px := fun i j => (a.px i j + b.px i j) % 256 } ∧ OnlyPixels m m' r := by
  obtain ⟨a1, a2⟩ := hasImage8 ha e3
  obtain ⟨b1, b2⟩ := hasImage8 hb e6
  obtain ⟨c1, c2⟩ := hasImage8 hc e7
  have sa : ∀ i j, i < c.R → j < c.C → a.px i j < 256 := by
    intro i j hi hj
    have := ha.2.1 i j (by omega) (by omega)
    rw [a1] at this
    simpa using this
  have sb : ∀ i j, i < c.R → j < c.C → b.px i j < 256 := by
    intro i j hi hj
    have := hb.2.1 i j (by omega) (by omega)
    rw [b1] at this
    simpa using this
  have hN := image_size hc
  rw [e1, e2] at a2
  rw [e4, e5] at b2
  obtain ⟨m', out, run, k1, k2, k3, _⟩ := C117_addition_partial ⟨a2, b2, c2, by omega, by rw [Nat.mul_one]; omega⟩
  refine ⟨m', run, hasImage_of8 e7 c1 hc.2.2.1 k1 ?_ (inl_only hc k2), k2⟩
  intro i j hi hj
  simp only at hi hj ⊢
  rw [(k3 i j 0 hi hi hj (by decide)).1, toNat_ofNat_lt (sa i j hi hj), toNat_ofNat_lt (sb i j hi hj)]

theorem edges_step {p q : Nat} {a c : ImgVal} (e : Extension) (t : Int) (ha : HasImage m p a) (hc : HasImage m q c) (hs : SepPixels m p q)
    (e1 : a.R = c.R) (e2 : a.C = c.C) (e3 : a.dt = 1) (e4 : c.dt = 1) :
    ∃ m', hypercv_sobel (some p) (some q) t e.code m = .ok ((), m') ∧
      HasImage m' q { c with px := fun i j => if (max (sobelDx e a.R a.C a.bytes i j).natAbs (sobelDy e a.R a.C a.bytes i j).natAbs : Int) > t then 255 else 0 } ∧
      OnlyPixels m m' q := by
  obtain ⟨a1, a2⟩ := hasImage8 ha e3
  obtain ⟨c1, c2⟩ := hasImage8 hc e4
  have hN := image_size hc
  rw [← e1, ← e2] at c2
  obtain ⟨m', run, k1, k2⟩ := C36_sobel e t a2 c2 hs (by rw [e1, e2]; omega)
  rw [e1, e2] at k1
  refine ⟨m', run, hasImage_of8 e4 c1 hc.2.2.1 k1 ?_ (inl_only hc k2), k2⟩
  intro i j hi hj
  simp only
  rw [e1, e2, Int.natCast_natAbs, Int.natCast_natAbs]
  show _ = (if max |sobelDx e c.R c.C a.bytes i j| |sobelDy e c.R c.C a.bytes i j| > t then (255 : UInt8) else 0).toNat
  split <;> rfl

theorem limit_clamp (z : Int) : (limit z : Int) = clamp 0 255 z := by
  unfold limit clamp
  split_ifs <;> omega

theorem laplacian_step {p q : Nat} {a c : ImgVal} (e : Extension) (twice : Bool) (ha : HasImage m p a) (hc : HasImage m q c) (hs : SepPixels m p q)
    (e1 : a.R = c.R) (e2 : a.C = c.C) (e3 : a.dt = 1) (e4 : c.dt = 1) :
    ∃ m', hypercv_laplacian (some p) (some q) (if twice then 2 else 1) e.code m = .ok ((), m') ∧
      HasImage m' q { c with px := fun i j => limit ((if twice then 2 else 1) * laplace e a.R a.C a.bytes i j) } ∧
      OnlyPixels m m' q := by
  obtain ⟨a1, a2⟩ := hasImage8 ha e3
  obtain ⟨c1, c2⟩ := hasImage8 hc e4
  have hN := image_size hc
  rw [← e1, ← e2] at c2
  obtain ⟨m', out, run, k1, k2, k3⟩ := C36_laplacian e (k_size := if twice then 2 else 1) (by cases twice <;> simp) a2 c2 hs (by rw [e1, e2]; omega)
  rw [e1, e2] at k1
  refine ⟨m', run, hasImage_of8 e4 c1 hc.2.2.1 k1 ?_ (inl_only hc k2), k2⟩
  intro i j hi hj
  simp only at hi hj ⊢
  have h := k3 i j (by omega) (by omega)
  have e5 : (if (if twice = true then (2:Int) else 1) = 2 then (2:Int) else 1) = if twice = true then 2 else 1 := by cases twice <;> rfl
  rw [e5, ← limit_clamp] at h
  exact (Int.ofNat_inj.1 h).symm

theorem splice_step (hm : m.WF) {p q start : Nat} {a b : CubeVal} (ha : HasValue m p a) (hb : HasValue m q b) (hs : Separate m q p) (e1 : a.dt = b.dt)
    (hfit : start + b.S * b.L * b.B ≤ a.S * a.L * a.B) :
    ∃ m', hyper_mat_splicing (some p) (some q) start m = .ok ((), m') ∧
      HasValue m' p { a with elem := fun i j k =>
        let n := a.lay.pos a.S a.L a.B i j k
        if start ≤ n ∧ n < start + b.S * b.L * b.B then b.at (n - start) else a.elem i j k } ∧ Changed m m' p := by
  have hE : b.E = a.E := by
    have h1 := ha.1.1.size
    have h2 := hb.1.1.size
    rw [e1, h2] at h1
    exact Option.some.inj h1
  have hb1 := hb.1.1
  rw [← e1, hE] at hb1
  obtain ⟨hdr, out, g1, run, r1, r2⟩ := splicing_core ha.1.1 hb1 hs hfit ha.2.2.1
  obtain ⟨hdr', wb, f, g1', g2, g3, g4, g5, g6, g7, g8, g9, g10, g11⟩ := value_parts ha
  rw [g1] at g1'
  cases g1'
  -- where the element comes from
  have cases3 : ∀ i j k, i < a.L → j < a.S → k < a.B →
      (∃ i' j' k', i' < b.L ∧ j' < b.S ∧ k' < b.B ∧ a.lay.pos a.S a.L a.B i j k = start + b.lay.pos b.S b.L b.B i' j' k' ∧
        start ≤ a.lay.pos a.S a.L a.B i j k ∧ a.lay.pos a.S a.L a.B i j k < start + b.S * b.L * b.B ∧
        b.at (a.lay.pos a.S a.L a.B i j k - start) = b.elem i' j' k') ∨
      ¬ (start ≤ a.lay.pos a.S a.L a.B i j k ∧ a.lay.pos a.S a.L a.B i j k < start + b.S * b.L * b.B) := by
    intro i j k hi hj hk
    by_cases h : start ≤ a.lay.pos a.S a.L a.B i j k ∧ a.lay.pos a.S a.L a.B i j k < start + b.S * b.L * b.B
    · left
      obtain ⟨i', j', k', u1, u2, u3, u4⟩ := unpos_spec b.lay (e := a.lay.pos a.S a.L a.B i j k - start) (S := b.S) (L := b.L) (B := b.B) (by omega)
      refine ⟨i', j', k', u1, u2, u3, by omega, h.1, h.2, ?_⟩
      rw [at_unpos, u4, unpos_pos b.lay u1 u2 u3]
    · exact Or.inr h
  refine ⟨_, run, ⟨⟨?_, ?_⟩, ha.2⟩, changed_put hm g1 g9 (Or.inr ⟨hdr, g1, Or.inl rfl⟩)⟩
  · have := cube_put (v' := out) ha.1.1 g1
    obtain ⟨k0, k1, k2, k3, kh, kw, kf, l1, l2, l3, l4, l5, l6, l7, l8, l9, l10, l11⟩ := this
    refine ⟨k0, k1, k2, k3, kh, kw, kf, l1, l2, l3, l4, l5, l6, l7, l8, l9, l10, ?_⟩
    intro i j k t hi hj hk ht
    rw [l11 i j k t hi hj hk ht]
    dsimp only
    rcases cases3 i j k hi hj hk with ⟨i', j', k', u1, u2, u3, u4, u5, u6, u7⟩ | h
    · rw [if_pos ⟨u5, u6⟩, u7, r1 i j k i' j' k' t hi hj hk u1 u2 u3 ht u4]
    · rw [if_neg h, r2 i j k t hi hj hk ht (by omega)]
  · intro i j k hi hj hk
    dsimp only at hi hj hk ⊢
    rcases cases3 i j k hi hj hk with ⟨i', j', k', u1, u2, u3, u4, u5, u6, u7⟩ | h
    · rw [if_pos ⟨u5, u6⟩, u7, ← hE]
      exact hb.1.2 i' j' k' u1 u2 u3
    · rw [if_neg h]
      exact ha.1.2 i j k hi hj hk

/-! ### One operation -/

/-- the state between two operations: `leaks` are the blocks that nobody owns -/
structure Working (m0 m : Mem) (fs0 fs : Files) (envC : List (Option Nat)) (st : Store) (envI : List (Option Nat)) (im : Images) (d : Disk)
    (leaks : List Nat) : Prop where
  rep : RepresentsBeside (fun h => h < m0.next ∨ h ∈ leaks) m m envC st envI im
  frame : Frame m0 m
  addr : m.addr = m0.addr
  junk : m.junk = m0.junk
  later : m0.next ≤ m.next
  nodup : leaks.Nodup
  lost : ∀ h ∈ leaks, m0.next ≤ h ∧ m.blk h ≠ none
  bare : ∀ h ∈ leaks, m.hm h = none ∧ m.sm h = none
  stored : ∀ name c, d.get name = some c → Stored fs name c
  rest : ∀ n, (∀ e ∈ d, n ≠ e.1 ∧ n ≠ headerName e.1) → fs n = fs0 n

/-- how many blocks an operation loses -/
def lostByWork : WorkOp → Nat
  | .save _ _ => 2
  | .load _ => 2
  | _ => 0

/-- an operation that changes only variables -/
theorem work_vars {fs0 fs : Files} {d : Disk} {leaks : List Nat} {envC' envI' : List (Option Nat)} (hb : Working m0 m fs0 fs envC st envI im d leaks)
    (hr : RepresentsBeside (fun h => h < m0.next ∨ h ∈ leaks) m m' envC' st' envI' im') (hj : m'.junk = m.junk) :
    Working m0 m' fs0 fs envC' st' envI' im' d leaks := by
  refine ⟨beside_rebase hr, ?_, hr.addr.trans hb.addr, hj.trans hb.junk, ?_, hb.nodup, ?_, ?_, hb.stored, hb.rest⟩
  · intro h hh
    obtain ⟨a1, a2, a3⟩ := hb.frame h hh
    obtain ⟨b1, b2, b3⟩ := hr.frame h (Or.inl hh)
    exact ⟨b1.trans a1, b2.trans a2, b3.trans a3⟩
  · rcases Nat.eq_zero_or_pos m0.next with h0 | h0
    · omega
    · have := hr.cubes.later (m0.next - 1) (Or.inl (Or.inl (by omega)))
      omega
  · intro h hh
    refine ⟨(hb.lost h hh).1, ?_⟩
    rw [(hr.frame h (Or.inr hh)).1]
    exact (hb.lost h hh).2
  · intro h hh
    rw [(hr.frame h (Or.inr hh)).2.1, (hr.frame h (Or.inr hh)).2.2]
    exact hb.bare h hh

theorem workSave_step {fs0 fs : Files} {d d' : Disk} {leaks : List Nat} {x : Nat} {name : Text} {out : List Nat}
    (hb : Working m0 m fs0 fs envC st envI im d leaks) (hs : (FileOp.save x name).step st d = some (st', d', out)) :
    ∃ fs' m' leaks', hmsaveFile fs name (ptr envC x) m = .ok (fs', m') ∧ out = [] ∧ Working m0 m' fs0 fs' envC st' envI im d' leaks' ∧
      leaks'.length = leaks.length + 2 := by
  obtain ⟨hr, hfr, hadr, hj, hn0, hnd, hlost, hbare, hst, hrest⟩ := hb
  simp only [FileOp.step] at hs
  cases hx : st.get x with
  | none => rw [hx] at hs; cases hs
  | some c =>
    rw [hx] at hs
    simp only [Option.bind_eq_bind, Option.bind_some] at hs
    split at hs
    · rename_i hc
      obtain ⟨hpr, h20, hap⟩ := hc
      cases hs
      have hwf := hr.cubes.wf
      obtain ⟨p, hp, hv, ho⟩ := hr.cubes.cube x c hx
      obtain ⟨img, txt, s1, ⟨s2, s3⟩, s4⟩ := hmsaveFile_run hwf hv.1.1 hv.2.2.1
      obtain ⟨img', t1, t2, t3⟩ := save_run hv.1.1 hv.2.2.1 (by omega)
      rw [s1] at t1
      have et : txt = headerText c := by
        have := t1
        simp only [Except.ok.injEq, Prod.mk.injEq] at this
        exact this.1.2
      have run := s4 m hwf (frame_refl m) fs name
      set m' := (m.grow (name.length + 5) (m.junk m.next)).grow 4 (m.junk (m.next + 1)) with hm'
      have w1 : m'.WF := grow_WF (grow_WF hwf _ _) _ _
      have nn : m'.next = m.next + 2 := rfl
      have blk0 : m'.blk m.next ≠ none := by
        rw [hm', grow_blk_ne _ _ _ (show m.next ≠ m.next + 1 by omega)]
        rw [show (m.grow (name.length + 5) (m.junk m.next)).blk m.next = _ from grow_holds m _ _]
        simp
      have blk1 : m'.blk (m.next + 1) ≠ none := by
        rw [show m'.blk (m.next + 1) = _ from grow_holds (m.grow (name.length + 5) (m.junk m.next)) _ _]
        simp
      have hrep := beside_more (m' := m') hr (grow2_frame _ _ _ _) w1 (by omega) rfl rfl (P := fun h => h = m.next ∨ h = m.next + 1)
        (by rintro h (rfl | rfl) <;> omega) (by
          intro h h1 h2
          by_contra hc
          have hlt : h < m'.next := by
            by_contra hg
            exact h2 (w1 h (by omega)).1
          omega)
      have hold : ∀ h ∈ leaks, h < m.next := fun h hh => hr.cubes.later h (Or.inl (Or.inr hh))
      refine ⟨(fs.write name (.image img)).write (headerName name) (.header txt), m', (m.next) :: (m.next + 1) :: leaks, ?_, rfl,
        ⟨?_, frame_trans hfr (grow2_frame _ _ _ _) hn0, hadr, hj, by omega, ?_, ?_, ?_, ?_, ?_⟩, rfl⟩
      · rw [ptr_some hp]
        exact run
      · have e : (fun h => h < m0.next ∨ h ∈ m.next :: (m.next + 1) :: leaks) = fun h => (h < m0.next ∨ h ∈ leaks) ∨ (h = m.next ∨ h = m.next + 1) := leaks_cons ..
        rw [e]
        exact hrep
      · refine List.nodup_cons.2 ⟨?_, List.nodup_cons.2 ⟨?_, hnd⟩⟩
        · rw [List.mem_cons]
          rintro (h | h)
          · omega
          · exact absurd (hold _ h) (by omega)
        · intro h
          exact absurd (hold _ h) (by omega)
      · intro h hh
        rw [List.mem_cons, List.mem_cons] at hh
        rcases hh with rfl | rfl | hh
        · exact ⟨hn0, blk0⟩
        · exact ⟨by omega, blk1⟩
        · refine ⟨(hlost h hh).1, ?_⟩
          rw [((grow2_frame _ _ _ _ : Frame m m') h (hold h hh)).1]
          exact (hlost h hh).2
      · intro h hh
        rw [List.mem_cons, List.mem_cons] at hh
        rcases hh with rfl | rfl | hh
        · exact ⟨(hwf _ (le_refl _)).2.1, (hwf _ (le_refl _)).2.2⟩
        · exact ⟨(hwf _ (by omega)).2.1, (hwf _ (by omega)).2.2⟩
        · exact hbare h hh
      · intro n e he
        by_cases hn : n = name
        · subst hn
          have : e = c := by
            simp [Disk.get, List.lookup] at he
            exact he.symm
          subst this
          refine ⟨img, ?_, ?_, ?_⟩
          · rw [write_ne _ _ (headerName_ne n), write_self]
          · rw [← et]
            exact write_self _ _ _
          · exact ⟨hv.1.1.size, hv.1.1.posS, hv.1.1.posL, hv.1.1.posB, hv.2.2, h20, s2, s3, hv.1.2, hv.2.1, hpr⟩
        · have he' : d.get n = some e := by
            have hne : (n == name) = false := by simpa using hn
            simpa [Disk.get, List.lookup, hne] using he
          obtain ⟨img0, g1, g2, g3⟩ := hst n e he'
          have hmem : ∃ e0 ∈ d, e0.1 = n := by
            have := List.lookup_eq_some_iff.1 he'
            obtain ⟨l1, l2, rfl, _⟩ := this
            exact ⟨(n, e), by simp, rfl⟩
          obtain ⟨e0, k1, k2⟩ := hmem
          obtain ⟨k3, k4⟩ := hap e0 k1
          rw [k2] at k3 k4
          refine ⟨img0, ?_, ?_, g3⟩
          · rw [write_ne _ _ (by exact k3), write_ne _ _ hn, g1]
          · rw [write_ne _ _ (fun h => hn (headerName_inj h)), write_ne _ _ (Ne.symm k4), g2]
      · intro n hn
        have h1 := hn (name, c) (by simp)
        rw [write_ne _ _ (by exact h1.2), write_ne _ _ h1.1]
        exact hrest n (fun e he => hn e (by simp [he]))
    · cases hs

theorem workLoad_step (other : Text → Option FV) {fs0 fs : Files} {d d' : Disk} {leaks : List Nat} {name : Text} {out : List Nat}
    (hz : ZeroLast m0) (hb : Working m0 m fs0 fs envC st envI im d leaks) (hs : (FileOp.load name).step st d = some (st', d', out)) :
    ∃ q m' leaks', hmreadFile other fs name (headerName name) m = .ok (q, m') ∧ out = [] ∧ Working m0 m' fs0 fs (envC ++ [q]) st' envI im d' leaks' ∧
      leaks'.length = leaks.length + 2 := by
  obtain ⟨hr, hfr, hadr, hj, hn0, hnd, hlost, hbare, hst, hrest⟩ := hb
  simp only [FileOp.step] at hs
  cases hx : d.get name with
  | none => rw [hx] at hs; cases hs
  | some c =>
    rw [hx] at hs
    cases hs
    have hwf := hr.cubes.wf
    obtain ⟨img, g1, g2, g3⟩ := hst name c hx
    have hz' : ZeroLast m := fun b n hn => by rw [hj]; exact hz b n hn
    obtain ⟨mi, v, w, i1, i2, i3, i4, i5, i6, i7, i8, run, hv⟩ := load_exact other g3 hwf hz'
    have hrep := beside_more (m' := mi) hr i2 i1 (by omega) i6 i7 (P := fun h => h = m.next + 2 ∨ h = m.next + 4)
      (by rintro h (rfl | rfl) <;> omega) (fun h h1 h2 => (i8 h h1).1 h2)
    have hnew := beside_rebase (both_cubes hrep (represents_conv (c := c.reread) (v := v) (w := w) hrep.cubes hv))
    have fr : Frame mi (convMem mi c.lay c.S c.L c.B c.dt c.E v w) := convMem_frame mi c.lay
    have hold : ∀ h ∈ leaks, h < m.next := fun h hh => hr.cubes.later h (Or.inl (Or.inr hh))
    refine ⟨some (mi.next + 2), convMem mi c.lay c.S c.L c.B c.dt c.E v w, (m.next + 2) :: (m.next + 4) :: leaks, ?_, rfl,
      ⟨?_, frame_trans hfr (frame_trans i2 fr (by omega)) hn0, ?_, ?_, ?_, ?_, ?_, ?_, hst, hrest⟩, rfl⟩
    · unfold hmreadFile
      rw [g1, g2]
      exact run
    · have e : (fun h => h < m0.next ∨ h ∈ (m.next + 2) :: (m.next + 4) :: leaks) = fun h => (h < m0.next ∨ h ∈ leaks) ∨ (h = m.next + 2 ∨ h = m.next + 4) := leaks_cons ..
      rw [e]
      exact hnew
    · exact i4.trans hadr
    · exact i5.trans hj
    · show m0.next ≤ mi.next + 3
      omega
    · refine List.nodup_cons.2 ⟨?_, List.nodup_cons.2 ⟨?_, hnd⟩⟩
      · rw [List.mem_cons]
        rintro (h | h)
        · omega
        · exact absurd (hold _ h) (by omega)
      · intro h
        exact absurd (hold _ h) (by omega)
    · intro h hh
      rw [List.mem_cons, List.mem_cons] at hh
      rcases hh with rfl | rfl | hh
      · refine ⟨by omega, ?_⟩
        rw [(fr (m.next + 2) (by omega)).1]
        exact (i8 _ (by omega)).2 (Or.inl rfl)
      · refine ⟨by omega, ?_⟩
        rw [(fr (m.next + 4) (by omega)).1]
        exact (i8 _ (by omega)).2 (Or.inr rfl)
      · have := hold h hh
        refine ⟨(hlost h hh).1, ?_⟩
        rw [(fr h (by omega)).1, (i2 h this).1]
        exact (hlost h hh).2
    · intro h hh
      have hlt : h < mi.next := by
        rw [List.mem_cons, List.mem_cons] at hh
        rcases hh with rfl | rfl | hh
        · omega
        · omega
        · have := hold h hh
          omega
      rw [(fr h hlt).2.1, (fr h hlt).2.2, i6, i7]
      rw [List.mem_cons, List.mem_cons] at hh
      rcases hh with rfl | rfl | hh
      · exact ⟨(hwf _ (by omega)).2.1, (hwf _ (by omega)).2.2⟩
      · exact ⟨(hwf _ (by omega)).2.1, (hwf _ (by omega)).2.2⟩
      · exact hbare h hh

theorem work_step (other : Text → Option FV) {fs0 fs : Files} {d d' : Disk} {leaks : List Nat} {op : WorkOp} {out : List Nat}
    (hz : ZeroLast m0) (ha : ∀ h, m0.addr h % 16 = 0 ∧ m0.addr h % 64 ≠ 48) (hb : Working m0 m fs0 fs envC st envI im d leaks)
    (hs : op.step st im d = some (st', im', d', out)) :
    ∃ fs' envC' envI' m' leaks', execWork other fs envC envI op m = .ok ((fs', envC', envI', out), m') ∧
      Working m0 m' fs0 fs' envC' st' envI' im' d' leaks' ∧ leaks'.length = leaks.length + lostByWork op := by
  have hr := hb.rep
  cases op with
  | session o =>
    simp only [WorkOp.step] at hs
    cases ho : o.step st im with
    | none => rw [ho] at hs; cases hs
    | some r =>
      obtain ⟨s1, i1, o1⟩ := r
      rw [ho] at hs
      cases hs
      obtain ⟨c', i', m', run, hr', hj⟩ := session_step (by rw [hb.addr]; exact ha) hr ho
      exact ⟨fs, c', i', m', leaks, (bind_ok run).trans rfl, work_vars hb hr' hj, rfl⟩
  | save x name =>
    simp only [WorkOp.step] at hs
    cases ho : (FileOp.save x name).step st d with
    | none => rw [ho] at hs; cases hs
    | some r =>
      obtain ⟨s1, d1, o1⟩ := r
      rw [ho] at hs
      cases hs
      obtain ⟨fs', m', leaks', run, rfl, hb', hl⟩ := workSave_step hb ho
      exact ⟨fs', envC, envI, m', leaks', (bind_ok run).trans rfl, hb', hl⟩
  | load name =>
    simp only [WorkOp.step] at hs
    cases ho : (FileOp.load name).step st d with
    | none => rw [ho] at hs; cases hs
    | some r =>
      obtain ⟨s1, d1, o1⟩ := r
      rw [ho] at hs
      cases hs
      obtain ⟨q, m', leaks', run, rfl, hb', hl⟩ := workLoad_step other hz hb ho
      exact ⟨fs, envC ++ [q], envI, m', leaks', (bind_ok run).trans rfl, hb', hl⟩
  | add x y z =>
    simp only [WorkOp.step] at hs
    cases hx : im.get x with
    | none => rw [hx] at hs; cases hs
    | some a =>
      cases hy : im.get y with
      | none => rw [hx, hy] at hs; cases hs
      | some b =>
        cases hz' : im.get z with
        | none => rw [hx, hy, hz'] at hs; cases hs
        | some c =>
          rw [hx, hy, hz'] at hs
          simp only [Option.bind_eq_bind, Option.bind_some] at hs
          split at hs
          · rename_i hc
            obtain ⟨e1, e2, e3, e4, e5, e6, e7⟩ := hc
            cases hs
            obtain ⟨p, hp, hv, _⟩ := hr.images.image x a hx
            obtain ⟨q, hq, hw, _⟩ := hr.images.image y b hy
            obtain ⟨r, hr', hu, _⟩ := hr.images.image z c hz'
            obtain ⟨m', run, k1, k2⟩ := addImages_step hv hw hu e1 e2 e3 e4 e5 e6 e7
            have ko := addition_oracles _ _ _ _ _ _ run
            refine ⟨fs, envC, envI, m', leaks, ?_, work_vars hb (both_images hr (images_change hr.images hz' hr' k2 ko.1 k1)) ko.2, rfl⟩
            simp only [execWork, ptr_some hp, ptr_some hq, ptr_some hr']
            rw [bind_ok run]
            rfl
          · cases hs
  | edges x y e t =>
    simp only [WorkOp.step] at hs
    cases hx : im.get x with
    | none => rw [hx] at hs; cases hs
    | some a =>
      cases hy : im.get y with
      | none => rw [hx, hy] at hs; cases hs
      | some c =>
        rw [hx, hy] at hs
        simp only [Option.bind_eq_bind, Option.bind_some] at hs
        split at hs
        · rename_i hc
          obtain ⟨hne, e1, e2, e3, e4⟩ := hc
          cases hs
          obtain ⟨p, hp, hv, _⟩ := hr.images.image x a hx
          obtain ⟨q, hq, hw, _⟩ := hr.images.image y c hy
          obtain ⟨m', run, k1, k2⟩ := edges_step e t hv hw (sep_of_apart (hr.images.apart x y a c p q hne hx hy hp hq)) e1 e2 e3 e4
          have ko := sobel_oracles _ _ _ _ _ _ _ run
          refine ⟨fs, envC, envI, m', leaks, ?_, work_vars hb (both_images hr (images_change hr.images hy hq k2 ko.1 k1)) ko.2, rfl⟩
          simp only [execWork, ptr_some hp, ptr_some hq]
          rw [bind_ok run]
          rfl
        · cases hs
  | laplacian x y e t =>
    simp only [WorkOp.step] at hs
    cases hx : im.get x with
    | none => rw [hx] at hs; cases hs
    | some a =>
      cases hy : im.get y with
      | none => rw [hx, hy] at hs; cases hs
      | some c =>
        rw [hx, hy] at hs
        simp only [Option.bind_eq_bind, Option.bind_some] at hs
        split at hs
        · rename_i hc
          obtain ⟨hne, e1, e2, e3, e4⟩ := hc
          cases hs
          obtain ⟨p, hp, hv, _⟩ := hr.images.image x a hx
          obtain ⟨q, hq, hw, _⟩ := hr.images.image y c hy
          obtain ⟨m', run, k1, k2⟩ := laplacian_step e t hv hw (sep_of_apart (hr.images.apart x y a c p q hne hx hy hp hq)) e1 e2 e3 e4
          have ko := laplacian_oracles _ _ _ _ _ _ _ run
          refine ⟨fs, envC, envI, m', leaks, ?_, work_vars hb (both_images hr (images_change hr.images hy hq k2 ko.1 k1)) ko.2, rfl⟩
          simp only [execWork, ptr_some hp, ptr_some hq]
          rw [bind_ok run]
          rfl
        · cases hs
  | splice x y start =>
    simp only [WorkOp.step] at hs
    cases hx : st.get x with
    | none => rw [hx] at hs; cases hs
    | some a =>
      cases hy : st.get y with
      | none => rw [hx, hy] at hs; cases hs
      | some b =>
        rw [hx, hy] at hs
        simp only [Option.bind_eq_bind, Option.bind_some] at hs
        split at hs
        · rename_i hc
          obtain ⟨hne, e1, e2⟩ := hc
          cases hs
          obtain ⟨p, hp, hv, _⟩ := hr.cubes.cube x a hx
          obtain ⟨q, hq, hw, _⟩ := hr.cubes.cube y b hy
          obtain ⟨m', run, k1, k2⟩ := splice_step hr.cubes.wf hv hw (fun z hz => hr.cubes.apart y x b a q p (Ne.symm hne) hy hx hq hp z hz) e1 e2
          have hr' := represents_change hr.cubes hx hp k2 k1
          refine ⟨fs, envC, envI, m', leaks, ?_, work_vars hb (both_cubes hr hr') hr'.junk, rfl⟩
          simp only [execWork, ptr_some hp, ptr_some hq]
          rw [bind_ok run]
          rfl
        · cases hs

/-! ### Whole programs -/

theorem work_start (hm : m.WF) (fs : Files) : Working m m fs fs [] [] [] [] [] [] := by
  refine ⟨?_, fun _ _ => ⟨rfl, rfl, rfl⟩, rfl, rfl, le_refl _, List.nodup_nil, by simp, by simp, ?_, fun _ _ => rfl⟩
  · have e : (fun h => h < m.next ∨ h ∈ ([] : List Nat)) = (· < m.next) := by funext h; simp
    rw [e]
    exact session_start hm
  · intro name c h
    cases h

theorem workFileCalls_cons (op : WorkOp) (ops : List WorkOp) : 2 * workFileCalls (op :: ops) = lostByWork op + 2 * workFileCalls ops := by
  cases op <;> simp only [workFileCalls, lostByWork] <;> omega

theorem work_run (other : Text → Option FV) (hz : ZeroLast m0) (ha : ∀ h, m0.addr h % 16 = 0 ∧ m0.addr h % 64 ≠ 48) {fs0 : Files} (ops : List WorkOp) :
    ∀ {m : Mem} {fs : Files} {envC envI : List (Option Nat)} {st st' : Store} {im im' : Images} {d d' : Disk} {leaks : List Nat} {out : List Nat},
    Working m0 m fs0 fs envC st envI im d leaks → workMeaning st im d ops = some (st', im', d', out) →
    ∃ fs' envC' envI' m' leaks', execWorkAll other fs envC envI ops m = .ok ((fs', envC', envI', out), m') ∧
      Working m0 m' fs0 fs' envC' st' envI' im' d' leaks' ∧ leaks'.length = leaks.length + 2 * workFileCalls ops := by
  induction ops with
  | nil =>
    intro m fs envC envI st st' im im' d d' leaks out hb hs
    cases hs
    exact ⟨fs, envC, envI, m, leaks, rfl, hb, rfl⟩
  | cons op ops ih =>
    intro m fs envC envI st st' im im' d d' leaks out hb hs
    unfold workMeaning at hs
    cases h1 : op.step st im d with
    | none => rw [h1] at hs; cases hs
    | some r =>
      obtain ⟨st1, im1, d1, o1⟩ := r
      rw [h1] at hs
      simp only [Option.bind_eq_bind, Option.bind_some] at hs
      cases h2 : workMeaning st1 im1 d1 ops with
      | none => rw [h2] at hs; cases hs
      | some r =>
        obtain ⟨st2, im2, d2, o2⟩ := r
        rw [h2] at hs
        cases hs
        obtain ⟨fs1, c1, i1, m1, k1, run1, hb1, e1⟩ := work_step other hz ha hb h1
        obtain ⟨fs2, c2, i2, m2, k2, run2, hb2, e2⟩ := ih hb1 h2
        refine ⟨fs2, c2, i2, m2, k2, (bind_ok run1).trans ((bind_ok run2).trans rfl), hb2, ?_⟩
        rw [workFileCalls_cons, e2, e1]
        omega

end HyperCV
