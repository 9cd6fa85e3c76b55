/- Programs that use cubes and save them in files: every operation does what its meaning says. -/
import Verif.Model.ClientFiles
import Verif.Props.Client
import Verif.Props.Files

namespace HyperCV
open Spec

variable {others : Nat → Prop} {m0 m m' : Mem} {env : List (Option Nat)} {st : Store}

/-! ### Storage that the library loses -/

theorem represents_rebase (hr : Represents others m0 m env st) : Represents others m m env st :=
  ⟨hr.wf, hr.later, fun _ _ => ⟨rfl, rfl, rfl⟩, rfl, rfl, hr.same, hr.cube, hr.apart, hr.blocks, hr.headers, hr.images⟩

theorem owns_old (hr : Represents others m0 m env st) {x : Nat} {c : CubeVal} {p : Nat} (hx : st.get x = some c) (hp : env[x]? = some (some p)) :
    ∀ h, Owns m p h → h < m.next := by
  obtain ⟨p', e, hv', _⟩ := hr.cube x c hx
  rw [hp] at e
  have e : p = p' := by simpa using e
  subst e
  obtain ⟨hdr, wb, f, g1, g2, g3, g4, g5, g6, g7, g8, g9, g10, g11⟩ := hv'.1.1.obj
  rw [bytes_iff] at g9 g10
  rintro h (rfl | ⟨hdr', e1, e2⟩)
  · exact hdr_lt hr.wf g1
  · rw [g1] at e1
    cases e1
    rcases e2 with rfl | e2
    · exact g9.lt_next hr.wf
    · rw [g7] at e2; cases e2; exact g10.lt_next hr.wf

/-- blocks that nobody owns appear -/
theorem represents_more (hr : Represents others m0 m env st) (hf : Frame m m') (hw : m'.WF) (hn : m.next ≤ m'.next) (hhm : m'.hm = m.hm)
    (hsm : m'.sm = m.sm) {P : Nat → Prop} (hP : ∀ h, P h → m.next ≤ h ∧ h < m'.next) (hb : ∀ h, m.next ≤ h → m'.blk h ≠ none → P h) :
    Represents (fun h => others h ∨ P h) m' m' env st := by
  have ow : ∀ p x, Owns m' p x ↔ Owns m p x := fun p x => owns_congr (by rw [hhm]) x
  refine ⟨hw, ?_, fun _ _ => ⟨rfl, rfl, rfl⟩, rfl, rfl, hr.same, ?_, ?_, ?_, ?_, ?_⟩
  · rintro h (hh | hh)
    · exact (hr.later h hh).trans_le hn
    · exact (hP h hh).2
  · intro x c hx
    obtain ⟨p, e, hv, ho⟩ := hr.cube x c hx
    refine ⟨p, e, value_frame hr.wf hv hf, ?_⟩
    intro h hh
    rw [ow] at hh
    rintro (h1 | h1)
    · exact ho h hh h1
    · have := owns_old hr hx e h hh
      have := (hP h h1).1
      omega
  · intro x y c d p q hxy hx hy hp hq z hz
    rw [ow, ow] at hz
    exact hr.apart x y c d p q hxy hx hy hp hq z hz
  · intro h h0 hb'
    by_cases hl : h < m.next
    · rw [(hf h hl).1] at hb'
      obtain ⟨x, c, p, hdr, e1, e2, e3, e4⟩ := hr.blocks h (fun h1 => h0 (Or.inl h1)) hb'
      exact ⟨x, c, p, hdr, e1, e2, by rw [hhm, e3], e4⟩
    · exact absurd (Or.inr (hb h (by omega) hb')) h0
  · intro h h0 hb'
    rw [hhm] at hb'
    exact hr.headers h (fun h1 => h0 (Or.inl h1)) hb'
  · intro h h0
    rw [hsm]
    exact hr.images h (fun h1 => h0 (Or.inl h1))

/-! ### Files -/

/-- the bytes of the wavelengths of a cube -/
def waveBytes (c : CubeVal) (t : Nat) : UInt8 := leByte (c.wave (t / 4)) (t % 4)

/-- the header that is written for a cube -/
def headerText (c : CubeVal) : Text :=
  hdrHead c.S c.L c.B c.dt c.lay ++ ("wavelength = { \n".toList ++ waveTail (waveAt (waveBytes c)) 0 (c.B - 1))

/-- what is known about a cube that was saved, and about the file with its elements -/
structure Saved (img : List UInt8) (c : CubeVal) : Prop where
  size : elemBytes c.dt = some c.E
  posS : 0 < c.S
  posL : 0 < c.L
  posB : 0 < c.B
  fits : c.Fits
  h20 : 20 * c.B ≤ 2147483647
  len : img.length = c.S * c.L * c.B * c.E
  elems : ∀ i j k t, i < c.L → j < c.S → k < c.B → t < c.E → img.getD (c.lay.pos c.S c.L c.B i j k * c.E + t) 0 = leByte (c.elem i j k) t
  bound : ∀ i j k, i < c.L → j < c.S → k < c.B → c.elem i j k < 256 ^ c.E
  wbound : ∀ k, k < c.B → c.wave k < 256 ^ 4
  print : ∀ k, k < c.B → Printable (c.wave k) = true

/-- the cube is saved under this name -/
def Stored (fs : Files) (name : Text) (c : CubeVal) : Prop :=
  ∃ img, fs name = some (.image img) ∧ fs (headerName name) = some (.header (headerText c)) ∧ Saved img c

theorem waveAt_bytes (c : CubeVal) {k : Nat} (h : c.wave k < 256 ^ 4) : waveAt (waveBytes c) k = f32.decode (c.wave k) := by
  unfold waveAt
  rw [leNat_tab (v := c.wave k) _ h]
  intro t ht
  exact wave_at (B := 0) ht

theorem print_short {bits : Nat} (h : Printable bits = true) : Short (f32.decode bits) ∧ (fmtF (f32.decode bits)).length ≤ 18 := by
  unfold Printable at h
  cases hd : f32.decode bits with
  | nan => rw [hd] at h; cases h
  | inf => rw [hd] at h; cases h
  | fin s q =>
    rw [hd] at h
    have h' := of_decide_eq_true h
    have hq : |q| < 1000000000 := abs_lt.2 h'
    refine ⟨?_, ?_⟩
    · show |q| < 10000000000
      linarith
    · have h1 : rne (|q| * 1000000) ≤ 1000000000000000 := by
        have := rne_mono (q := |q| * 1000000) (r := ((1000000000000000 : ℤ) : ℚ)) (by push_cast; linarith)
        rwa [rne_int] at this
      have h2 : (rne (|q| * 1000000)).toNat / 1000000 < 10 ^ (9 + 1) := by norm_num; omega
      have h3 := decNat_length 9 _ h2
      unfold fmtF
      dsimp only
      rw [List.length_append, List.length_append]
      have h4 : (if s = true then ['-'] else []).length ≤ 1 := by cases s <;> simp
      simp only [dec6, List.length_cons, List.length_nil]
      omega

theorem waveTail_room (f : Nat → FV) : ∀ (c i : Nat), (∀ j, i ≤ j → j ≤ i + c → (fmtF (f j)).length ≤ 18) →
    (waveTail f i c).length < 20 * (c + 1) := by
  intro c
  induction c with
  | zero =>
    intro i h
    have := h i (le_refl _) (by omega)
    simp [waveTail]; omega
  | succ c ih =>
    intro i h
    have h1 := h i (le_refl _) (by omega)
    have h2 := ih (i + 1) (fun j a b => h j (by omega) (by omega))
    simp [waveTail]; omega

/-- what is read for a wavelength -/
theorem asPrinted_eq {bits : Nat} (h : Printable bits = true) : asPrinted bits = f32.encode (readBack (f32.decode bits)) % 256 ^ 4 := by
  unfold Printable at h
  unfold asPrinted
  cases hd : f32.decode bits with
  | nan => rw [hd] at h; cases h
  | inf => rw [hd] at h; cases h
  | fin s q => rfl

theorem asPrinted_lt {bits : Nat} (h : Printable bits = true) : asPrinted bits < 256 ^ 4 := by
  rw [asPrinted_eq h]
  exact Nat.mod_lt _ (by norm_num)

theorem convMem_free {m : Mem} (lay : Layout) {S L B E : Nat} {dt : Int} {v : Nat → Nat → Nat → Nat → UInt8} {w : Nat → UInt8} {h : Nat} (hh : h < m.next) :
    (convMem m lay S L B dt E v w).setBlk h none = convMem (m.setBlk h none) lay S L B dt E v w := by
  apply Mem.ext' <;> try rfl
  funext x
  unfold convMem Mem.newCube
  by_cases hx : x = h
  · subst hx
    rw [setBlk_blk_self, growH_blk, grow_blk_ne _ _ _ (by show x ≠ m.next + 1; omega), grow_blk_ne _ _ _ (by show x ≠ m.next; omega), setBlk_blk_self]
  · rw [setBlk_blk_ne _ _ hx, growH_blk, growH_blk]
    by_cases h1 : x = m.next + 1
    · subst h1
      exact (grow_holds (m.grow _ _) _ _).trans (grow_holds ((m.setBlk h none).grow _ _) _ _).symm
    · have k1 : ∀ (a : Nat → UInt8) (n : Nat) (b : Nat → UInt8) (n' : Nat), ((m.grow n a).grow n' b).blk x = (m.grow n a).blk x :=
        fun a n b n' => grow_blk_ne _ _ _ (show x ≠ m.next + 1 from h1)
      have k2 : ∀ (a : Nat → UInt8) (n : Nat) (b : Nat → UInt8) (n' : Nat),
          (((m.setBlk h none).grow n a).grow n' b).blk x = ((m.setBlk h none).grow n a).blk x :=
        fun a n b n' => grow_blk_ne _ _ _ (show x ≠ m.next + 1 from h1)
      rw [k1, k2]
      by_cases h2 : x = m.next
      · subst h2
        exact (grow_holds m _ _).trans (grow_holds (m.setBlk h none) _ _).symm
      · rw [grow_blk_ne _ _ _ h2, grow_blk_ne (m.setBlk h none) _ _ (show x ≠ m.next from h2), setBlk_blk_ne _ _ hx]

theorem fread_tail {d N : Nat} {file : List UInt8} {g f : Nat → UInt8} {m : Mem} (hd : Holds m d N g)
    (hf : ∀ i, i < N → f i = if i < file.length then file.getD i 0 else g i) : freadInto d file N m = .ok ((), m.put d N f) := by
  rw [fread_short hd]
  exact congrArg (fun x => Except.ok ((), x)) (put_congr _ _ _ fun i hi => (hf i hi).symm)

/-- reading a cube from the file `file`, where `img` is what it contains together with the fresh storage behind its end: the new cube, and two blocks that nobody
owns -/
theorem load_part (other : Text → Option FV) {img file : List UInt8} {c : CubeVal} (hs : Saved img c) (hm : m.WF) (hz : ZeroLast m)
    (hfile : ∀ i, i < c.S * c.L * c.B * c.E → img.getD i 0 = if i < file.length then file.getD i 0 else m.junk (m.next + 4) i) :
    ∃ mi v w, mi.WF ∧ Frame m mi ∧ mi.next = m.next + 5 ∧ mi.addr = m.addr ∧ mi.junk = m.junk ∧ mi.hm = m.hm ∧ mi.sm = m.sm ∧
      (∀ h, m.next ≤ h → (mi.blk h ≠ none ↔ h = m.next + 2 ∨ h = m.next + 4)) ∧
      hmread_with_hdr other (some file) (some (headerText c)) m = .ok (some (mi.next + 2), convMem mi c.lay c.S c.L c.B c.dt c.E v w) ∧
      HasValue (convMem mi c.lay c.S c.L c.B c.dt c.E v w) (mi.next + 2) c.reread := by
  obtain ⟨hE, hS, hL, hB, hfit, h20, hlen, hel, hbd, hwb, hpr⟩ := hs
  have hN : c.S * c.L * c.B * c.E ≤ 2147483647 := hfit.1
  obtain ⟨e1, e2, e3⟩ := get_elemsize_eq hE
  have hSLB : c.S * c.L * c.B ≤ 2147483647 := le_trans (Nat.le_mul_of_pos_right _ e2) hN
  have hSL : c.S * c.L ≤ 2147483647 := le_trans (Nat.le_mul_of_pos_right _ hB) hSLB
  have hSr : c.S ≤ 2147483647 := le_trans (Nat.le_mul_of_pos_right _ hL) hSL
  have hLr : c.L ≤ 2147483647 := le_trans (Nat.le_mul_of_pos_left _ hS) hSL
  have hat : ∀ k, k < c.B → waveAt (waveBytes c) k = f32.decode (c.wave k) := fun k hk => waveAt_bytes c (hwb k hk)
  have hf : ∀ j, j < c.B → Short (waveAt (waveBytes c) j) := fun j hj => by rw [hat j hj]; exact (print_short (hpr j hj)).1
  have room : (waveTail (waveAt (waveBytes c)) 0 (c.B - 1)).length < 20 * c.B := by
    have := waveTail_room (waveAt (waveBytes c)) (c.B - 1) 0 (fun j _ hj => by rw [hat j (by omega)]; exact (print_short (hpr j (by omega))).2)
    rwa [show 20 * (c.B - 1 + 1) = 20 * c.B by omega] at this
  obtain ⟨ls, l1, l2⟩ := collect_tail hB hf
  set m1 := m.grow 3 (m.junk m.next) with hm1d
  have hm1 : m1.WF := grow_WF hm _ _
  obtain ⟨m2, r1, r2, r3, r4, r5, r6, r7, r8, r9, r10, r11⟩ := readWave_run other hB h20 hf hm1
    ⟨20 * c.B - 1, by omega, by omega, hz _ _ hB⟩
  have n1 : m1.next = m.next + 1 := rfl
  have n2 : m2.next = m.next + 4 := by rw [r5, n1]
  have hr : readhdr other (headerText c) m1
      = .ok ({ hdrState c.S c.L c.B c.dt c.lay with item := some "wavelength ".toList, wavelength := some (m.next + 2) }, m2) := by
    unfold headerText
    rw [head_run other (natInR hSr) (natInR hLr) (natInR (by omega)) (elem_InR hE), l1, List.length_cons]
    have hst : hdrStep other "wavelength = { \n".toList ls (hdrState c.S c.L c.B c.dt c.lay) m1
        = .ok (([], { hdrState c.S c.L c.B c.dt c.lay with item := some "wavelength ".toList, wavelength := some (m.next + 2) }), m2) := by
      rw [step_wave, l2]
      dsimp only
      rw [bind_ok (show readWave other (hdrState c.S c.L c.B c.dt c.lay).bandtemp _ _ = _ from r1)]
      rfl
    rw [hdrLoop_cons _ _ _ _ (by decide) hst, hdrLoop_nil]
  have eds : (CI.lit (c.S : Int) * CI.lit (c.L : Int) * CI.lit (c.B : Int) : CI) = CI.lit ((c.S * c.L * c.B : Nat) : Int) := by
    rw [CI.mul_ok, CI.mul_ok]
    · push_cast; rfl
    · have : ((c.S : Int) * c.L * c.B) = ((c.S * c.L * c.B : Nat) : Int) := by push_cast; rfl
      rw [this]; constructor <;> omega
    · have : ((c.S : Int) * c.L) = ((c.S * c.L : Nat) : Int) := by push_cast; rfl
      rw [this]; constructor <;> omega
  have eu : u32 (c.E : Int) = c.E := u32_nat (by omega)
  set m3 := m2.grow (c.S * c.L * c.B * c.E) (m2.junk m2.next) with hm3
  have w3 : m3.WF := grow_WF r4 _ _
  set m4 := m3.put m2.next (c.S * c.L * c.B * c.E) (fun i => img.getD i 0) with hm4
  have w4 : m4.WF := put_WF w3 (by show m2.next < m2.next + 1; omega)
  have n4 : m4.next = m.next + 5 := by show m2.next + 1 = _; omega
  have hd4 : Holds m4 m2.next (c.S * c.L * c.B * c.E) (fun i => img.getD i 0) := holds_put _ _ _ _
  have hw4 : Holds m4 (m.next + 2) (c.B * 4) (encN 4 (fun j => f32.encode (readBack (waveAt (waveBytes c) j)) % 256 ^ 4)) :=
    (Holds.grow r4 r2).put_ne (by show m.next + 2 ≠ m2.next; omega)
  have h1 : SrcOK m4 (some m2.next) (c.S * c.L * c.B * c.E) (fun i => img.getD i 0) := by
    intro s hs; cases hs
    exact ⟨_, le_refl _, hd4⟩
  have h2 : SrcOK m4 (some (m.next + 2)) (4 * c.B) (encN 4 (fun j => f32.encode (readBack (waveAt (waveBytes c) j)) % 256 ^ 4)) := by
    intro s hs; cases hs
    exact ⟨_, by omega, hw4⟩
  have key := create_with_data_ok w4 hS hL hB hE hN hfit.2 (il := c.lay.tag) (by cases c.lay <;> decide) h1 h2
  set v : Nat → Nat → Nat → Nat → UInt8 := fun i j k t => img.getD (c.lay.pos c.S c.L c.B i j k * c.E + t) 0 with hv
  set w : Nat → UInt8 := encN 4 (fun j => f32.encode (readBack (waveAt (waveBytes c) j)) % 256 ^ 4) with hw
  have em : m4.newCube c.S c.L c.B c.dt (c.S * c.L * c.B * c.E) c.lay.tag (srcOr (fun i => img.getD i 0) (some m2.next)) (srcOr w (some (m.next + 2)))
      = convMem m4 c.lay c.S c.L c.B c.dt c.E v w := by
    unfold convMem
    apply newCube_congr
    · intro x hx
      obtain ⟨i, j, k, hi, hj, hk, c1, c2⟩ := byte_cover c.lay hx
      have ex : x = c.lay.pos c.S c.L c.B i j k * c.E + (x - c.lay.pos c.S c.L c.B i j k * c.E) := by omega
      have hr : cubeBytes c.lay c.S c.L c.B c.E v x = img.getD x 0 := by
        conv_lhs => rw [ex]
        rw [cubeBytes_at c.lay hi hj hk (by omega), hv]
        dsimp only
        rw [← ex]
      rw [hr]
      rfl
    · intro x hx
      rfl
  rw [em] at key
  have bt4 : m4.blk m.next = some (tab 3 (m.junk m.next)) := by
    rw [hm4, put_blk_ne _ _ _ (by omega), hm3, grow_blk_ne _ _ _ (by omega), (r3 m.next (by omega)).1]
    exact grow_holds m 3 _
  have bt : (convMem m4 c.lay c.S c.L c.B c.dt c.E v w).blk m.next = some (tab 3 (m.junk m.next)) := by
    rw [((convMem_frame m4 c.lay) m.next (by omega)).1, bt4]
  set mi := m4.setBlk m.next none with hmi
  have ni : mi.next = m.next + 5 := n4
  have run : hmread_with_hdr other (some file) (some (headerText c)) m = .ok (some (mi.next + 2), convMem mi c.lay c.S c.L c.B c.dt c.E v w) := by
    unfold hmread_with_hdr
    rw [bind_ok (malloc_run _ _)]
    dsimp only
    rw [bind_ok hr]
    rw [bind_ok (show initialised (hdrState c.S c.L c.B c.dt c.lay).samples m2 = .ok ((c.S : Int), m2) from rfl),
      bind_ok (show initialised (hdrState c.S c.L c.B c.dt c.lay).lines m2 = .ok ((c.L : Int), m2) from rfl),
      bind_ok (show initialised (hdrState c.S c.L c.B c.dt c.lay).bands m2 = .ok ((c.B : Int), m2) from rfl),
      bind_ok (show initialised (hdrState c.S c.L c.B c.dt c.lay).data_type m2 = .ok (c.dt, m2) from rfl), ev_bind eds, e1, eu]
    rw [cassert_bind (by rw [decide_eq_true_eq]; positivity), bind_ok (malloc_run _ _)]
    have en : ((c.S * c.L * c.B : Nat) : Int) * (c.E : Int) = ((c.S * c.L * c.B * c.E : Nat) : Int) := by push_cast; rfl
    rw [en, Int.toNat_natCast]
    rw [bind_ok (fread_tail (f := fun i => img.getD i 0) (grow_holds m2 _ _) (by intro i hi; rw [hfile i hi, r6, n2]; rfl))]
    rw [bind_ok (junkOf_run _ _)]
    have etag : (tab 3 fun t => (hdrState c.S c.L c.B c.dt c.lay).interleave.getD t (Char.ofNat (m4.junk m.next t).toNat)) = c.lay.tag := by
      show (tab 3 fun t => c.lay.tag.getD t (Char.ofNat (m4.junk m.next t).toNat)) = c.lay.tag
      cases c.lay <;> rfl
    rw [show (tab 3 fun t => (hdrState c.S c.L c.B c.dt c.lay).interleave.getD t (Char.ofNat ((m3.put m2.next (c.S * c.L * c.B * c.E) fun i => img.getD i 0).junk m.next t).toNat)) = c.lay.tag from etag]
    rw [bind_ok key, bind_ok (free_blk bt), convMem_free c.lay (show m.next < m4.next by omega)]
    rfl
  refine ⟨mi, v, w, ?_, ?_, ni, r7, r6, r8, r9, ?_, run, ?_⟩
  · intro x hx
    have hx' : m4.next ≤ x := hx
    have := w4 x hx'
    exact ⟨by rw [hmi, setBlk_blk_ne _ _ (by omega)]; exact this.1, this.2⟩
  · intro x hx
    have f2 := r3 x (by omega)
    refine ⟨?_, ?_, ?_⟩
    · rw [hmi, setBlk_blk_ne _ _ (by omega), hm4, put_blk_ne _ _ _ (by omega), hm3, grow_blk_ne _ _ _ (by omega), f2.1, hm1d, grow_blk_ne _ _ _ (by omega)]
    · show m2.hm x = _
      rw [f2.2.1]; rfl
    · show m2.sm x = _
      rw [f2.2.2]; rfl
  · intro h hh
    by_cases q0 : h = m.next
    · subst q0
      rw [hmi, setBlk_blk_self]
      simp
    rw [hmi, setBlk_blk_ne _ _ q0]
    by_cases q4 : h = m.next + 4
    · subst q4
      have : m4.blk (m.next + 4) = _ := n2 ▸ hd4
      rw [this]
      simp
    by_cases q2 : h = m.next + 2
    · subst q2
      rw [show m4.blk (m.next + 2) = _ from hw4]
      simp
    have : m4.blk h = none := by
      by_cases big : m.next + 5 ≤ h
      · exact (w4 h (by omega)).1
      · rw [hm4, put_blk_ne _ _ _ (by omega), hm3, grow_blk_ne _ _ _ (by omega)]
        by_cases q1 : h = m.next + 1
        · subst q1; exact r10
        · have : h = m.next + 3 := by omega
          subst this; exact r11
    rw [this]
    simp [q2, q4]
  · refine convMem_value (c := c.reread) hS hL hB hE ?_ ?_ hbd ?_ hfit
    · intro i j k t hi hj hk ht
      exact hel i j k t hi hj hk ht
    · intro t ht
      rw [hw]
      unfold encN
      have ht' : t < 4 * c.B := ht
      have hk : t / 4 < c.B := by omega
      show leByte (f32.encode (readBack (waveAt (waveBytes c) (t / 4))) % 256 ^ 4) (t % 4) = leByte (asPrinted (c.wave (t / 4))) (t % 4)
      rw [asPrinted_eq (hpr _ hk), hat _ hk]
    · intro k hk
      exact asPrinted_lt (hpr k hk)

/-- reading a cube that was saved: the new cube, and two blocks that nobody owns -/
theorem load_exact (other : Text → Option FV) {img : List UInt8} {c : CubeVal} (hs : Saved img c) (hm : m.WF) (hz : ZeroLast m) :
    ∃ mi v w, mi.WF ∧ Frame m mi ∧ mi.next = m.next + 5 ∧ mi.addr = m.addr ∧ mi.junk = m.junk ∧ mi.hm = m.hm ∧ mi.sm = m.sm ∧
      (∀ h, m.next ≤ h → (mi.blk h ≠ none ↔ h = m.next + 2 ∨ h = m.next + 4)) ∧
      hmread_with_hdr other (some img) (some (headerText c)) m = .ok (some (mi.next + 2), convMem mi c.lay c.S c.L c.B c.dt c.E v w) ∧
      HasValue (convMem mi c.lay c.S c.L c.B c.dt c.E v w) (mi.next + 2) c.reread :=
  load_part other hs hm hz (fun i hi => by rw [if_pos (by rw [hs.len]; exact hi)])

/-! ### The operations -/

/-- the state between two operations: `leaks` are the blocks that nobody owns -/
structure Between (m0 m : Mem) (fs0 fs : Files) (env : List (Option Nat)) (st : Store) (d : Disk) (leaks : List Nat) : Prop where
  rep : Represents (fun h => h < m0.next ∨ h ∈ leaks) m m env st
  frame : Frame m0 m
  junk : m.junk = m0.junk
  nodup : leaks.Nodup
  lost : ∀ h ∈ leaks, m0.next ≤ h ∧ m.blk h ≠ none
  stored : ∀ name c, d.get name = some c → Stored fs name c
  rest : ∀ n, (∀ e ∈ d, n ≠ e.1 ∧ n ≠ headerName e.1) → fs n = fs0 n

theorem leaks_cons (n a b : Nat) (l : List Nat) : (fun h => h < n ∨ h ∈ a :: b :: l) = fun h => (h < n ∨ h ∈ l) ∨ (h = a ∨ h = b) := by
  funext h
  simp only [List.mem_cons]
  apply propext
  tauto

theorem headerName_ne (n : Text) : n ≠ headerName n := by
  intro h
  have := congrArg List.length h
  simp [headerName] at this

theorem headerName_inj {a b : Text} (h : headerName a = headerName b) : a = b := List.append_cancel_right h

theorem write_self (fs : Files) (n : Text) (c : Content) : fs.write n c n = some c := by simp [Files.write]

theorem write_ne (fs : Files) {n k : Text} (c : Content) (h : k ≠ n) : fs.write n c k = fs k := by simp [Files.write, h]

/-- how many blocks an operation loses -/
def lostBy : FileOp → Nat
  | .cube _ => 0
  | _ => 2

theorem fileCube_step (other : Text → Option FV) {fs0 fs : Files} {d d' : Disk} {leaks : List Nat} {st' : Store} {o : CubeOp} {out : List Nat}
    (_ : ZeroLast m0) (hb : Between m0 m fs0 fs env st d leaks) (hn0 : m0.next ≤ m.next) (hs : (FileOp.cube o).step st d = some (st', d', out)) :
    ∃ fs' env' m' leaks', execFile other fs env (FileOp.cube o) m = .ok ((fs', env', out), m') ∧ Between m0 m' fs0 fs' env' st' d' leaks' ∧ m0.next ≤ m'.next ∧
      leaks'.length = leaks.length + lostBy (FileOp.cube o) := by
  obtain ⟨hr, hfr, hj, hnd, hlost, hst, hrest⟩ := hb
  simp only [FileOp.step] at hs
  cases ho : o.step st with
  | none => rw [ho] at hs; cases hs
  | some r =>
    obtain ⟨st1, o1⟩ := r
    rw [ho] at hs
    cases hs
    obtain ⟨env', m', run, hr'⟩ := exec_step hr ho
    refine ⟨fs, env', m', leaks, (bind_ok run).trans rfl, ⟨represents_rebase hr', ?_, hr'.junk.trans hj, hnd, ?_, hst, hrest⟩, ?_, rfl⟩
    · intro h hh
      obtain ⟨a1, a2, a3⟩ := hfr h hh
      obtain ⟨b1, b2, b3⟩ := hr'.frame h (Or.inl hh)
      exact ⟨b1.trans a1, b2.trans a2, b3.trans a3⟩
    · intro h hh
      refine ⟨(hlost h hh).1, ?_⟩
      rw [(hr'.frame h (Or.inr hh)).1]
      exact (hlost h hh).2
    · rcases Nat.eq_zero_or_pos m0.next with h0 | h0
      · omega
      · have := hr'.later (m0.next - 1) (Or.inl (by omega))
        omega

theorem fileSave_step (other : Text → Option FV) {fs0 fs : Files} {d d' : Disk} {leaks : List Nat} {st' : Store} {x : Nat} {name : Text} {out : List Nat}
    (_ : ZeroLast m0) (hb : Between m0 m fs0 fs env st d leaks) (hn0 : m0.next ≤ m.next) (hs : (FileOp.save x name).step st d = some (st', d', out)) :
    ∃ fs' env' m' leaks', execFile other fs env (FileOp.save x name) m = .ok ((fs', env', out), m') ∧ Between m0 m' fs0 fs' env' st' d' leaks' ∧ m0.next ≤ m'.next ∧
      leaks'.length = leaks.length + lostBy (FileOp.save x name) := by
  obtain ⟨hr, hfr, hj, hnd, hlost, hst, hrest⟩ := hb
  simp only [FileOp.step] at hs
  cases hx : st.get x with
  | none => rw [hx] at hs; cases hs
  | some c =>
    rw [hx] at hs
    simp only [Option.bind_eq_bind, Option.bind_some] at hs
    split at hs
    · rename_i hc
      obtain ⟨hpr, h20, hap⟩ := hc
      cases hs
      obtain ⟨p, hp, hv, ho⟩ := hr.cube x c hx
      obtain ⟨img, txt, s1, ⟨s2, s3⟩, s4⟩ := hmsaveFile_run hr.wf hv.1.1 hv.2.2.1
      obtain ⟨img', t1, t2, t3⟩ := save_run hv.1.1 hv.2.2.1 (by omega)
      rw [s1] at t1
      have et : txt = headerText c := by
        have := t1
        simp only [Except.ok.injEq, Prod.mk.injEq] at this
        exact this.1.2
      have run := s4 m hr.wf (frame_refl m) fs name
      set m' := (m.grow (name.length + 5) (m.junk m.next)).grow 4 (m.junk (m.next + 1)) with hm'
      have w1 : m'.WF := grow_WF (grow_WF hr.wf _ _) _ _
      have nn : m'.next = m.next + 2 := rfl
      have blk0 : m'.blk m.next ≠ none := by
        rw [hm', grow_blk_ne _ _ _ (show m.next ≠ m.next + 1 by omega)]
        rw [show (m.grow (name.length + 5) (m.junk m.next)).blk m.next = _ from grow_holds m _ _]
        simp
      have blk1 : m'.blk (m.next + 1) ≠ none := by
        rw [show m'.blk (m.next + 1) = _ from grow_holds (m.grow (name.length + 5) (m.junk m.next)) _ _]
        simp
      have hrep := represents_more (m' := m') hr (grow2_frame _ _ _ _) w1 (by omega) rfl rfl (P := fun h => h = m.next ∨ h = m.next + 1)
        (by rintro h (rfl | rfl) <;> omega) (by
          intro h h1 h2
          by_contra hc
          have hlt : h < m'.next := by
            by_contra hg
            exact h2 (w1 h (by omega)).1
          omega)
      refine ⟨(fs.write name (.image img)).write (headerName name) (.header txt), env, m', (m.next) :: (m.next + 1) :: leaks, ?_, ⟨?_, frame_trans hfr (grow2_frame _ _ _ _) hn0, hj, ?_, ?_, ?_, ?_⟩, by omega, rfl⟩
      · show (hmsaveFile fs name (ptr env x) >>= fun fs' => pure (fs', env, [])) m = _
        rw [ptr_some hp, bind_ok run]
        rfl
      · have e : (fun h => h < m0.next ∨ h ∈ m.next :: (m.next + 1) :: leaks) = fun h => (h < m0.next ∨ h ∈ leaks) ∨ (h = m.next ∨ h = m.next + 1) := leaks_cons ..
        rw [e]
        exact hrep
      · have old : ∀ h ∈ leaks, h < m.next := fun h hh => hr.later h (Or.inr hh)
        refine List.nodup_cons.2 ⟨?_, List.nodup_cons.2 ⟨?_, hnd⟩⟩
        · rw [List.mem_cons]
          rintro (h | h)
          · omega
          · exact absurd (old _ h) (by omega)
        · intro h
          exact absurd (old _ h) (by omega)
      · intro h hh
        rw [List.mem_cons, List.mem_cons] at hh
        rcases hh with rfl | rfl | hh
        · exact ⟨hn0, blk0⟩
        · exact ⟨by omega, blk1⟩
        · refine ⟨(hlost h hh).1, ?_⟩
          rw [((grow2_frame _ _ _ _ : Frame m m') h (hr.later h (Or.inr hh))).1]
          exact (hlost h hh).2
      · intro n e he
        by_cases hn : n = name
        · subst hn
          have : e = c := by
            simp [Disk.get, List.lookup] at he
            exact he.symm
          subst this
          refine ⟨img, ?_, ?_, ?_⟩
          · rw [write_ne _ _ (headerName_ne n), write_self]
          · rw [← et]
            exact write_self _ _ _
          · exact ⟨hv.1.1.size, hv.1.1.posS, hv.1.1.posL, hv.1.1.posB, hv.2.2, h20, s2, s3, hv.1.2, hv.2.1, hpr⟩
        · have he' : d.get n = some e := by
            have hne : (n == name) = false := by simpa using hn
            simpa [Disk.get, List.lookup, hne] using he
          obtain ⟨img0, g1, g2, g3⟩ := hst n e he'
          have hmem : ∃ e0 ∈ d, e0.1 = n := by
            have := List.lookup_eq_some_iff.1 he'
            obtain ⟨l1, l2, rfl, _⟩ := this
            exact ⟨(n, e), by simp, rfl⟩
          obtain ⟨e0, k1, k2⟩ := hmem
          obtain ⟨k3, k4⟩ := hap e0 k1
          rw [k2] at k3 k4
          refine ⟨img0, ?_, ?_, g3⟩
          · rw [write_ne _ _ (by exact k3), write_ne _ _ hn, g1]
          · rw [write_ne _ _ (fun h => hn (headerName_inj h)), write_ne _ _ (Ne.symm k4), g2]
      · intro n hn
        have h1 := hn (name, c) (by simp)
        rw [write_ne _ _ (by exact h1.2), write_ne _ _ h1.1]
        exact hrest n (fun e he => hn e (by simp [he]))
    · cases hs

theorem fileLoad_step (other : Text → Option FV) {fs0 fs : Files} {d d' : Disk} {leaks : List Nat} {st' : Store} {name : Text} {out : List Nat}
    (hz : ZeroLast m0) (hb : Between m0 m fs0 fs env st d leaks) (hn0 : m0.next ≤ m.next) (hs : (FileOp.load name).step st d = some (st', d', out)) :
    ∃ fs' env' m' leaks', execFile other fs env (FileOp.load name) m = .ok ((fs', env', out), m') ∧ Between m0 m' fs0 fs' env' st' d' leaks' ∧ m0.next ≤ m'.next ∧
      leaks'.length = leaks.length + lostBy (FileOp.load name) := by
  obtain ⟨hr, hfr, hj, hnd, hlost, hst, hrest⟩ := hb
  simp only [FileOp.step] at hs
  cases hx : d.get name with
  | none => rw [hx] at hs; cases hs
  | some c =>
    rw [hx] at hs
    cases hs
    obtain ⟨img, g1, g2, g3⟩ := hst name c hx
    have hz' : ZeroLast m := fun b n hn => by rw [hj]; exact hz b n hn
    obtain ⟨mi, v, w, i1, i2, i3, i4, i5, i6, i7, i8, run, hv⟩ := load_exact other g3 hr.wf hz'
    have hrep := represents_more (m' := mi) hr i2 i1 (by omega) i6 i7 (P := fun h => h = m.next + 2 ∨ h = m.next + 4)
      (by rintro h (rfl | rfl) <;> omega) (fun h h1 h2 => (i8 h h1).1 h2)
    have hnew := represents_rebase (represents_conv (c := c.reread) (v := v) (w := w) hrep hv)
    have fr : Frame mi (convMem mi c.lay c.S c.L c.B c.dt c.E v w) := convMem_frame mi c.lay
    have old : ∀ h ∈ leaks, h < m.next := fun h hh => hr.later h (Or.inr hh)
    refine ⟨fs, env ++ [some (mi.next + 2)], convMem mi c.lay c.S c.L c.B c.dt c.E v w, (m.next + 2) :: (m.next + 4) :: leaks, ?_, ⟨?_, frame_trans hfr (frame_trans i2 fr (by omega)) hn0, ?_, ?_, ?_, hst, hrest⟩,
      ?_, rfl⟩
    · show (hmreadFile other fs name (headerName name) >>= fun q => pure (fs, env ++ [q], [])) m = _
      unfold hmreadFile
      rw [g1, g2]
      dsimp only
      rw [bind_ok run]
      rfl
    · have e : (fun h => h < m0.next ∨ h ∈ (m.next + 2) :: (m.next + 4) :: leaks) = fun h => (h < m0.next ∨ h ∈ leaks) ∨ (h = m.next + 2 ∨ h = m.next + 4) := leaks_cons ..
      rw [e]
      exact hnew
    · exact i5.trans hj
    · refine List.nodup_cons.2 ⟨?_, List.nodup_cons.2 ⟨?_, hnd⟩⟩
      · rw [List.mem_cons]
        rintro (h | h)
        · omega
        · exact absurd (old _ h) (by omega)
      · intro h
        exact absurd (old _ h) (by omega)
    · intro h hh
      rw [List.mem_cons, List.mem_cons] at hh
      rcases hh with rfl | rfl | hh
      · refine ⟨by omega, ?_⟩
        rw [(fr (m.next + 2) (by omega)).1]
        exact (i8 _ (by omega)).2 (Or.inl rfl)
      · refine ⟨by omega, ?_⟩
        rw [(fr (m.next + 4) (by omega)).1]
        exact (i8 _ (by omega)).2 (Or.inr rfl)
      · have := old h hh
        refine ⟨(hlost h hh).1, ?_⟩
        rw [(fr h (by omega)).1, (i2 h this).1]
        exact (hlost h hh).2
    · show m0.next ≤ mi.next + 3
      omega

theorem file_step (other : Text → Option FV) {fs0 fs : Files} {d d' : Disk} {leaks : List Nat} {st' : Store} {op : FileOp} {out : List Nat}
    (hz : ZeroLast m0) (hb : Between m0 m fs0 fs env st d leaks) (hn0 : m0.next ≤ m.next) (hs : op.step st d = some (st', d', out)) :
    ∃ fs' env' m' leaks', execFile other fs env op m = .ok ((fs', env', out), m') ∧ Between m0 m' fs0 fs' env' st' d' leaks' ∧ m0.next ≤ m'.next ∧
      leaks'.length = leaks.length + lostBy op := by
  cases op with
  | cube o => exact fileCube_step other hz hb hn0 hs
  | save x name => exact fileSave_step other hz hb hn0 hs
  | load name => exact fileLoad_step other hz hb hn0 hs

theorem fileCalls_cons (op : FileOp) (ops : List FileOp) : 2 * fileCalls (op :: ops) = lostBy op + 2 * fileCalls ops := by
  cases op <;> simp only [fileCalls, lostBy] <;> omega

theorem files_run (other : Text → Option FV) (hz : ZeroLast m0) {fs0 : Files} (ops : List FileOp) : ∀ {m : Mem} {fs : Files} {env : List (Option Nat)}
    {st st' : Store} {d d' : Disk} {leaks : List Nat} {out : List Nat}, Between m0 m fs0 fs env st d leaks → m0.next ≤ m.next →
    filesMeaning st d ops = some (st', d', out) →
    ∃ fs' env' m' leaks', execFiles other fs env ops m = .ok ((fs', env', out), m') ∧ Between m0 m' fs0 fs' env' st' d' leaks' ∧
      leaks'.length = leaks.length + 2 * fileCalls ops := by
  induction ops with
  | nil =>
    intro m fs env st st' d d' leaks out hb _ hs
    cases hs
    exact ⟨fs, env, m, leaks, rfl, hb, rfl⟩
  | cons op ops ih =>
    intro m fs env st st' d d' leaks out hb hn hs
    unfold filesMeaning at hs
    cases h1 : op.step st d with
    | none => rw [h1] at hs; cases hs
    | some r =>
      obtain ⟨st1, d1, o1⟩ := r
      rw [h1] at hs
      simp only [Option.bind_eq_bind, Option.bind_some] at hs
      cases h2 : filesMeaning st1 d1 ops with
      | none => rw [h2] at hs; cases hs
      | some r =>
        obtain ⟨st2, d2, o2⟩ := r
        rw [h2] at hs
        cases hs
        obtain ⟨fs1, env1, m1, k1, run1, hb1, hn1, e1⟩ := file_step other hz hb hn h1
        obtain ⟨fs2, env2, m2, k2, run2, hb2, e2⟩ := ih hb1 hn1 h2
        refine ⟨fs2, env2, m2, k2, (bind_ok run1).trans ((bind_ok run2).trans rfl), hb2, ?_⟩
        rw [fileCalls_cons, e2, e1]
        omega

end HyperCV
