/- C110: the files that are written when a cube is saved. -/
import Verif.Props.HyHeader
import Verif.Spec.Files

namespace HyperCV
open Spec

/-! ### Lemmas -/

theorem frame_refl (m : Mem) : Frame m m := fun _ _ => ⟨rfl, rfl, rfl⟩

theorem grow2_frame {m : Mem} (a b : Nat) (f g : Nat → UInt8) : Frame m ((m.grow a f).grow b g) := by
  intro h hh
  refine ⟨?_, rfl, rfl⟩
  rw [grow_blk_ne _ _ _ (by simp; omega), grow_blk_ne _ _ _ (by omega)]

/-- what is saved, in every later state in which the cube is unchanged; memory changes by two new blocks -/
theorem hmsaveFile_run {m : Mem} (hm : m.WF) {p S L B E : Nat} {dt : Int} {lay : Layout} {v : Nat → Nat → Nat → Nat → UInt8} {w : Nat → UInt8}
    (hc : IsCube m p lay S L B dt E v w) (hN : S * L * B * E ≤ 2147483647) :
    ∃ img txt, hmsave (some p) m = .ok ((img, txt), m) ∧ (img.length = S * L * B * E ∧
        ∀ i j k t, i < L → j < S → k < B → t < E → img.getD (lay.pos S L B i j k * E + t) 0 = v i j k t) ∧
      ∀ (m' : Mem), m'.WF → Frame m m' → ∀ (fs : Files) (path : Text),
        hmsaveFile fs path (some p) m' = .ok ((fs.write path (.image img)).write (path ++ ['.', 'h', 'd', 'r']) (.header txt),
          (m'.grow (path.length + 5) (m'.junk m'.next)).grow 4 (m'.junk (m'.next + 1))) := by
  obtain ⟨h1, h2, h3, h4, hdr, wb, f, o1, o2, o3, o4, o5, o6, o7, o8, o9, o10, o11⟩ := hc
  obtain ⟨e1, e2, e3⟩ := get_elemsize_eq h1
  have hSLB : S * L * B ≤ 2147483647 := le_trans (Nat.le_mul_of_pos_right _ e2) hN
  have hSL : S * L ≤ 2147483647 := le_trans (Nat.le_mul_of_pos_right _ h4) hSLB
  have hBr : B ≤ 2147483647 := le_trans (Nat.le_mul_of_pos_left _ (Nat.mul_pos h2 h3)) hSLB
  have eds : (CI.lit (S : Int) * CI.lit (L : Int) * CI.lit (B : Int) : CI) = CI.lit ((S * L * B : Nat) : Int) := by
    rw [CI.mul_ok, CI.mul_ok]
    · push_cast; rfl
    · have : ((S : Int) * L * B) = ((S * L * B : Nat) : Int) := by push_cast; rfl
      rw [this]; constructor <;> omega
    · have : ((S : Int) * L) = ((S * L : Nat) : Int) := by push_cast; rfl
      rw [this]; constructor <;> omega
  have en : ((E : Int) * ((S * L * B : Nat) : Int)).toNat = S * L * B * E := by
    rw [← Nat.cast_mul, Int.toNat_natCast, Nat.mul_comm]
  refine ⟨tab (S * L * B * E) f, hdrHead S L B dt lay ++ ("wavelength = { \n".toList ++ waveTail (waveAt w) 0 (B - 1)), ?_,
    ⟨by simp, ?_⟩, ?_⟩
  · have hlb := loadBytes_ok (bytes_iff.1 o9) (S * L * B * E) 0 (by omega)
    simp only [Nat.zero_add] at hlb
    unfold hmsave
    rw [nonNull_some, bind_ok (getH_ok o1), o2, o3, o4, o5, o6, o7, ev_bind eds, e1, if_neg (by omega), en,
      bind_ok (show loadBytes hdr.data (S * L * B * E) 0 m = _ from hlb),
      bind_ok (writehdr_some S L dt lay h4 hBr (bytes_iff.1 o10) (by omega))]
    rfl
  · intro i j k t hi hj hk ht
    rw [← o11 i j k t hi hj hk ht]
    have hb : lay.pos S L B i j k * E + t < S * L * B * E := by
      obtain ⟨l, b1, b2, b3⟩ := o9
      have := byte_lt lay (E := E) hi hj hk; omega
    rw [List.getD_eq_getElem?_getD, tab_get? _ hb]
    rfl
  · intro m' hm' hF fs path
    have hp : p < m.next := by
      by_contra hlt
      have := (hm p (by omega)).2.1
      rw [o1] at this; cases this
    have o1' : m'.hm p = some hdr := by rw [(hF p hp).2.1]; exact o1
    have d9 := bytes_iff.1 o9
    have d10 := bytes_iff.1 o10
    have o9' : Holds m' hdr.data (S * L * B * E) f := by
      unfold Holds; rw [(hF _ (d9.lt_next hm)).1]; exact d9
    have o10' : Holds m' wb (4 * B) w := by
      unfold Holds; rw [(hF _ (d10.lt_next hm)).1]; exact d10
    have hlb := loadBytes_ok o9' (S * L * B * E) 0 (by omega)
    simp only [Nat.zero_add] at hlb
    unfold hmsaveFile
    rw [nonNull_some, bind_ok (getH_ok o1'), o2, o3, o4, o5, o6, o7, ev_bind eds, e1, if_neg (by omega), en,
      bind_ok (show loadBytes hdr.data (S * L * B * E) 0 m' = _ from hlb)]
    unfold writehdrFile
    refine (bind_ok (malloc_run _ _)).trans ((bind_ok (malloc_run _ _)).trans ?_)
    exact bind_ok (writehdr_some S L dt lay h4 hBr (Holds.grow (grow_WF hm' _ _) (Holds.grow hm' o10')) (by omega))

theorem append_ne_self (path : List Char) : path ≠ path ++ ".hdr".toList := by
  intro e
  have := congrArg List.length e
  rw [List.length_append, show (".hdr".toList).length = 4 by decide] at this
  omega

/-- two writes to different names -/
theorem twoFiles_write (fs : Files) {a b : List Char} (h : a ≠ b) (img : List UInt8) (txt : List Char) :
    TwoFiles fs ((fs.write a (.image img)).write b (.header txt)) a b img txt := by
  refine ⟨h, ?_, ?_, ?_⟩
  · simp [Files.write, h]
  · simp [Files.write]
  · intro n h1 h2; simp [Files.write, h1, h2]

theorem takeWhile_dot {path : List Char} (h : '.' ∈ path.takeWhile (· ≠ '.')) : False := by
  induction path with
  | nil => simp at h
  | cons c l ih =>
    rw [List.takeWhile_cons] at h
    split at h
    · rename_i hc
      rcases List.mem_cons.1 h with e | e
      · subst e; simp at hc
      · exact ih e
    · simp at h

/-- the name of the C++ header is never the name of the image -/
theorem hdrPath_ne (path : List Char) : path ≠ HyMat.hdrPath path := by
  intro e
  have h1 : '.' ∉ HyMat.hdrPath path := by
    unfold HyMat.hdrPath
    rw [List.mem_append, not_or]
    exact ⟨fun h => takeWhile_dot h, by decide⟩
  have h2 : path.takeWhile (· ≠ '.') = path := by
    have h0 : '.' ∉ path := by rw [e]; exact h1
    have h4 := List.takeWhile_append_of_pos (p := fun c => decide (c ≠ '.')) (l₁ := path) (l₂ := []) (by
      intro c hc
      have : c ≠ '.' := fun h => h0 (h ▸ hc)
      simpa using this)
    simpa using h4
  have h3 := congrArg List.length e
  unfold HyMat.hdrPath at h3
  rw [h2, List.length_append, show ("hdr".toList).length = 3 by decide] at h3
  omega

theorem hdrPath_stem {stem ext : List Char} (h : '.' ∉ stem) : HyMat.hdrPath (stem ++ '.' :: ext) = stem ++ "hdr".toList := by
  unfold HyMat.hdrPath
  rw [List.takeWhile_append_of_pos]
  · simp
  · intro c hc
    have : c ≠ '.' := fun e => h (e ▸ hc)
    simpa using this

theorem saveFile_run {m : Mem} {o : HyMat} {S L B E : Nat} {dt : Int} {lay : Layout} {v : Nat → Nat → Nat → Nat → UInt8}
    {w : Nat → UInt8} (hc : IsHyMat m o lay S L B dt E v w) (hN : S * L * B * E ≤ 2147483647) (path : List Char) :
    ∃ img txt, (img.length = S * L * B * E ∧
        ∀ i j k t, i < L → j < S → k < B → t < E → img.getD (lay.pos S L B i j k * E + t) 0 = v i j k t) ∧
      HyMat.save o path m = .ok (some (img, HyMat.hdrPath path, txt), m) ∧
      ∀ fs : Files, HyMat.saveFile fs o path m
        = .ok ((fs.write path (.image img)).write (HyMat.hdrPath path) (.header txt), m) := by
  obtain ⟨img, s1, s2, s3⟩ := hySave_run hc hN path
  refine ⟨img, enviHeader S L B dt lay ++ ("wavelength = { \n".toList ++ waveTail (waveAt w) 0 (B - 1)), ⟨s2, s3⟩, s1, fun fs => ?_⟩
  unfold HyMat.saveFile
  exact bind_ok s1

/-! ### C110 -/

/-- **C110, partial**, the C function: saving a cube under a name writes exactly two files, the image under this name and the header under
this name with `.hdr` behind it, with the contents that C14 speaks about; nothing that existed in memory changes.  Missing: the storage
that is used is not released, see `C110_refuted_leak`. -/
theorem C110_names_partial {m : Mem} (hm : m.WF) {p S L B E : Nat} {dt : Int} {lay : Layout} {v : Nat → Nat → Nat → Nat → UInt8} {w : Nat → UInt8}
    (hc : IsCube m p lay S L B dt E v w) (hN : S * L * B * E ≤ 2147483647) (fs : Files) (path : List Char) :
    ∃ img txt fs' m', hmsave (some p) m = .ok ((img, txt), m) ∧ hmsaveFile fs path (some p) m = .ok (fs', m') ∧
      TwoFiles fs fs' path (path ++ ".hdr".toList) img txt ∧
      (img.length = S * L * B * E ∧ ∀ i j k t, i < L → j < S → k < B → t < E → img.getD (lay.pos S L B i j k * E + t) 0 = v i j k t) ∧
      Frame m m' := by
  obtain ⟨img, txt, h1, h2, h3⟩ := hmsaveFile_run hm hc hN
  exact ⟨img, txt, _, _, h1, h3 m hm (frame_refl m) fs path, twoFiles_write fs (append_ne_self path) img txt, h2, grow2_frame _ _ _ _⟩

/-- **C110, partial**: two cubes saved one after the other under different names, neither being the name of the header of the other, are
both in the file system afterwards, each with its own header. -/
theorem C110_two_cubes_partial {m : Mem} (hm : m.WF) {p S L B E : Nat} {dt : Int} {lay : Layout} {v : Nat → Nat → Nat → Nat → UInt8}
    {w : Nat → UInt8} (hc : IsCube m p lay S L B dt E v w) (hN : S * L * B * E ≤ 2147483647)
    {p2 S2 L2 B2 E2 : Nat} {dt2 : Int} {lay2 : Layout} {v2 : Nat → Nat → Nat → Nat → UInt8} {w2 : Nat → UInt8}
    (hc2 : IsCube m p2 lay2 S2 L2 B2 dt2 E2 v2 w2) (hN2 : S2 * L2 * B2 * E2 ≤ 2147483647) (fs : Files) {a b : List Char} (hab : a ≠ b)
    (ha : a ≠ b ++ ".hdr".toList) (hb : b ≠ a ++ ".hdr".toList) :
    ∃ img txt img2 txt2 fs1 m1 fs2 m2, hmsave (some p) m = .ok ((img, txt), m) ∧ hmsave (some p2) m = .ok ((img2, txt2), m) ∧
      hmsaveFile fs a (some p) m = .ok (fs1, m1) ∧ hmsaveFile fs1 b (some p2) m1 = .ok (fs2, m2) ∧
      fs2 a = some (.image img) ∧ fs2 (a ++ ".hdr".toList) = some (.header txt) ∧
      fs2 b = some (.image img2) ∧ fs2 (b ++ ".hdr".toList) = some (.header txt2) := by
  obtain ⟨img, txt, h1, _, h3⟩ := hmsaveFile_run hm hc hN
  obtain ⟨img2, txt2, g1, _, g3⟩ := hmsaveFile_run hm hc2 hN2
  have t1 := twoFiles_write fs (append_ne_self a) img txt
  have t2 := twoFiles_write ((fs.write a (.image img)).write (a ++ ".hdr".toList) (.header txt)) (append_ne_self b) img2 txt2
  have hh : a ++ ".hdr".toList ≠ b ++ ".hdr".toList := fun e => hab (List.append_cancel_right e)
  refine ⟨img, txt, img2, txt2, _, _, _, _, h1, g1, h3 m hm (frame_refl m) fs a,
    g3 _ (grow_WF (grow_WF hm _ _) _ _) (grow2_frame _ _ _ _) _ b, ?_, ?_, t2.image, t2.header⟩
  · exact (t2.others a hab ha).trans t1.image
  · exact (t2.others _ (Ne.symm hb) hh).trans t1.header

/-- **C110 refuted**, storage: every call leaves two blocks allocated, one five bytes longer than the name and one of four bytes, that
did not exist before. -/
theorem C110_refuted_leak {m : Mem} (hm : m.WF) {p S L B E : Nat} {dt : Int} {lay : Layout} {v : Nat → Nat → Nat → Nat → UInt8} {w : Nat → UInt8}
    (hc : IsCube m p lay S L B dt E v w) (hN : S * L * B * E ≤ 2147483647) (fs : Files) (path : List Char) :
    ∃ fs' m' x y f g, hmsaveFile fs path (some p) m = .ok (fs', m') ∧ x ≠ y ∧ m.blk x = none ∧ m.blk y = none ∧
      Bytes m' x (path.length + 5) f ∧ Bytes m' y 4 g := by
  obtain ⟨img, txt, h1, h2, h3⟩ := hmsaveFile_run hm hc hN
  refine ⟨_, _, m.next, m.next + 1, m.junk m.next, m.junk (m.next + 1), h3 m hm (frame_refl m) fs path, by omega,
    (hm _ (le_refl _)).1, (hm _ (by omega)).1, ?_, ?_⟩
  · rw [bytes_iff]; exact Holds.grow (grow_WF hm _ _) (grow_holds m _ _)
  · rw [bytes_iff]; exact grow_holds (m.grow (path.length + 5) (m.junk m.next)) _ _

/-- **C110, partial**, the C++ function: it writes exactly two files as well, the image under the given name and the header under the part
of the name before the first dot with `hdr` behind it; memory does not change. -/
theorem C110_object_partial {m : Mem} {o : HyMat} {S L B E : Nat} {dt : Int} {lay : Layout} {v : Nat → Nat → Nat → Nat → UInt8}
    {w : Nat → UInt8} (hc : IsHyMat m o lay S L B dt E v w) (hN : S * L * B * E ≤ 2147483647) (fs : Files) {stem ext : List Char}
    (hs : '.' ∉ stem) :
    ∃ img txt fs', HyMat.saveFile fs o (stem ++ '.' :: ext) m = .ok (fs', m) ∧
      TwoFiles fs fs' (stem ++ '.' :: ext) (stem ++ "hdr".toList) img txt ∧
      (img.length = S * L * B * E ∧ ∀ i j k t, i < L → j < S → k < B → t < E → img.getD (lay.pos S L B i j k * E + t) 0 = v i j k t) := by
  obtain ⟨img, txt, h1, h2, h3⟩ := saveFile_run hc hN (stem ++ '.' :: ext)
  refine ⟨img, txt, _, h3 fs, ?_, h1⟩
  have := twoFiles_write fs (hdrPath_ne (stem ++ '.' :: ext)) img txt
  rwa [hdrPath_stem hs] at this ⊢

/-- **C110 refuted**, the C++ name: no header written by the C++ function has the name that the C function and the ENVI format use, the name of
the image with `.hdr` behind it, nor any other name that ends in `.hdr`: such a name still does not exist afterwards if it did not before. -/
theorem C110_refuted_name {m : Mem} {o : HyMat} {S L B E : Nat} {dt : Int} {lay : Layout} {v : Nat → Nat → Nat → Nat → UInt8}
    {w : Nat → UInt8} (hc : IsHyMat m o lay S L B dt E v w) (hN : S * L * B * E ≤ 2147483647) (fs : Files) (path : List Char) :
    ∃ fs', HyMat.saveFile fs o path m = .ok (fs', m) ∧
      ∀ any, any ++ ".hdr".toList ≠ path → fs' (any ++ ".hdr".toList) = fs (any ++ ".hdr".toList) := by
  obtain ⟨img, txt, h1, h2, h2'⟩ := saveFile_run hc hN path
  refine ⟨_, h2' fs, fun any hne => ?_⟩
  refine (twoFiles_write fs (hdrPath_ne path) img txt).others _ hne ?_
  intro e
  have h3 : '.' ∈ HyMat.hdrPath path := by rw [← e]; simp
  unfold HyMat.hdrPath at h3
  rcases List.mem_append.1 h3 with h3 | h3
  · exact takeWhile_dot h3
  · revert h3; decide

/-- **C110 refuted**, two C++ cubes: if the names of two images agree before the first dot, the second call replaces the header of the
first image: afterwards the only header written is the second one. -/
theorem C110_refuted_shared {m : Mem} {o : HyMat} {S L B E : Nat} {dt : Int} {lay : Layout} {v : Nat → Nat → Nat → Nat → UInt8}
    {w : Nat → UInt8} (hc : IsHyMat m o lay S L B dt E v w) (hN : S * L * B * E ≤ 2147483647)
    {o2 : HyMat} {S2 L2 B2 E2 : Nat} {dt2 : Int} {lay2 : Layout} {v2 : Nat → Nat → Nat → Nat → UInt8} {w2 : Nat → UInt8}
    (hc2 : IsHyMat m o2 lay2 S2 L2 B2 dt2 E2 v2 w2) (hN2 : S2 * L2 * B2 * E2 ≤ 2147483647) (fs : Files) {stem a b : List Char}
    (hs : '.' ∉ stem) :
    ∃ img txt img2 txt2 name fs1 fs2, HyMat.save o (stem ++ '.' :: a) m = .ok (some (img, name, txt), m) ∧
      HyMat.save o2 (stem ++ '.' :: b) m = .ok (some (img2, name, txt2), m) ∧
      HyMat.saveFile fs o (stem ++ '.' :: a) m = .ok (fs1, m) ∧ HyMat.saveFile fs1 o2 (stem ++ '.' :: b) m = .ok (fs2, m) ∧
      fs1 name = some (.header txt) ∧ fs2 name = some (.header txt2) ∧
      ∀ n t, fs2 n = some (.header t) → t = txt2 ∨ fs n = some (.header t) := by
  obtain ⟨img, txt, h1, a1, h2⟩ := saveFile_run hc hN (stem ++ '.' :: a)
  obtain ⟨img2, txt2, g1, b1, g2⟩ := saveFile_run hc2 hN2 (stem ++ '.' :: b)
  have e1 := hdrPath_stem (ext := a) hs
  have e2 := hdrPath_stem (ext := b) hs
  rw [e1] at a1
  rw [e2] at b1
  have a2 := h2 fs
  rw [e1] at a2
  have b2 := g2 ((fs.write (stem ++ '.' :: a) (.image img)).write (stem ++ "hdr".toList) (.header txt))
  rw [e2] at b2
  refine ⟨img, txt, img2, txt2, _, _, _, a1, b1, a2, b2, by simp [Files.write], by simp [Files.write], ?_⟩
  intro n t h
  simp only [Files.write] at h
  split at h
  · left; cases h; rfl
  · split at h
    · cases h
    · split at h
      · cases h
      · exact Or.inr h

/-- **C110 refuted**, an image that is lost: saving a second cube can replace the image of the first by a header. -/
theorem C110_refuted_image_lost {m : Mem} {o : HyMat} {S L B E : Nat} {dt : Int} {lay : Layout} {v : Nat → Nat → Nat → Nat → UInt8}
    {w : Nat → UInt8} (hc : IsHyMat m o lay S L B dt E v w) (hN : S * L * B * E ≤ 2147483647)
    {o2 : HyMat} {S2 L2 B2 E2 : Nat} {dt2 : Int} {lay2 : Layout} {v2 : Nat → Nat → Nat → Nat → UInt8} {w2 : Nat → UInt8}
    (hc2 : IsHyMat m o2 lay2 S2 L2 B2 dt2 E2 v2 w2) (hN2 : S2 * L2 * B2 * E2 ≤ 2147483647) (fs : Files) {stem ext : List Char}
    (hs : '.' ∉ stem) :
    ∃ img txt2 fs1 fs2, HyMat.saveFile fs o (stem ++ "hdr".toList) m = .ok (fs1, m) ∧ fs1 (stem ++ "hdr".toList) = some (.image img) ∧
      HyMat.saveFile fs1 o2 (stem ++ '.' :: ext) m = .ok (fs2, m) ∧ fs2 (stem ++ "hdr".toList) = some (.header txt2) := by
  obtain ⟨img, txt, h1, _, h2⟩ := saveFile_run hc hN (stem ++ "hdr".toList)
  obtain ⟨img2, txt2, g1, _, g2⟩ := saveFile_run hc2 hN2 (stem ++ '.' :: ext)
  have b2 := g2
  rw [hdrPath_stem hs] at b2
  exact ⟨img, txt2, _, _, h2 fs, (twoFiles_write fs (hdrPath_ne _) img txt).image, b2 _, by simp [Files.write]⟩

/-! ### Cases that meet the hypotheses -/

/-- a cube of 2 x 3 pixels and 4 bands, saved under two names one after the other -/
example (lay : Layout) (fs : Files) : ∃ m p img txt img2 txt2 fs1 m1 fs2 m2, hmsave (some p) m = .ok ((img, txt), m) ∧
    hmsave (some p) m = .ok ((img2, txt2), m) ∧ hmsaveFile fs "a".toList (some p) m = .ok (fs1, m1) ∧
    hmsaveFile fs1 "b".toList (some p) m1 = .ok (fs2, m2) ∧
    fs2 "a".toList = some (.image img) ∧ fs2 ("a".toList ++ ".hdr".toList) = some (.header txt) ∧
    fs2 "b".toList = some (.image img2) ∧ fs2 ("b".toList ++ ".hdr".toList) = some (.header txt2) := by
  have hm : Mem.empty.WF := fun _ _ => ⟨rfl, rfl, rfl⟩
  have hc := newCube_isCube (m := Mem.empty) (v := demoV) (w := demoWave) lay (S := 2) (L := 3) (B := 4) (dt := 2) (E := 2) (by decide) (by decide) (by decide) rfl
  exact ⟨_, _, C110_two_cubes_partial (newCube_WF hm) hc (by decide) hc (by decide) fs (by decide) (by decide) (by decide)⟩

/-- two objects with storage in the same state, as in the C++ theorems -/
example (lay : Layout) : ∃ m o, IsHyMat m o lay 2 3 4 2 2 demoV demoWave ∧ 2 * 3 * 4 * 2 ≤ 2147483647 :=
  ⟨_, _, newHy_is (m := Mem.empty) (fun _ _ => ⟨rfl, rfl, rfl⟩) lay (by decide) (by decide) (by decide) rfl, by decide⟩

/-- names as in the two C++ theorems -/
example : '.' ∉ "scene".toList ∧ HyMat.hdrPath "scene.img".toList = "scenehdr".toList ∧ HyMat.hdrPath "scene.raw".toList = "scenehdr".toList ∧
    HyMat.hdrPath "./scene.img".toList = "hdr".toList := by decide

end HyperCV
