/- C109: header files of the C++ cubes. -/
import Verif.Proof.HyOpen

namespace HyperCV
open Spec HyMat

/-! ### C109 -/

/-- **C109, partial**, header: from the six lines of a header, followed by any harmless lines, `readHdr` gets exactly the geometry, the
type and the order, whatever the variables and the array contained before; memory does not change. -/
theorem C109_header_partial (other : List Char → FV) {S L B : Nat} {dt : Int} (lay : Layout) (hS : S ≤ 2147483647) (hL : L ≤ 2147483647)
    (hB : B ≤ 2147483647) (hdt : CI.InR dt) {ls : List (List Char)} (hls : ∀ l ∈ ls, Harmless l) (before : HdrVars) (array : Option Nat) (m : Mem) :
    readHdr other (some (enviHeader S L B dt lay ++ textOf ls)) before array m
      = .ok (⟨some (S : Int), some (L : Int), some (B : Int), some dt, lay.code⟩, m) := by
  have hr := head_read other array lay hS hL hB hdt hls [] before m
  rw [List.append_nil] at hr
  rw [hr]; rfl

/-- **C109, partial**, opening: a cube or an object without storage, opened with such a header and an image file that is not longer than
the cube (or of a type of one byte), becomes the cube of the file; bytes that the file does not have are zero, and so are the
wavelengths.  The old storage is released and nothing else changes.  Missing: headers with wavelengths, long keywords or empty lines and
longer files, see the refutations. -/
theorem C109_open_partial (other : List Char → FV) {m : Mem} (hm : m.WF) {o : HyMat} (ho : Usable m o) {S L B E : Nat} {dt : Int} (lay : Layout)
    (hS : 0 < S) (hL : 0 < L) (hB : 0 < B) (hE : elemBytes dt = some E) (hN : S * L * B * E ≤ 2147483647) {ls : List (List Char)}
    (hls : ∀ l ∈ ls, Harmless l) (img : List UInt8) (hlen : img.length ≤ S * L * B * E ∨ E = 1) :
    ∃ o' m', openHdr other o (some img) (some (enviHeader S L B dt lay ++ textOf ls)) m = .ok (o', m') ∧
      IsHyMat m' o' lay S L B dt E (fun i j k t => img.getD (lay.pos S L B i j k * E + t) 0) (fun _ => 0) ∧ Replaced m m' o o' := by
  obtain ⟨m2, c1, c2, c3, c4, c5, c6, c7⟩ := openHdr_run other hm ho lay hS hL hB hE hN hls
  refine ⟨newHy m2 S L B dt E lay, hyMem m2 (S * L * B * E) B (fun p => img.getD p 0) (fun _ => 0), ?_, ?_, ?_⟩
  · rw [c7]
    dsimp only
    rw [bind_ok (readFile_run img rfl hlen)]
    rfl
  · exact ⟨hE, hS, hL, hB, rfl, rfl, rfl, rfl, rfl, rfl, rfl, rfl, m2.next, m2.next + 1, fun p => img.getD p 0, rfl, rfl, by omega,
      bytes_iff.2 (hyMem_data c1), bytes_iff.2 hyMem_wave, fun _ _ _ _ _ _ _ _ => rfl⟩
  · have fr : ∀ h, h < m.next → (hyMem m2 (S * L * B * E) B (fun p => img.getD p 0) (fun _ => 0)).blk h = m2.blk h := fun h hh =>
      (hyMem_frame (m := m2) h (by rw [c2]; exact hh)).1
    have lt : ∀ h, (o.data = some h ∨ o.wavelength = some h) → h < m.next := by
      rcases ho with ⟨_, _, _, _, _, _, _, _, ho⟩ | ⟨h1, h2⟩
      · obtain ⟨d, wb, f, x1, x2, x3, x4, x5, x6⟩ := ho.store
        rw [bytes_iff] at x4 x5
        rw [x1, x2]
        intro h hh
        by_contra c
        have hb := (hm h (by omega)).1
        rcases hh with hh | hh
        · cases hh; rw [show m.blk d = _ from x4] at hb; exact absurd hb (by simp)
        · cases hh; rw [show m.blk wb = _ from x5] at hb; exact absurd hb (by simp)
      · rw [h1, h2]; rintro h (hh | hh) <;> exact absurd hh (by simp)
    refine ⟨fun h hh => by rw [fr h (lt h hh)]; exact c3 h hh, fun h hh a b => by rw [fr h hh]; exact c4 h a b, ⟨c5, c6⟩, ?_, hyMem_WF c1⟩
    intro h hh
    have := newHy_fresh (m := m2) (S := S) (L := L) (B := B) (dt := dt) (E := E) lay h hh
    omega

/-- **C109 refuted**, longer image files: the number of bytes of the cube is multiplied by the size of an element once more, so that a file
that is longer than the cube is written past the end of the new storage, for every object, geometry, order and type of more than one
byte. -/
theorem C109_refuted_long_file (other : List Char → FV) {m : Mem} (hm : m.WF) {o : HyMat} (ho : Usable m o) {S L B E : Nat} {dt : Int} (lay : Layout)
    (hS : 0 < S) (hL : 0 < L) (hB : 0 < B) (hE : elemBytes dt = some E) (hE1 : 1 < E) (hN : S * L * B * E ≤ 2147483647) {ls : List (List Char)}
    (hls : ∀ l ∈ ls, Harmless l) (img : List UInt8) (hlen : S * L * B * E < img.length) :
    openHdr other o (some img) (some (enviHeader S L B dt lay ++ textOf ls)) m = .error (.ub .oob) := by
  obtain ⟨m2, c1, c2, c3, c4, c5, c6, c7⟩ := openHdr_run other hm ho lay hS hL hB hE hN hls
  rw [c7]
  dsimp only
  exact bind_err (readFile_long img rfl (by positivity) c1 hlen hE1)

/-- **C109 refuted**, wavelengths: `open` sets the array of the wavelengths to NULL before it reads the header, so that every header with
wavelengths is a write through NULL, for every object, image file and geometry and whatever the wavelengths are. -/
theorem C109_refuted_wavelengths (other : List Char → FV) {m : Mem} (hm : m.WF) {o : HyMat} (ho : Usable m o) {S L B : Nat} {dt : Int} (lay : Layout)
    (hS : S ≤ 2147483647) (hL : L ≤ 2147483647) (hB : 0 < B) (hBr : B ≤ 2147483647) (hdt : CI.InR dt) {ls : List (List Char)}
    (hls : ∀ l ∈ ls, Harmless l) (t : List Char) (ht : ¬ "interleave".toList <:+: "wavelength = {".toList ++ t.takeWhile (· ≠ '\n'))
    (image : Option (List UInt8)) :
    openHdr other o image (some (enviHeader S L B dt lay ++ textOf ls ++ ("wavelength = {".toList ++ t))) m = .error (.ub .nullDeref) := by
  refine openHdr_err other hm ho (fun f m => ?_) image
  rw [head_read other none lay hS hL hBr hdt hls]
  obtain ⟨rest, hr⟩ := getlines_first (l := "wavelength = {".toList) (t := t) (by decide) (by decide)
  rw [hr, List.length_cons]
  refine rounds_err _ _ _ _ _ ?_
  rw [round_wave _ _ _ _ _ ht rfl]
  exact bind_err (storeWaves_null other hB _ _)

/-- **C109 refuted**, saving and opening: whatever cube is saved, the header that `save` has just written cannot be opened, by no object. -/
theorem C109_refuted_save_open {m : Mem} {o : HyMat} {S L B E : Nat} {dt : Int} {lay : Layout} {v : Nat → Nat → Nat → Nat → UInt8}
    {w : Nat → UInt8} (hc : IsHyMat m o lay S L B dt E v w) (hN : S * L * B * E ≤ 2147483647) (path : List Char) :
    ∃ img txt, save o path m = .ok (some (img, hdrPath path, txt), m) ∧
      (img.length = S * L * B * E ∧ ∀ i j k t, i < L → j < S → k < B → t < E → img.getD (lay.pos S L B i j k * E + t) 0 = v i j k t) ∧
      ∀ (other : List Char → FV) (m2 : Mem) (o2 : HyMat), m2.WF → Usable m2 o2 →
        openHdr other o2 (some img) (some txt) m2 = .error (.ub .nullDeref) := by
  obtain ⟨img, s1, s2, s3⟩ := hySave_run hc hN path
  refine ⟨img, _, s1, ⟨s2, s3⟩, ?_⟩
  intro other m2 o2 hm2 ho2
  obtain ⟨e1, e2, e3⟩ := get_elemsize_eq hc.size
  have hSLB : S * L * B ≤ 2147483647 := le_trans (Nat.le_mul_of_pos_right _ e2) hN
  have hSL : S * L ≤ 2147483647 := le_trans (Nat.le_mul_of_pos_right _ hc.posB) hSLB
  have hBr : B ≤ 2147483647 := le_trans (Nat.le_mul_of_pos_left _ (Nat.mul_pos hc.posS hc.posL)) hSLB
  have := C109_refuted_wavelengths other hm2 ho2 lay (le_trans (Nat.le_mul_of_pos_right _ hc.posL) hSL)
    (le_trans (Nat.le_mul_of_pos_left _ hc.posS) hSL) hc.posB hBr (elem_InR hc.size) (ls := []) (by simp)
    (" \n".toList ++ waveTail (waveAt w) 0 (B - 1)) (by
      have e : (" \n".toList ++ waveTail (waveAt w) 0 (B - 1)).takeWhile (· ≠ '\n') = " ".toList := by
        show (' ' :: '\n' :: waveTail (waveAt w) 0 (B - 1)).takeWhile (· ≠ '\n') = [' ']
        simp
      rw [e]; decide) (some img)
  have e : enviHeader S L B dt lay ++ ("wavelength = { \n".toList ++ waveTail (waveAt w) 0 (B - 1))
      = enviHeader S L B dt lay ++ textOf [] ++ ("wavelength = {".toList ++ (" \n".toList ++ waveTail (waveAt w) 0 (B - 1))) := by
    rw [show textOf [] = ([] : List Char) from rfl, List.append_nil, ← List.append_assoc "wavelength = {".toList]
    rfl
  rw [e]; exact this

/-- **C109 refuted**, long keywords: a line with 20 or more characters in front of `=` (such as `reflectance scale factor`, or a line
of a description) overflows an array of the reader, for every object, image file and geometry and whatever follows. -/
theorem C109_refuted_keyword (other : List Char → FV) {m : Mem} (hm : m.WF) {o : HyMat} (ho : Usable m o) {S L B : Nat} {dt : Int} (lay : Layout)
    (hS : S ≤ 2147483647) (hL : L ≤ 2147483647) (hB : B ≤ 2147483647) (hdt : CI.InR dt) {ls : List (List Char)}
    (hls : ∀ l ∈ ls, Harmless l) {k : List Char} (hk : ∀ c ∈ k, c ≠ '=' ∧ c ≠ '\n' ∧ c ≠ '\x00') (h20 : 20 ≤ k.length) (t : List Char)
    (image : Option (List UInt8)) :
    openHdr other o image (some (enviHeader S L B dt lay ++ textOf ls ++ (k ++ '=' :: t))) m = .error (.ub .oob) := by
  refine openHdr_err other hm ho (fun f m => ?_) image
  rw [head_read other none lay hS hL hB hdt hls]
  have e : k ++ '=' :: t = (k ++ ['=']) ++ t := by simp
  obtain ⟨rest, hr⟩ := getlines_first (l := k ++ ['=']) (t := t) (by
    intro c hc
    rcases List.mem_append.1 hc with hc | hc
    · exact (hk c hc).2.1
    · simp at hc; rw [hc]; decide) (by simp)
  rw [e, hr, List.length_cons]
  refine rounds_err _ _ _ _ _ ?_
  have e2 : k ++ ['='] ++ t.takeWhile (· ≠ '\n') = k ++ '=' :: t.takeWhile (· ≠ '\n') := by simp
  rw [e2]
  exact round_long _ _ _ _ _ (fun c hc => (hk c hc).1) (fun c hc => (hk c hc).2.2) h20

/-- **C109 refuted**, empty lines: an empty line makes the reader look at an array that has not been initialised, for every object,
image file and geometry and whatever follows. -/
theorem C109_refuted_empty_line (other : List Char → FV) {m : Mem} (hm : m.WF) {o : HyMat} (ho : Usable m o) {S L B : Nat} {dt : Int} (lay : Layout)
    (hS : S ≤ 2147483647) (hL : L ≤ 2147483647) (hB : B ≤ 2147483647) (hdt : CI.InR dt) {ls : List (List Char)}
    (hls : ∀ l ∈ ls, Harmless l) (t : List Char) (image : Option (List UInt8)) :
    openHdr other o image (some (enviHeader S L B dt lay ++ textOf ls ++ '\n' :: t)) m = .error (.ub .uninit) := by
  refine openHdr_err other hm ho (fun f m => ?_) image
  rw [head_read other none lay hS hL hB hdt hls]
  have hr := getlines_line (l := []) (t := t) (by simp)
  rw [show '\n' :: t = [] ++ '\n' :: t from rfl, hr, List.length_cons]
  exact rounds_err _ _ _ _ _ (round_blank _ _ _ _ _)

/-- **C109 refuted**, missing headers: if the header cannot be opened, the sizes that are used have not been initialised; the failure is
not reported. -/
theorem C109_refuted_no_header (other : List Char → FV) {m : Mem} (hm : m.WF) {o : HyMat} (ho : Usable m o) (image : Option (List UInt8)) :
    openHdr other o image none m = .error (.ub .uninit) := by
  obtain ⟨o1, m2, c1, c2, c3, c4⟩ := clear_run hm ho
  unfold openHdr
  rw [bind_ok c1]
  rfl

/-- all entries of a repeated wavelength are the first -/
theorem waveAt_first (w : Nat → UInt8) (k : Nat) : waveAt (fun t => w (t % 4)) k = waveAt w 0 := by
  have e : (tab 4 fun t => w ((k * 4 + t) % 4)) = tab 4 fun t => w (0 * 4 + t) := by
    apply tab_congr
    intro t ht
    rw [show (k * 4 + t) % 4 = 0 * 4 + t by omega]
  exact congrArg (fun l => f32.decode (leNat l)) e

/-- **C109 refuted**, wavelengths read into an array: `readHdr` called with an array for the wavelengths sets every entry to the
first wavelength of the header that `save` writes, because it splits the text at spaces and the text has none: for all cubes. -/
theorem C109_refuted_array {m : Mem} {o : HyMat} {S L B E : Nat} {dt : Int} {lay : Layout} {v : Nat → Nat → Nat → Nat → UInt8}
    {w : Nat → UInt8} (hc : IsHyMat m o lay S L B dt E v w) (hN : S * L * B * E ≤ 2147483647) (hw : ∀ k, k < B → SixDecimals (waveAt w k))
    (path : List Char) :
    ∃ img txt, save o path m = .ok (some (img, hdrPath path, txt), m) ∧
      ∀ (other : List Char → FV) (before : HdrVars) (m2 : Mem) (p : Nat) (old : Nat → UInt8), Bytes m2 p (B * 4) old →
        ∃ m', readHdr other (some txt) before (some p) m2 = .ok (⟨some (S : Int), some (L : Int), some (B : Int), some dt, lay.code⟩, m') ∧
          Bytes m' p (B * 4) (fun t => w (t % 4)) := by
  obtain ⟨img, s1, s2, s3⟩ := hySave_run hc hN path
  refine ⟨img, _, s1, ?_⟩
  intro other before m2 p old hp
  rw [bytes_iff] at hp
  obtain ⟨e1, e2, e3⟩ := get_elemsize_eq hc.size
  have hB := hc.posB
  have hSLB : S * L * B ≤ 2147483647 := le_trans (Nat.le_mul_of_pos_right _ e2) hN
  have hSL : S * L ≤ 2147483647 := le_trans (Nat.le_mul_of_pos_right _ hc.posB) hSLB
  have hBr : B ≤ 2147483647 := le_trans (Nat.le_mul_of_pos_left _ (Nat.mul_pos hc.posS hc.posL)) hSLB
  have hf : ∀ j, j < B → Short (waveAt w j) := fun j hj => sixDecimals_short (hw j hj)
  obtain ⟨body, b1, b2, rest, b3, b4⟩ := wave_body (waveAt w) (B - 1) 0 (fun j _ h2 => hf j (by omega))
  have hput : m2 = m2.putN p 4 B (fun j => leNat (tab 4 fun t => old (j * 4 + t))) := by
    have e : Holds m2 p (B * 4) (encN 4 (fun j => leNat (tab 4 fun t => old (j * 4 + t)))) := by
      refine hp.congr ?_
      intro q hq
      have : q = q / 4 * 4 + q % 4 := by omega
      conv_rhs => rw [this]
      rw [encN_at _ (Nat.mod_lt _ (by norm_num)), leByte_leNat _ (Nat.mod_lt _ (by norm_num)), ← this]
    exact (Holds.put_self e).symm
  have hl : getlines ("wavelength = { \n".toList ++ waveTail (waveAt w) 0 (B - 1)) = ["wavelength = {".toList ++ " ".toList, body ++ ['}']] := by
    have e : "wavelength = { \n".toList ++ waveTail (waveAt w) 0 (B - 1)
        = ("wavelength = {".toList ++ " ".toList) ++ '\n' :: waveTail (waveAt w) 0 (B - 1) := by
      rw [show "wavelength = { \n".toList = ("wavelength = {".toList ++ " ".toList) ++ ['\n'] by decide, List.append_assoc]; rfl
    rw [e, getlines_line (by decide), b1, getlines_last _ (by simp)]
    intro c hc
    rcases List.mem_append.1 hc with hc | hc
    · intro e; exact body_ne b2 (by decide) (by decide) (by decide) (by decide) (e ▸ hc)
    · simp at hc; rw [hc]; decide
  have hcol : collectBraced ("wavelength = {".toList ++ " ".toList) [body ++ ['}']] = (' ' :: body, []) := by
    have e : braced ("wavelength = {".toList ++ " ".toList) = " ".toList := by decide
    unfold collectBraced
    rw [if_neg (by decide), e]
    unfold collectBraced
    dsimp only
    rw [braced_body b2]
    rfl
  have hread := head_read other (some p) lay (le_trans (Nat.le_mul_of_pos_right _ hc.posL) hSL)
    (le_trans (Nat.le_mul_of_pos_left _ hc.posS) hSL) hBr (elem_InR hc.size) (ls := []) (by simp)
    ("wavelength = { \n".toList ++ waveTail (waveAt w) 0 (B - 1)) before m2
  rw [show textOf [] = ([] : List Char) from rfl, List.append_nil] at hread
  refine ⟨m2.putN p 4 B fun _ => f32.encode (readBack (waveAt w 0)) % 256 ^ 4, ?_, ?_⟩
  · rw [hread, hl]
    simp only [List.length_cons, List.length_nil]
    have hst := storeWaves_first other (p := p) (B := B) (hf 0 hB) b3 b4 b2 (m := m2) (a := fun j => leNat (tab 4 fun t => old (j * 4 + t)))
    rw [← hput] at hst
    have hround : hdrRound other (some p) ("wavelength = {".toList ++ " ".toList) [body ++ ['}']]
        ⟨some (S : Int), some (L : Int), some (B : Int), some dt, lay.code⟩ m2
        = .ok (([], ⟨some (S : Int), some (L : Int), some (B : Int), some dt, lay.code⟩),
          m2.putN p 4 B fun _ => f32.encode (readBack (waveAt w 0)) % 256 ^ 4) := by
      rw [round_wave _ _ _ _ _ (by decide) rfl, hcol]
      exact bind_ok hst
    rw [rounds_cons _ _ _ _ _ hround, rounds_nil]
  · rw [bytes_iff]
    have h := (holdsN_putN m2 (h := p) (w := 4) (n := B) (a := fun _ => f32.encode (readBack (waveAt w 0)) % 256 ^ 4)
      (fun _ _ => Nat.mod_lt _ (by norm_num))).1
    refine Holds.congr h ?_
    intro q hq
    have hb := wave_bytes (w := fun t => w (t % 4)) (B := B) (by
      intro k hk
      rw [waveAt_first]; exact hw 0 hB) q hq
    rw [← hb]
    unfold encN
    simp only [waveAt_first]

/-! ### Cases that meet the hypotheses -/

/-- lines that occur in headers -/
theorem harmless_lines : Harmless "description = {cube}".toList ∧ Harmless "header offset = 0".toList ∧ Harmless "wavelength = unknown ".toList ∧
    Harmless "byte order = 0".toList := by
  refine ⟨⟨?_, ?_, ?_, ?_, ?_, ?_, ?_⟩, ⟨?_, ?_, ?_, ?_, ?_, ?_, ?_⟩, ⟨?_, ?_, ?_, ?_, ?_, ?_, ?_⟩, ⟨?_, ?_, ?_, ?_, ?_, ?_, ?_⟩⟩ <;> decide

/-- keywords of ENVI headers with 20 or more characters before `=` -/
example : (∀ c ∈ "reflectance scale factor ".toList, c ≠ '=' ∧ c ≠ '\n' ∧ c ≠ '\x00') ∧ 20 ≤ "reflectance scale factor ".toList.length ∧
    20 ≤ "coordinate system string ".toList.length ∧ 20 ≤ "data reflectance offset values ".toList.length := by decide

/-- a header of 2 x 3 pixels and 4 bands, opened by an object without storage with a file of 48 bytes, gives a cube -/
example (other : List Char → FV) (o : HyMat) (h1 : o.data = none) (h2 : o.wavelength = none) :
    ∃ o' m', openHdr other o (some (List.replicate 48 7)) (some (enviHeader 2 3 4 2 .bil ++ textOf ["wavelength = unknown ".toList])) Mem.empty
      = .ok (o', m') ∧ IsHyMat m' o' .bil 2 3 4 2 2 (fun i j k t => (List.replicate 48 7).getD (Layout.bil.pos 2 3 4 i j k * 2 + t) 0) (fun _ => 0) ∧
      Replaced Mem.empty m' o o' :=
  C109_open_partial other (fun _ _ => ⟨rfl, rfl, rfl⟩) (Or.inr ⟨h1, h2⟩) .bil (by decide) (by decide) (by decide) rfl (by decide)
    (by intro l hl; simp at hl; rw [hl]; exact harmless_lines.2.2.1) _ (Or.inl (by simp))

/-- a cube object with wavelengths that six decimals determine -/
example (lay : Layout) : ∃ m o, IsHyMat m o lay 2 3 4 2 2 demoV demoWave ∧ 2 * 3 * 4 * 2 ≤ 2147483647 ∧
    (∀ k, k < 4 → SixDecimals (waveAt demoWave k)) ∧ Usable m o :=
  ⟨_, _, newHy_is (m := Mem.empty) (fun _ _ => ⟨rfl, rfl, rfl⟩) lay (by decide) (by decide) (by decide) rfl, by decide,
    fun k _ => demoWave_six k, Or.inl ⟨_, _, _, _, _, _, _, _, newHy_is (m := Mem.empty) (fun _ _ => ⟨rfl, rfl, rfl⟩) lay (by decide) (by decide) (by decide) rfl⟩⟩

end HyperCV
