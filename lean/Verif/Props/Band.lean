/- Properties of sub-cubes and bands (C16, C17). -/
import Verif.Props.Image

namespace HyperCV
open Spec

/-! ### C16 -/

/-- **C16**, ranges inside the cube: the result is a new cube of the range's size, in the same order, whose
element (i, j, k) is the source element offset by the range start, with the wavelengths of the selected
bands; the source and everything else is unchanged.
Missing from the full property: rejection of ranges that reach outside, see `C16_refuted`. -/
theorem C16_range_partial {m : Mem} {p S L B E sr sc sb l s b : Nat} {dt : Int} {lay : Layout}
    {v : Nat → Nat → Nat → Nat → UInt8} {w : Nat → UInt8} (hm : m.WF)
    (hc : IsCube m p lay S L B dt E v w) (hN : S * L * B * E ≤ 2147483647) (hW : 4 * B ≤ 2147483647)
    (l0 : 0 < l) (s0 : 0 < s) (b0 : 0 < b) (hl : sr + l ≤ L) (hs : sc + s ≤ S) (hb : sb + b ≤ B) :
    ∃ q m', hyper_mat_get_range (some p) sr sc sb ((sr + l : Nat) : Int) ((sc + s : Nat) : Int)
        ((sb + b : Nat) : Int) m = .ok (some q, m') ∧
      IsCube m' q lay s l b dt E (fun i j k t => v (sr + i) (sc + j) (sb + k) t) (fun t => w (4 * sb + t)) ∧
      IsCube m' p lay S L B dt E v w ∧ FreshCube m m' q ∧ Frame m m' := by
  have h := get_range_run hm hc hN hW l0 s0 b0 hl hs hb
  push_cast
  refine ⟨_, _, h, newCube_isCube lay s0 l0 b0 hc.size,
    isCube_frame hm hc (newCube_frame m), convMem_fresh m lay, newCube_frame m⟩

/-- **C16**, empty and inverted ranges are refused -/
theorem C16_empty_refused (p : Option Nat) (sr sc sb er ec eb : Int) (m : Mem)
    (h : er ≤ sr ∨ ec ≤ sc ∨ eb ≤ sb) :
    hyper_mat_get_range p sr sc sb er ec eb m = .error .exit := by
  unfold hyper_mat_get_range
  have : decide (sc < ec ∧ sr < er ∧ sb < eb) = false := by
    simp only [decide_eq_false_iff_not]; omega
  rw [this]; rfl

example (lay : Layout) : (demoMem lay).WF ∧ IsCube (demoMem lay) 2 lay 2 3 4 2 2 demoV demoW ∧
    (0 < 2 ∧ 0 < 1 ∧ 0 < 3) ∧ 1 + 2 ≤ 3 ∧ 1 + 1 ≤ 2 ∧ 1 + 3 ≤ 4 :=
  ⟨demo_WF _, demo_isCube _, by decide, by decide, by decide, by decide⟩

/-- **C16 refuted**, first way: a range one line too long is not rejected but read out of bounds. -/
theorem C16_refuted_oob (lay : Layout) :
    hyper_mat_get_range (some 2) 0 0 0 4 2 4 (demoMem lay) = .error (.ub .oob) := by
  apply errOf_some
  cases lay <;> decide +kernel

/-- **C16 refuted**, second way: columns outside the cube (here column 2 of a cube with 2 samples) are not
rejected; the call returns normally, with elements of another line in place of the requested ones. -/
theorem C16_refuted_silent :
    blockAfter (hyper_mat_get_range (some 2) 0 2 0 1 3 1) (demoMem .bil) 3 =
      some [demoV 0 0 1 0, demoV 0 0 1 1] := by decide +kernel

/-- **C16 refuted**: the rejection clause fails. -/
theorem C16_refuted : ¬ (∀ (m : Mem) (p S L B E : Nat) (lay : Layout) (dt : Int)
    (v : Nat → Nat → Nat → Nat → UInt8) (w : Nat → UInt8) (sr sc sb er ec eb : Int),
    m.WF → IsCube m p lay S L B dt E v w → S * L * B * E ≤ 2147483647 → 4 * B ≤ 2147483647 →
    (sr < 0 ∨ sc < 0 ∨ sb < 0 ∨ (L : Int) < er ∨ (S : Int) < ec ∨ (B : Int) < eb) →
    hyper_mat_get_range (some p) sr sc sb er ec eb m = .error .exit) := by
  intro h
  have := h _ _ _ _ _ _ _ _ _ _ 0 0 0 4 2 4 (demo_WF .bil) (demo_isCube .bil) (by decide) (by decide) (by decide)
  rw [C16_refuted_oob] at this
  cases this

/-! ### C17 -/

/-- the only difference between `m` and `m'` is in the data of cube `p` -/
def OnlyData (m m' : Mem) (p : Nat) : Prop :=
  m'.hm = m.hm ∧ m'.sm = m.sm ∧ m'.next = m.next ∧
    ∀ h, (∀ hdr, m.hm p = some hdr → h ≠ hdr.data) → m'.blk h = m.blk h

/-- the cube and the image do not share storage -/
def SepCubeImage (m : Mem) (p ip : Nat) : Prop :=
  ∀ hdr hdr', m.hm p = some hdr → m.sm ip = some hdr' → hdr.data ≠ hdr'.data ∧ hdr.wavelength ≠ some hdr'.data

section
variable {m : Mem} {p ip S L B E : Nat} {dt : Int} {v : Nat → Nat → Nat → Nat → UInt8} {w : Nat → UInt8}
  {px : Nat → Nat → Nat → Nat → UInt8}

/-- **C17**, extraction (complete for valid bands): band `k + 1` of a band-sequential cube of any element type
is copied element by element into the image; the cube is unchanged, nothing else changes. -/
theorem C17_extract (hc : IsCube m p .bsq S L B dt E v w) (hi : IsImage m ip L S dt 1 E px)
    (hsep : SepCubeImage m p ip) (hN : S * L * B * E ≤ 2147483647) {k : Nat} (hk : k < B) :
    ∃ m', hyper_mat_2_simple_mat (some p) (some ip) ((k:Int) + 1) m = .ok ((), m') ∧
      IsImage m' ip L S dt 1 E (fun i j _ t => v i j k t) ∧ IsCube m' p .bsq S L B dt E v w ∧
      OnlyPixels m m' ip := by
  obtain ⟨m', h1, h2, h3⟩ := extract_run hc hi (fun a b ha hb => (hsep a b ha hb).1) hN hk
  refine ⟨m', h1, h2, ?_, h3⟩
  obtain ⟨c1, c2, c3, c4, hdr, wb, f, g1, g2, g3, g4, g5, g6, g7, g8, g9, g10, g11⟩ := hc
  have hno : ∀ x, (x = hdr.data ∨ x = wb) → m'.blk x = m.blk x := by
    intro x hx
    apply h3.2.2.2
    rintro ⟨ih, e1, e2⟩
    have := hsep hdr ih g1 e1
    rw [g7] at this
    rcases hx with rfl | rfl
    · exact this.1 e2
    · exact this.2 (by rw [e2])
  refine ⟨c1, c2, c3, c4, hdr, wb, f, by rw [h3.1]; exact g1, g2, g3, g4, g5, g6, g7, g8, ?_, ?_, g11⟩
  · obtain ⟨l, l1, l2⟩ := g9
    exact ⟨l, by rw [hno _ (Or.inl rfl)]; exact l1, l2⟩
  · obtain ⟨l, l1, l2⟩ := g10
    exact ⟨l, by rw [hno _ (Or.inr rfl)]; exact l1, l2⟩

/-- **C17**, insertion, for one-byte elements: the image becomes band `k + 1`, all other bands, the header and
the wavelengths are unchanged.  Missing: wider elements, see `C17_insert_wide`. -/
theorem C17_insert_partial (hc : IsCube m p .bsq S L B dt 1 v w) (hi : IsImage m ip L S dt 1 1 px)
    (hsep : SepCubeImage m p ip) (hN : S * L * B ≤ 2147483647) {k : Nat} (hk : k < B) :
    ∃ m', simple_mat_2_hyper_mat (some p) (some ip) ((k:Int) + 1) m = .ok ((), m') ∧
      IsCube m' p .bsq S L B dt 1 (fun i j k' t => if k' = k then px i j 0 t else v i j k' t) w ∧
      IsImage m' ip L S dt 1 1 px ∧ OnlyData m m' p := by
  obtain ⟨hdr0, hh, hrun⟩ := insert_core hc hi (fun a b ha hb => (hsep a b ha hb).1) (by rwa [Nat.mul_one]) hk
  refine ⟨_, hrun, ?_, ?_, rfl, rfl, rfl, fun h hne => put_blk_ne _ _ _ (hne _ hh)⟩
  · obtain ⟨c1, c2, c3, c4, hdr, wb, f, g1, g2, g3, g4, g5, g6, g7, g8, g9, g10, g11⟩ := hc
    rw [hh] at g1
    cases g1
    refine ⟨c1, c2, c3, c4, hdr0, wb, _, hh, g2, g3, g4, g5, g6, g7, g8, bytes_iff.2 (holds_put _ _ _ _), ?_, ?_⟩
    · rw [bytes_iff] at g10 ⊢
      exact g10.put_ne (Ne.symm g8)
    · intro i j k' t hi hj hk' ht
      have ht0 : t = 0 := by omega
      subst ht0
      have hij : i * S + j < S * L := by
        have := img8_lt (R := L) (C := S) (ch := 1) hi hj (show 0 < 1 by omega)
        simp only [Nat.mul_one, Nat.add_zero] at this
        rwa [Nat.mul_comm S L]
      have e0 : Layout.bsq.pos S L B i j k' * 1 + 0 = S * L * k' + (i * S + j) := by
        simp only [Layout.pos]; ring
      rw [e0]
      by_cases hkk : k' = k
      · subst hkk
        rw [if_pos ⟨by omega, by omega⟩, if_pos rfl]
        have := imgBytes_at (C := S) (ch := 1) (E := 1) (i := i) (px := px) hj (show 0 < 1 by omega) (show 0 < 1 by omega)
        rw [← this]
        congr 1
        simp
      · rw [if_neg, if_neg hkk, ← e0, cubeBytes_at .bsq hi hj hk' ht]
        rintro ⟨a, b⟩
        rcases Nat.lt_or_gt_of_ne hkk with h | h
        · have : S * L * (k' + 1) ≤ S * L * k := Nat.mul_le_mul_left _ h
          rw [Nat.mul_succ] at this
          omega
        · have : S * L * (k + 1) ≤ S * L * k' := Nat.mul_le_mul_left _ h
          rw [Nat.mul_succ] at this
          omega
  · obtain ⟨c1, c2, c3, c4, ih, f, g1, g2, g3, g4, g5, g6, g7, g8⟩ := hi
    refine ⟨c1, c2, c3, c4, ih, f, g1, g2, g3, g4, g5, g6, ?_, g8⟩
    rw [bytes_iff] at g7 ⊢
    exact g7.put_ne (Ne.symm (hsep _ _ hh g1).1)

/-- **C17**, extracting after inserting returns the image (one-byte elements). -/
theorem C17_extract_insert_partial {ip' : Nat} {px' : Nat → Nat → Nat → Nat → UInt8}
    (hc : IsCube m p .bsq S L B dt 1 v w) (hi : IsImage m ip L S dt 1 1 px)
    (hi' : IsImage m ip' L S dt 1 1 px')
    (hsep : SepCubeImage m p ip) (hsep' : SepCubeImage m p ip') (hN : S * L * B ≤ 2147483647) {k : Nat} (hk : k < B) :
    ∃ m', (do simple_mat_2_hyper_mat (some p) (some ip) ((k:Int) + 1)
              hyper_mat_2_simple_mat (some p) (some ip') ((k:Int) + 1) : M Unit) m = .ok ((), m') ∧
      IsImage m' ip' L S dt 1 1 px := by
  obtain ⟨m1, h1, h2, h3, h4⟩ := C17_insert_partial hc hi hsep hN hk
  have hi1 : IsImage m1 ip' L S dt 1 1 px' := by
    obtain ⟨c1, c2, c3, c4, ih, f, g1, g2, g3, g4, g5, g6, ⟨l, l1, l2⟩, g8⟩ := hi'
    refine ⟨c1, c2, c3, c4, ih, f, by rw [h4.2.1]; exact g1, g2, g3, g4, g5, g6, ⟨l, ?_, l2⟩, g8⟩
    rw [h4.2.2.2 _ (fun hdr hh => Ne.symm (hsep' _ _ hh g1).1)]
    exact l1
  obtain ⟨m2, k1, k2, k3, k4⟩ := C17_extract h2 hi1
    (fun a b ha hb => hsep' a b (by rw [← h4.1]; exact ha) (by rw [← h4.2.1]; exact hb)) (by rwa [Nat.mul_one]) hk
  refine ⟨m2, by rw [bind_ok h1, k1], img_congr k2 ?_⟩
  intro i j c t _ _ hc _
  have : c = 0 := by omega
  subst this
  simp

/-- **C17**, inserting what was extracted leaves the cube unchanged (one-byte elements). -/
theorem C17_insert_extract_partial (hc : IsCube m p .bsq S L B dt 1 v w) (hi : IsImage m ip L S dt 1 1 px)
    (hsep : SepCubeImage m p ip) (hN : S * L * B ≤ 2147483647) {k : Nat} (hk : k < B) :
    ∃ m', (do hyper_mat_2_simple_mat (some p) (some ip) ((k:Int) + 1)
              simple_mat_2_hyper_mat (some p) (some ip) ((k:Int) + 1) : M Unit) m = .ok ((), m') ∧
      IsCube m' p .bsq S L B dt 1 v w ∧ SameCube m p m' p := by
  obtain ⟨m1, h1, h2, h3, h4⟩ := C17_extract hc hi hsep (by rwa [Nat.mul_one]) hk
  obtain ⟨m2, k1, k2, k3, k4⟩ := C17_insert_partial h3 h2
    (fun a b ha hb => hsep a b (by rw [← h4.1]; exact ha) (by rw [← h4.2.1]; exact hb)) hN hk
  have hcv : IsCube m2 p .bsq S L B dt 1 v w := by
    obtain ⟨c1, c2, c3, c4, hdr, wb, f, g1, g2, g3, g4, g5, g6, g7, g8, g9, g10, g11⟩ := k2
    refine ⟨c1, c2, c3, c4, hdr, wb, f, g1, g2, g3, g4, g5, g6, g7, g8, g9, g10, ?_⟩
    intro i j k' t hi hj hk' ht
    rw [g11 i j k' t hi hj hk' ht]
    by_cases h : k' = k
    · subst h; simp
    · simp [h]
  exact ⟨m2, by rw [bind_ok h1, k1], hcv, isCube_same hc hcv⟩

/-- **C17 refuted** for elements of more than one byte, for every cube and every band but the first: after
inserting an image as band `k + 1`, that band still holds its old contents. -/
theorem C17_insert_wide (hc : IsCube m p .bsq S L B dt E v w) (hi : IsImage m ip L S dt 1 E px)
    (hsep : SepCubeImage m p ip) (hN : S * L * B * E ≤ 2147483647) {k : Nat} (hk : k < B)
    (hk0 : 0 < k) (hE : 2 ≤ E) :
    ∃ m' v', simple_mat_2_hyper_mat (some p) (some ip) ((k:Int) + 1) m = .ok ((), m') ∧
      IsCube m' p .bsq S L B dt E v' w ∧ ∀ i j t, i < L → j < S → t < E → v' i j k t = v i j k t := by
  obtain ⟨hdr0, hh, hrun⟩ := insert_core hc hi (fun a b ha hb => (hsep a b ha hb).1) hN hk
  let new : Nat → UInt8 := fun q => if S * L * k ≤ q ∧ q < S * L * k + S * L then
        imgBytes S 1 E px (q - S * L * k) else cubeBytes .bsq S L B E v q
  refine ⟨_, fun i j k t => new (Layout.bsq.pos S L B i j k * E + t), hrun, ?_, ?_⟩
  · obtain ⟨c1, c2, c3, c4, hdr, wb, f, g1, g2, g3, g4, g5, g6, g7, g8, g9, g10, g11⟩ := hc
    rw [hh] at g1
    cases g1
    refine ⟨c1, c2, c3, c4, hdr0, wb, new, hh, g2, g3, g4, g5, g6, g7, g8, bytes_iff.2 (holds_put _ _ _ _), ?_,
      fun _ _ _ _ _ _ _ _ => rfl⟩
    rw [bytes_iff] at g10 ⊢
    exact g10.put_ne (Ne.symm g8)
  · intro i j t hi hj ht
    show new (Layout.bsq.pos S L B i j k * E + t) = _
    rw [← cubeBytes_at .bsq (v := v) hi hj hk ht]
    show (if _ then _ else _) = _
    rw [if_neg]
    rintro ⟨-, h2⟩
    have e : Layout.bsq.pos S L B i j k * E + t = S * L * k * E + ((i * S + j) * E + t) := by
      simp only [Layout.pos]; ring
    have h3 : S * L * k * 2 ≤ S * L * k * E := Nat.mul_le_mul_left _ hE
    have h4 : S * L * 1 ≤ S * L * k := Nat.mul_le_mul_left _ hk0
    omega

end

/-- demonstration heap for C17: a band-sequential byte cube at 2, a byte image at 4 -/
def demoBand (dt : Int) (E : Nat) : Mem :=
  (convMem Mem.empty .bsq 2 3 4 dt E demoV demoW).newImage 3 2 dt 1 E (imgBytes 2 1 E (fun _ _ _ _ => 99))

theorem demoBand_cube {dt : Int} {E : Nat} (h : elemBytes dt = some E) :
    IsCube (demoBand dt E) 2 .bsq 2 3 4 dt E demoV demoW :=
  isCube_frame (newCube_WF empty_WF) (newCube_isCube .bsq (by decide) (by decide) (by decide) h) (newImage_frame _)

theorem demoBand_img {dt : Int} {E : Nat} (h : elemBytes dt = some E) :
    IsImage (demoBand dt E) 4 3 2 dt 1 E (fun _ _ _ _ => 99) :=
  newImage_isImage (m := convMem Mem.empty .bsq 2 3 4 dt E demoV demoW) h (by decide) (by decide) (by decide)

theorem demoBand_sep (dt : Int) (E : Nat) : SepCubeImage (demoBand dt E) 2 4 := by
  intro a b ha hb
  have ha' : some (newHdr Mem.empty 2 3 4 dt Layout.bsq.tag) = some a := ha
  have hb' : some (newSHdr (convMem Mem.empty .bsq 2 3 4 dt E demoV demoW) 3 2 dt 1 E) = some b := hb
  cases ha'; cases hb'
  exact ⟨by show 0 ≠ 3; decide, by show some 1 ≠ some 3; decide⟩

example : IsCube (demoBand 1 1) 2 .bsq 2 3 4 1 1 demoV demoW ∧ IsImage (demoBand 1 1) 4 3 2 1 1 1 (fun _ _ _ _ => 99) ∧
    SepCubeImage (demoBand 1 1) 2 4 ∧ 2 * 3 * 4 ≤ 2147483647 ∧ 2 < 4 :=
  ⟨demoBand_cube rfl, demoBand_img rfl, demoBand_sep _ _, by decide, by decide⟩

/-- **C17 refuted**: insertion fails for 16-bit cubes. -/
theorem C17_refuted : ¬ (∀ (m : Mem) (p ip S L B E k : Nat) (dt : Int) (v px : Nat → Nat → Nat → Nat → UInt8)
    (w : Nat → UInt8), IsCube m p .bsq S L B dt E v w → IsImage m ip L S dt 1 E px → SepCubeImage m p ip →
    S * L * B * E ≤ 2147483647 → k < B →
    ∃ m', simple_mat_2_hyper_mat (some p) (some ip) ((k:Int) + 1) m = .ok ((), m') ∧
      IsCube m' p .bsq S L B dt E (fun i j k' t => if k' = k then px i j 0 t else v i j k' t) w) := by
  intro h
  obtain ⟨m', h1, h2⟩ := h (demoBand 2 2) 2 4 2 3 4 2 1 2 _ _ _ (demoBand_cube rfl) (demoBand_img rfl)
    (demoBand_sep _ _) (by decide) (by decide)
  obtain ⟨m'', v', k1, k2, k3⟩ := C17_insert_wide (demoBand_cube rfl) (demoBand_img rfl) (demoBand_sep 2 2)
    (by decide) (show 1 < 4 by decide) (by decide) (by decide)
  have e : m' = m'' := (Prod.mk.inj (Except.ok.inj (h1.symm.trans k1))).2
  subst e
  have e1 := k3 0 0 0 (by decide) (by decide) (by decide)
  obtain ⟨c1, c2, c3, c4, hdr, wb, f, g1, g2, g3, g4, g5, g6, g7, g8, g9, g10, g11⟩ := h2
  obtain ⟨_, _, _, _, hdr', wb', f', g1', g2', g3', g4', g5', g6', g7', g8', g9', g10', g11'⟩ := k2
  rw [g1] at g1'
  cases g1'
  rw [bytes_iff] at g9 g9'
  have e2 := (Holds.unique g9 g9').2 (Layout.bsq.pos 2 3 4 0 0 1 * 2 + 0) (by decide)
  rw [g11 0 0 1 0 (by decide) (by decide) (by decide) (by decide),
    g11' 0 0 1 0 (by decide) (by decide) (by decide) (by decide), e1] at e2
  revert e2
  decide

/-- **C17 refuted**, bands: extraction does not check the band, band 0 reads before the cube's data and band
B + 1 behind it. -/
theorem C17_extract_bad_band :
    hyper_mat_2_simple_mat (some 2) (some 4) 0 (demoBand 1 1) = .error (.ub .oob) ∧
    hyper_mat_2_simple_mat (some 2) (some 4) 5 (demoBand 1 1) = .error (.ub .oob) :=
  ⟨errOf_some (by decide +kernel), errOf_some (by decide +kernel)⟩

end HyperCV
