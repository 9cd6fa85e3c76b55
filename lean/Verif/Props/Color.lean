/- C45, C57, C58: colour conversions. -/
import Verif.Proof.Color
import Verif.Props.Image

namespace HyperCV
open Spec

/-! ### C45 -/

/-- **C45**, grey to colour: every channel of the new 3-channel image is the grey value. -/
theorem C45_gray2rgb {m : Mem} (hm : m.WF) {p R C : Nat} {px : Nat → Nat → Nat → UInt8}
    (h : IsImage8 m p R C 1 px) (hN : R * C * 3 ≤ 2147483551) :
    NewImage8 m (sm_gray2rgb (some p) m) R C 3 (fun i j _ => px i j 0) :=
  new8 hm h.posR h.posC (by decide) (gray2rgb_run hm h hN)

example : (demoImgs 1).WF ∧ IsImage8 (demoImgs 1) 1 2 3 1 (fun i j c => demoPx i j c 0) ∧ 2 * 3 * 3 ≤ 2147483551 :=
  ⟨demoImgs_WF 1, demoImgs_src (by decide), by decide⟩

theorem grey_le {method : Int} {r g b n : Nat} (hr : r ≤ 255) (hg : g ≤ 255) (hb : b ≤ 255)
    (h : GreyOf method r g b n) : n ≤ 255 := by
  unfold GreyOf at h
  split at h
  · omega
  · split at h <;> omega

/-- **C45**, colour to grey, all methods: for every 3-channel byte image the new one-channel image holds, at
every pixel, the maximum, the (truncated) weighted sum or the rounded mean of the colour. -/
theorem C45_rgb2gray {m : Mem} (hm : m.WF) {p R C : Nat} (method : Int) {px : Nat → Nat → Nat → UInt8}
    (h : IsImage8 m p R C 3 px) (hN : R * C * 3 ≤ 2147483551) :
    ∃ gray : Nat → Nat → UInt8, NewImage8 m (sm_rgb2gray (some p) method m) R C 1 (fun i j _ => gray i j) ∧
      ∀ i j, GreyOf method (px i j 0).toNat (px i j 1).toNat (px i j 2).toNat (gray i j).toNat := by
  refine ⟨_, new8 hm h.posR h.posC (by decide) (rgb2gray_run hm h hN), ?_⟩
  intro i j
  have hg := greyLevel_spec method (px i j 0).toNat (px i j 1).toNat (px i j 2).toNat
  have hle := grey_le (by have := (px i j 0).toNat_lt; omega) (by have := (px i j 1).toNat_lt; omega)
    (by have := (px i j 2).toNat_lt; omega) hg
  have e : ∀ n : Nat, n ≤ 255 → (uchar (n:ℤ)).toNat = n := by
    intro n hn
    have := uchar_toNat (n:ℤ)
    omega
  rw [e _ hle]
  exact hg

example : (demoImgs 3).WF ∧ IsImage8 (demoImgs 3) 1 2 3 3 (fun i j c => demoPx i j c 0) ∧ 2 * 3 * 3 ≤ 2147483551 :=
  ⟨demoImgs_WF 3, demoImgs_src (by decide), by decide⟩

/-- the three methods differ on the colour (200, 100, 1) -/
example : GreyOf 1 200 100 1 200 ∧ GreyOf 2 200 100 1 117 ∧ GreyOf 0 200 100 1 100 := by
  simp [GreyOf]

/-- **C45**, round trip: converting a grey image to colour and back with the maximum or the mean method returns
the grey image. -/
theorem C45_gray_rgb_gray {m : Mem} (hm : m.WF) {p R C : Nat} {method : Int} (hmeth : method ≠ 2)
    {px : Nat → Nat → Nat → UInt8} (h : IsImage8 m p R C 1 px) (hN : R * C * 3 ≤ 2147483551) :
    ∃ q m', (do let q ← sm_gray2rgb (some p); sm_rgb2gray q method) m = .ok (some q, m') ∧
      IsImage8 m' q R C 1 px ∧ FreshImg m m' q ∧ Frame m m' := by
  obtain ⟨q, m1, h1, h2, h3, h4, h5⟩ := C45_gray2rgb hm h hN
  have hnx : m.next ≤ m1.next := Nat.le_of_lt (Nat.lt_of_le_of_lt (h3 q (Or.inl rfl)) (img_lt_next h5 h2))
  obtain ⟨gray, ⟨q', m2, g1, g2, g3, g4, -⟩, g6⟩ := C45_rgb2gray h5 method h2 hN
  refine ⟨q', m2, ?_, img8_congr g2 ?_, ?_, ?_⟩
  · rw [bind_ok h1]; exact g1
  · intro i j c hi hj hc
    have hc0 : c = 0 := by omega
    subst hc0
    have := g6 i j
    apply UInt8.toNat_inj.1
    unfold GreyOf at this
    split at this
    · omega
    · omega
  · intro x hx
    exact Nat.le_trans (hnx) (g3 x hx)
  · exact frame_trans h4 g4 hnx

example : (demoImgs 1).WF ∧ (0:Int) ≠ 2 ∧ IsImage8 (demoImgs 1) 1 2 3 1 (fun i j c => demoPx i j c 0) ∧
    2 * 3 * 3 ≤ 2147483551 := ⟨demoImgs_WF 1, by decide, demoImgs_src (by decide), by decide⟩

/-- The weighted method is not the identity on grey colours: its weights sum to 0.991. -/
theorem C45_weighted_darkens {v n : Nat} (hv : 1 ≤ v) (h255 : v ≤ 255) (h : GreyOf 2 v v v n) : n < v := by
  simp only [GreyOf, show ¬ (2:Int) = 1 by decide, if_false, if_true] at h
  omega

/-- **C45**, swapping the outer channels into a separate image -/
theorem C45_bgr2rgb {m : Mem} {sp dp R C : Nat} {px px' : Nat → Nat → Nat → UInt8}
    (hs : IsImage8 m sp R C 3 px) (hd : IsImage8 m dp R C 3 px') (hsep : SepPixels m sp dp)
    (hN : R * C * 3 ≤ 2147483647) :
    ∃ m', sm_bgr2rgb (some sp) (some dp) m = .ok ((), m') ∧
      IsImage8 m' dp R C 3 (fun i j c => if c = 0 then px i j 2 else if c = 2 then px i j 0 else px i j c) ∧
      OnlyPixels m m' dp := by
  obtain ⟨m', h1, h2, h3⟩ := bgr2rgb_run hs hd hsep hN
  refine ⟨m', h1, img8_congr h2 ?_, h3⟩
  intro i j c _ _ hc
  rcases (by omega : c = 0 ∨ c = 1 ∨ c = 2) with rfl | rfl | rfl <;> rfl

/-- **C45**, involution: swapping from `a` to `b` and then from `b` to `c` leaves in `c` the pixels of `a`
(`c` may be `a` itself). -/
theorem C45_bgr2rgb_involution {m : Mem} {a b c R C : Nat} {pa pb pc : Nat → Nat → Nat → UInt8}
    (ha : IsImage8 m a R C 3 pa) (hb : IsImage8 m b R C 3 pb) (hc : IsImage8 m c R C 3 pc)
    (hab : SepPixels m a b) (hbc : SepPixels m b c) (hN : R * C * 3 ≤ 2147483647) :
    ∃ m', (do sm_bgr2rgb (some a) (some b); sm_bgr2rgb (some b) (some c)) m = .ok ((), m') ∧
      IsImage8 m' c R C 3 pa := by
  obtain ⟨m1, h1, h2, h3⟩ := bgr2rgb_run ha hb hab hN
  have hcb : SepPixels m c b := fun x hx => hbc x ⟨hx.2, hx.1⟩
  obtain ⟨m2, g1, g2, -⟩ := bgr2rgb_run h2 (img_only hc hcb h3) (sep_only hbc h3) hN
  refine ⟨m2, by rw [bind_ok h1]; exact g1, img8_congr g2 ?_⟩
  intro i j c _ _ hc
  rcases (by omega : c = 0 ∨ c = 1 ∨ c = 2) with rfl | rfl | rfl <;> rfl

example : IsImage8 (demoImgs 3) 1 2 3 3 (fun i j c => demoPx i j c 0) ∧ IsImage8 (demoImgs 3) 3 2 3 3 (fun _ _ _ => 9) ∧
    SepPixels (demoImgs 3) 1 3 ∧ SepPixels (demoImgs 3) 3 1 ∧ 2 * 3 * 3 ≤ 2147483647 :=
  ⟨demoImgs_src (by decide), demoImgs_dst (by decide), demoImgs_sep 3,
    fun x hx => demoImgs_sep 3 x ⟨hx.2, hx.1⟩, by decide⟩

/-- The separation hypothesis is needed: swapping an image in place overwrites the first channel before it is
read, so the colour (1, 2, 3) becomes (3, 2, 3). -/
theorem C45_bgr2rgb_in_place :
    blockAfter (sm_bgr2rgb (some 1) (some 1))
      (Mem.empty.newImage 1 1 1 3 1 (imgBytes 1 3 1 (fun _ _ c _ => UInt8.ofNat (c + 1)))) 0 = some [3, 2, 3] := by
  decide +kernel

/-! ### C57 -/

/-- **C57** (partial): for a binary image with values 0 and 1, background becomes black and foreground white.
Missing: images whose foreground is not 1, see `C57_refuted`. -/
theorem C57_binary2rgb_partial {m : Mem} (hm : m.WF) {p R C : Nat} {px : Nat → Nat → Nat → UInt8}
    (h : IsImage8 m p R C 1 px) (hN : R * C * 3 ≤ 2147483551)
    (hbin : ∀ i j, i < R → j < C → px i j 0 = 0 ∨ px i j 0 = 1) :
    NewImage8 m (sm_binary2rgb (some p) m) R C 3 (fun i j _ => if px i j 0 = 0 then 0 else 255) := by
  obtain ⟨q, m', h1, h2, h3⟩ := new8 hm h.posR h.posC (by decide) (binary2rgb_run hm h hN)
  refine ⟨q, m', h1, img8_congr h2 ?_, h3⟩
  intro i j c hi hj _
  rcases hbin i j hi hj with e | e <;> rw [e] <;> decide

example : ∃ (m : Mem) (px : Nat → Nat → Nat → UInt8), m.WF ∧ IsImage8 m 1 2 2 1 px ∧ 2 * 2 * 3 ≤ 2147483551 ∧
    (∀ i j, i < 2 → j < 2 → px i j 0 = 0 ∨ px i j 0 = 1) ∧ px 0 0 0 = 1 ∧ px 0 1 0 = 0 :=
  ⟨Mem.empty.newImage 2 2 1 1 1 (imgBytes 2 1 1 (fun i j _ _ => if i = j then 1 else 0)),
    fun i j _ => if i = j then 1 else 0, newImage_WF empty_WF,
    newImage_isImage rfl (by decide) (by decide) (by decide), by decide,
    by intro i j _ _; by_cases h : i = j <;> simp [h], rfl, rfl⟩

/-- **C57 refuted**: the library's own threshold routine marks foreground with any chosen value, typically 255;
`sm_binary2rgb` turns 255 into 255*255 mod 256 = 1, that is, practically black. -/
theorem C57_refuted : ¬ (∀ (m : Mem) (p R C : Nat) (px : Nat → Nat → Nat → UInt8), m.WF → IsImage8 m p R C 1 px →
    R * C * 3 ≤ 2147483551 → (∀ i j, i < R → j < C → px i j 0 = 0 ∨ px i j 0 = 255) →
    NewImage8 m (sm_binary2rgb (some p) m) R C 3 (fun i j _ => if px i j 0 = 0 then 0 else 255)) := by
  intro h
  have hi : IsImage8 (Mem.empty.newImage 1 1 1 1 1 (imgBytes 1 1 1 (fun _ _ _ _ => 255))) 1 1 1 1 (fun _ _ _ => 255) :=
    newImage_isImage rfl (by decide) (by decide) (by decide)
  obtain ⟨q, m', h1, h2, -⟩ := h _ 1 1 1 (fun _ _ _ => 255) (newImage_WF empty_WF) hi (by decide)
    (fun _ _ _ _ => Or.inr rfl)
  have h3 := binary2rgb_run (newImage_WF empty_WF) hi (by decide)
  rw [h1] at h3
  cases h3
  have h4 : IsImage8 _ _ 1 1 3 (fun _ _ _ => uchar (ival 255 * 255)) :=
    newImage_isImage (m := Mem.empty.newImage 1 1 1 1 1 (imgBytes 1 1 1 (fun _ _ _ _ => 255)))
      (px := fun _ _ _ _ => uchar (ival 255 * 255)) rfl (by decide) (by decide) (by decide)
  have := img_unique h2 h4 0 0 0 0 (by decide) (by decide) (by decide) (by decide)
  revert this
  decide

/-! ### C58 -/

/-- **C58 refuted**: for every image and every documented conversion code `hypercv_colortransform` ends without
returning a value (undefined behaviour when the caller uses it); other codes terminate the program. -/
theorem C58_refuted (m : Mem) (p : Nat) (method : Int) :
    hypercv_colortransform (some p) method m
      = .error (if method = 4 ∨ 6 ≤ method ∧ method ≤ 8 then .ub .uninit else .exit) := by
  unfold hypercv_colortransform
  rw [nonNull_some]
  by_cases h : method = 4 ∨ 6 ≤ method ∧ method ≤ 8
  · rw [if_pos h]
    have : decide (method = 4 ∨ method = 6 ∨ method = 7 ∨ method = 8) = true := by
      rw [decide_eq_true_eq]; omega
    rw [this]; rfl
  · rw [if_neg h]
    have : decide (method = 4 ∨ method = 6 ∨ method = 7 ∨ method = 8) = false := by
      rw [decide_eq_false_iff_not]; omega
    rw [this]; rfl

end HyperCV
