import Verif.Proof.Image
import Verif.Model.Geometric
import Verif.Model.Threshold
import Verif.Model.ImageProcess

namespace HyperCV
open Spec

theorem nest2 {n1 n2 : Nat} {body : Int → Int → M Unit} {m : Mem} {d N : Nat}
    {new : Nat → UInt8} {P : Nat → Nat → Nat → Prop}
    (h : ∀ a b, a < n1 → b < n2 → Fills (body (a:Int) (b:Int)) m d N new (P a b)) :
    Fills (forI 0 (n1 : Int) fun a => forI 0 (n2 : Int) fun b => body a b)
      m d N new (fun p => ∃ a, a < n1 ∧ ∃ b, b < n2 ∧ P a b p) := by
  apply Fills.loop (P := fun a p => ∃ b, b < n2 ∧ P a b p)
  intro a ha
  apply Fills.loop (P := fun b p => P a b p)
  intro b hb
  exact h a b ha hb

section
variable {m : Mem} {sp dp R C ch : Nat} {px px' : Nat → Nat → Nat → UInt8}

/-- a byte-moving loop nest over all pixels -/
theorem move_fills {m : Mem} {s d Ns R C ch : Nat} {f : Nat → UInt8} (hs : Holds m s Ns f) (hne : s ≠ d)
    {new : Nat → UInt8} (src dst : Int → Int → Int → CI) (so : Nat → Nat → Nat → Nat)
    (h1 : ∀ i j c, i < R → j < C → c < ch → src i j c = CI.lit (so i j c : Int))
    (h2 : ∀ i j c, i < R → j < C → c < ch → so i j c < Ns)
    (h3 : ∀ i j c, i < R → j < C → c < ch → dst i j c = CI.lit (((i * C + j) * ch + c : Nat) : Int))
    (h4 : ∀ i j c, i < R → j < C → c < ch → new ((i * C + j) * ch + c) = f (so i j c)) :
    Fills (forI 0 (R:Int) fun i => forI 0 (C:Int) fun j => forI 0 (ch:Int) fun k => do
        let si ← ev (src i j k)
        let v ← load s si
        let di ← ev (dst i j k)
        store d di v) m d (R * C * ch) new (fun p => p < R * C * ch) := by
  refine Fills.congr (nest3 (P := fun i j k p => p = (i * C + j) * ch + k) ?_) ?_ (fun _ _ _ => rfl)
  · intro i j k hi hj hk
    rw [h1 i j k hi hj hk, h3 i j k hi hj hk]
    refine Fills.bind (fun g => ev_ok rfl _) ?_
    refine Fills.bind (fun g => load_ok (hs.put_ne hne) (h2 i j k hi hj hk)) ?_
    refine Fills.bind (fun g => ev_ok rfl _) ?_
    exact Fills.store (img8_lt hi hj hk) (h4 i j k hi hj hk).symm
  · intro p hp
    refine ⟨fun _ => hp, fun _ => ?_⟩
    obtain ⟨i, j, c, hi, hj, hc, e⟩ := img8_cover hp
    exact ⟨i, hi, j, hj, c, hc, e⟩

theorem img8_bounds (hs : IsImage8 m sp R C ch px) (hN : R * C * ch ≤ 2147483647) :
    R ≤ 2147483647 ∧ C ≤ 2147483647 ∧ ch ≤ 2147483647 ∧ C * ch ≤ 2147483647 := by
  have h1 := hs.posR; have h2 := hs.posCh; have h3 := hs.posC
  have e1 : R * C ≤ R * C * ch := Nat.le_mul_of_pos_right _ h2
  have e2 : R ≤ R * C := Nat.le_mul_of_pos_right _ h3
  have e3 : C ≤ R * C := Nat.le_mul_of_pos_left _ h1
  have e4 : C * ch ≤ R * (C * ch) := Nat.le_mul_of_pos_left _ h1
  have e5 : ch ≤ C * ch := Nat.le_mul_of_pos_left _ h3
  have e6 : R * (C * ch) = R * C * ch := by ring
  omega

theorem flip_h_core {sd dd : Nat} {si di : Bool} (hs : IsImage8 m sp R C ch px) (hd : IsImage8 m dp R C ch px')
    (a1 : m.sm sp = some ⟨R, C, 1, ch, 1, sd, si⟩) (b1 : m.sm dp = some ⟨R, C, 1, ch, 1, dd, di⟩)
    (hne : sd ≠ dd) (hN : R * C * ch ≤ 2147483647) :
    simple_mat_flip_horizontal (some sp) (some dp) m
      = .ok ((), m.put dd (R * C * ch) (imgBytes C ch 1 (fun i j c _ => px i (C - 1 - j) c))) := by
  have a6 : Holds m sd (R * C * ch) (imgBytes C ch 1 (fun i j c _ => px i j c)) := by
    obtain ⟨sd', si', a1', a6⟩ := img8_lit hs
    rw [a1] at a1'; cases a1'; exact a6
  have b6 : Holds m dd (R * C * ch) (imgBytes C ch 1 (fun i j c _ => px' i j c)) := by
    obtain ⟨sd', si', a1', a6⟩ := img8_lit hd
    rw [b1] at a1'; cases a1'; exact a6
  have hC : C ≤ 2147483647 := (img8_bounds hs hN).2.1
  have hf := move_fills (R := R) (C := C) (ch := ch) a6 hne
    (new := imgBytes C ch 1 (fun i j c _ => px i (C - 1 - j) c))
    (fun i j k => i * CI.lit C * CI.lit ch + (CI.lit C - CI.lit 1 - CI.lit j) * CI.lit ch + k)
    (fun i j k => i * CI.lit C * CI.lit ch + j * CI.lit ch + k)
    (fun i j k => (i * C + (C - 1 - j)) * ch + k)
    (by
      intro i j c hi hj hc
      rw [eval_rev hj hC]
      exact eval_img hi (by omega) hc hN)
    (by intro i j c hi hj hc; exact img8_lt hi (by omega) hc)
    (by intro i j c hi hj hc; exact eval_img hi hj hc hN)
    (by
      intro i j c hi hj hc
      rw [imgBytes_at8 hj hc (px := fun i j c => px i (C - 1 - j) c), imgBytes_at8 (by omega) hc])
  unfold simple_mat_flip_horizontal
  rw [nonNull_some, nonNull_some, bind_ok (getS_ok a1), bind_ok (getS_ok b1)]
  simp only [and_self, decide_true, cassert_bind_true]
  exact hf.total (fun p hp => hp) b6

theorem flip_h_run (hs : IsImage8 m sp R C ch px) (hd : IsImage8 m dp R C ch px')
    (hsep : SepPixels m sp dp) (hN : R * C * ch ≤ 2147483647) :
    ∃ m', simple_mat_flip_horizontal (some sp) (some dp) m = .ok ((), m') ∧
      IsImage8 m' dp R C ch (fun i j c => px i (C - 1 - j) c) ∧ OnlyPixels m m' dp := by
  obtain ⟨sd, si, a1, a6⟩ := img8_lit hs
  obtain ⟨dd, di, b1, b6⟩ := img8_lit hd
  have hne : sd ≠ dd := sep_ne hsep a1 b1
  obtain ⟨g1, g2⟩ := img8_put (px' := fun i j c => px i (C - 1 - j) c)
    (new := imgBytes C ch 1 (fun i j c _ => px i (C - 1 - j) c)) hd b1
    (fun i j c hi hj hc => imgBytes_at8 hj hc (px := fun i j c => px i (C - 1 - j) c))
  exact ⟨_, flip_h_core hs hd a1 b1 hne hN, g1, g2⟩

theorem flip_v_core {sd dd : Nat} {si di : Bool} (hs : IsImage8 m sp R C ch px) (hd : IsImage8 m dp R C ch px')
    (a1 : m.sm sp = some ⟨R, C, 1, ch, 1, sd, si⟩) (b1 : m.sm dp = some ⟨R, C, 1, ch, 1, dd, di⟩)
    (hne : sd ≠ dd) (hN : R * C * ch ≤ 2147483647) :
    simple_mat_flip_vertical (some sp) (some dp) m
      = .ok ((), m.put dd (R * C * ch) (imgBytes C ch 1 (fun i j c _ => px (R - 1 - i) j c))) := by
  have a6 : Holds m sd (R * C * ch) (imgBytes C ch 1 (fun i j c _ => px i j c)) := by
    obtain ⟨sd', si', a1', a6⟩ := img8_lit hs
    rw [a1] at a1'; cases a1'; exact a6
  have b6 : Holds m dd (R * C * ch) (imgBytes C ch 1 (fun i j c _ => px' i j c)) := by
    obtain ⟨sd', si', a1', a6⟩ := img8_lit hd
    rw [b1] at a1'; cases a1'; exact a6
  obtain ⟨hR, hC, hch, hCc⟩ := img8_bounds hs hN
  have e1 : (CI.lit (C:Int) * CI.lit (ch:Int) : CI) = CI.lit ((C * ch : Nat) : Int) := by
    have h : C * ch < 2147483648 := by omega
    have := hs.posCh
    ci_down
  have ev2 : ∀ i q, i < R → q < C * ch → (CI.lit (i:Int) * CI.lit (C:Int) * CI.lit (ch:Int) + CI.lit (q:Int) : CI)
      = CI.lit ((i * (C * ch) + q : Nat) : Int) := by
    intro i q hi hq
    have hb : i * (C * ch) + q < R * (C * ch) := mix_lt hi hq
    have e : i * (C * ch) + q = i * C * ch + q := by ring
    have e' : R * (C * ch) = R * C * ch := by ring
    rw [e, e'] at hb
    rw [e]
    have h : i * C * ch + q < 2147483648 := by omega
    have h1 := hs.posC
    have h2 := hs.posCh
    ci_down
  have hf : Fills (forI 0 (R:Int) fun i => do
      let n ← ev (CI.lit (C:Int) * CI.lit (ch:Int))
      forI 0 n fun j => do
        let si ← ev ((CI.lit (R:Int) - CI.lit 1 - CI.lit i) * CI.lit C * CI.lit ch + j)
        let v ← load sd si
        let di ← ev (i * CI.lit C * CI.lit ch + j)
        store dd di v) m dd (R * C * ch) (imgBytes C ch 1 (fun i j c _ => px (R - 1 - i) j c))
        (fun p => p < R * C * ch) := by
    refine Fills.congr (Fills.loop (P := fun i p => ∃ q, q < C * ch ∧ p = i * (C * ch) + q) ?_) ?_
      (fun _ _ _ => rfl)
    · intro i hi
      refine Fills.bind (fun g => ev_ok e1 _) ?_
      refine Fills.loop (P := fun q p => p = i * (C * ch) + q) ?_
      intro q hq
      obtain ⟨z, j, c, hz, hj, hc, hqe⟩ := img8_cover (R := 1) (C := C) (ch := ch) (p := q) (by rwa [Nat.one_mul])
      have hz0 : z = 0 := by omega
      subst hz0
      rw [eval_rev hi hR, ev2 _ q (by omega) hq, ev2 i q hi hq]
      refine Fills.bind (fun g => ev_ok rfl _) ?_
      have hlt : (R - 1 - i) * (C * ch) + q < R * C * ch := by
        have := mix_lt (a := R - 1 - i) (b := R) (by omega) hq
        calc _ < R * (C * ch) := this
          _ = _ := by ring
      have hlt2 : i * (C * ch) + q < R * C * ch := by
        have := mix_lt (a := i) (b := R) (by omega) hq
        calc _ < R * (C * ch) := this
          _ = _ := by ring
      refine Fills.bind (fun g => load_ok (a6.put_ne hne) hlt) ?_
      refine Fills.bind (fun g => ev_ok rfl _) ?_
      apply Fills.store hlt2
      have f1 : (R - 1 - i) * (C * ch) + q = ((R - 1 - i) * C + j) * ch + c := by rw [hqe]; ring
      have f2 : i * (C * ch) + q = (i * C + j) * ch + c := by rw [hqe]; ring
      rw [f1, f2, imgBytes_at8 hj hc, imgBytes_at8 hj hc (px := fun i j c => px (R - 1 - i) j c)]
    · intro p hp
      refine ⟨fun _ => hp, fun _ => ?_⟩
      obtain ⟨i, j, c, hi, hj, hc, e⟩ := img8_cover hp
      refine ⟨i, hi, j * ch + c, mix_lt hj hc, ?_⟩
      rw [e]; ring
  unfold simple_mat_flip_vertical
  rw [nonNull_some, nonNull_some, bind_ok (getS_ok a1), bind_ok (getS_ok b1)]
  simp only [and_self, decide_true, cassert_bind_true]
  exact hf.total (fun p hp => hp) b6

theorem flip_v_run (hs : IsImage8 m sp R C ch px) (hd : IsImage8 m dp R C ch px')
    (hsep : SepPixels m sp dp) (hN : R * C * ch ≤ 2147483647) :
    ∃ m', simple_mat_flip_vertical (some sp) (some dp) m = .ok ((), m') ∧
      IsImage8 m' dp R C ch (fun i j c => px (R - 1 - i) j c) ∧ OnlyPixels m m' dp := by
  obtain ⟨sd, si, a1, a6⟩ := img8_lit hs
  obtain ⟨dd, di, b1, b6⟩ := img8_lit hd
  have hne : sd ≠ dd := sep_ne hsep a1 b1
  obtain ⟨g1, g2⟩ := img8_put (px' := fun i j c => px (R - 1 - i) j c)
    (new := imgBytes C ch 1 (fun i j c _ => px (R - 1 - i) j c)) hd b1
    (fun i j c hi hj hc => imgBytes_at8 hj hc (px := fun i j c => px (R - 1 - i) j c))
  exact ⟨_, flip_v_core hs hd a1 b1 hne hN, g1, g2⟩

/-- the -1 flip, provided the temporary image is not placed at an address that is 48 modulo 64 -/
theorem flip_all_run (hm : m.WF) (hs : IsImage8 m sp R C ch px) (hd : IsImage8 m dp R C ch px')
    (hN : R * C * ch ≤ 2147483551)
    (ha : m.addr (m.next + 1) % 16 = 0) (hb : m.addr (m.next + 1) % 64 ≠ 48) :
    ∃ m', simple_mat_flip (some sp) (some dp) (-1) m = .ok ((), m') ∧
      IsImage8 m' dp R C ch (fun i j c => px (R - 1 - i) (C - 1 - j) c) ∧ OnlyPixels m m' dp ∧
      m'.addr = m.addr := by
  obtain ⟨sd, si, a1, a6⟩ := img8_lit hs
  obtain ⟨dd, di, b1, b6⟩ := img8_lit hd
  have sdlt := a6.lt_next hm
  have ddlt := b6.lt_next hm
  have splt : sp < m.next := img_lt_next hm hs
  have dplt : dp < m.next := img_lt_next hm hd
  have hcopy := copy_sm_ok hm hs (by omega)
  set m1 := m.newImage R C 1 ch 1 (imgBytes C ch 1 fun i j c _ => px i j c) with hm1
  have hsm1 : m1.sm (m.next + 1) = some (newSHdr m R C 1 ch 1) := newImage_sm _ _ _ _ _ _ _
  have hwf1 : m1.WF := newImage_WF hm
  have hfr1 : Frame m m1 := newImage_frame m
  have hs1 : IsImage8 m1 sp R C ch px := img_frame hm hs hfr1
  have hd1 : IsImage8 m1 dp R C ch px' := img_frame hm hd hfr1
  have ht1 : IsImage8 m1 (m.next + 1) R C ch px := newImage_isImage hs.size hs.posR hs.posC hs.posCh
  have hsps : m1.sm sp = m.sm sp := (hfr1 sp splt).2.2
  have hspd : m1.sm dp = m.sm dp := (hfr1 dp dplt).2.2
  have hsep1 : SepPixels m1 sp (m.next + 1) := by
    rintro x ⟨⟨h1, e1, rfl⟩, ⟨h2, e2, e3⟩⟩
    rw [hsm1] at e2; cases e2
    rw [hsps, a1] at e1; cases e1
    simp only [newSHdr] at e3
    omega
  have hs0 : m1.sm sp = some ⟨R, C, 1, ch, 1, sd, si⟩ := hsps.trans a1
  have hd0 : m1.sm dp = some ⟨R, C, 1, ch, 1, dd, di⟩ := hspd.trans b1
  have r1 := flip_h_core hs1 ht1 hs0 hsm1 (show sd ≠ m.next by omega) (by omega)
  obtain ⟨r2, r3⟩ := img8_put (px' := fun i j c => px i (C - 1 - j) c)
    (new := imgBytes C ch 1 (fun i j c _ => px i (C - 1 - j) c)) ht1 hsm1
    (fun i j c hi hj hc => imgBytes_at8 hj hc (px := fun i j c => px i (C - 1 - j) c))
  simp only [newSHdr] at r2 r3
  set m2 := m1.put m.next (R * C * ch) (imgBytes C ch 1 (fun i j c _ => px i (C - 1 - j) c)) with hm2
  have hd2 : IsImage8 m2 dp R C ch px' := by
    refine img_only hd1 ?_ r3
    rintro x ⟨⟨h1, e1, rfl⟩, ⟨h2, e2, e3⟩⟩
    rw [hsm1] at e2; cases e2
    rw [hspd, b1] at e1; cases e1
    simp only [newSHdr] at e3
    omega
  have s1 := flip_v_core r2 hd2 (show m2.sm (m.next + 1) = _ from hsm1) (show m2.sm dp = _ from hd0)
    (show m.next ≠ dd by omega) (by omega)
  obtain ⟨s2, s3⟩ := img8_put (px' := fun i j c => px (R - 1 - i) (C - 1 - j) c)
    (new := imgBytes C ch 1 (fun i j c _ => px (R - 1 - i) (C - 1 - j) c)) hd2 (show m2.sm dp = _ from hd0)
    (fun i j c hi hj hc => imgBytes_at8 hj hc (px := fun i j c => px (R - 1 - i) (C - 1 - j) c))
  set m3 := m2.put dd (R * C * ch) (imgBytes C ch 1 (fun i j c _ => px (R - 1 - i) (C - 1 - j) c)) with hm3
  have hsm3 : m3.sm (m.next + 1) = some (newSHdr m R C 1 ch 1) := hsm1
  have hdel : delete_simple_mat (some (m.next + 1)) m3 = _ := delete_sm_run hsm3 rfl ha hb
  refine ⟨{ m3 with
    sm := fun q => if q = m.next + 1 then none else m3.sm q
    blk := fun q => if q = m.next then none else m3.blk q }, ?_, ?_, ?_, rfl⟩
  · unfold simple_mat_flip
    rw [nonNull_some, nonNull_some, bind_ok (getS_ok a1), bind_ok (getS_ok b1)]
    simp only [and_self, decide_true, cassert_bind_true]
    rw [if_neg (by decide), if_neg (by decide), if_pos trivial]
    rw [bind_ok hcopy, bind_ok r1, bind_ok s1, hdel]
    unfold freeImage
    refine congrArg (fun x => Except.ok ((), x)) ?_
    apply Mem.ext' <;> try rfl
    funext q
    simp [newSHdr]
  · obtain ⟨h0, h1, h2, h3, hdr, f, g1, g2, g3, g4, g5, g6, g7, g8⟩ := s2
    refine ⟨h0, h1, h2, h3, hdr, f, ?_, g2, g3, g4, g5, g6, ?_, g8⟩
    · show (if dp = m.next + 1 then none else m3.sm dp) = _
      rw [if_neg (by omega)]; exact g1
    · rw [show m3.sm dp = _ from hd0] at g1
      cases g1
      obtain ⟨l, l1, l2⟩ := g7
      refine ⟨l, ?_, l2⟩
      show (if dd = m.next then none else m3.blk dd) = _
      rw [if_neg (by omega)]; exact l1
  · refine ⟨rfl, ?_, ?_, ?_⟩
    · funext q
      show (if q = m.next + 1 then none else m3.sm q) = _
      by_cases hq : q = m.next + 1
      · rw [if_pos hq, hq]; exact ((hm _ (by omega)).2.2).symm
      · rw [if_neg hq]; exact newImage_sm_old m hq
    · show m.next ≤ m.next + 2
      omega
    · intro x hx
      show (if x = m.next then none else m3.blk x) = _
      by_cases hq : x = m.next
      · rw [if_pos hq, hq]; exact ((hm _ (by omega)).1).symm
      · rw [if_neg hq]
        have hx2 : x ≠ dd := by rintro rfl; exact hx ⟨_, b1, rfl⟩
        rw [hm3, put_blk_ne _ _ _ hx2, hm2, put_blk_ne _ _ _ hq, hm1, newImage_blk_old m hq]

/-- the -1 flip when the temporary image is placed at an address that is 48 modulo 64 -/
theorem flip_all_bad (hm : m.WF) (hs : IsImage8 m sp R C ch px) (hd : IsImage8 m dp R C ch px')
    (hN : R * C * ch ≤ 2147483551) (hb : m.addr (m.next + 1) % 64 = 48) :
    simple_mat_flip (some sp) (some dp) (-1) m = .error (.ub .badFree) := by
  obtain ⟨sd, si, a1, a6⟩ := img8_lit hs
  obtain ⟨dd, di, b1, b6⟩ := img8_lit hd
  have sdlt := a6.lt_next hm
  have ddlt := b6.lt_next hm
  have splt : sp < m.next := img_lt_next hm hs
  have dplt : dp < m.next := img_lt_next hm hd
  have hcopy := copy_sm_ok hm hs (by omega)
  set m1 := m.newImage R C 1 ch 1 (imgBytes C ch 1 fun i j c _ => px i j c) with hm1
  have hsm1 : m1.sm (m.next + 1) = some (newSHdr m R C 1 ch 1) := newImage_sm _ _ _ _ _ _ _
  have hfr1 : Frame m m1 := newImage_frame m
  have hs1 : IsImage8 m1 sp R C ch px := img_frame hm hs hfr1
  have hd1 : IsImage8 m1 dp R C ch px' := img_frame hm hd hfr1
  have ht1 : IsImage8 m1 (m.next + 1) R C ch px := newImage_isImage hs.size hs.posR hs.posC hs.posCh
  have hsps : m1.sm sp = m.sm sp := (hfr1 sp splt).2.2
  have hspd : m1.sm dp = m.sm dp := (hfr1 dp dplt).2.2
  have hs0 : m1.sm sp = some ⟨R, C, 1, ch, 1, sd, si⟩ := hsps.trans a1
  have hd0 : m1.sm dp = some ⟨R, C, 1, ch, 1, dd, di⟩ := hspd.trans b1
  have r1 := flip_h_core hs1 ht1 hs0 hsm1 (show sd ≠ m.next by omega) (by omega)
  obtain ⟨r2, r3⟩ := img8_put (px' := fun i j c => px i (C - 1 - j) c)
    (new := imgBytes C ch 1 (fun i j c _ => px i (C - 1 - j) c)) ht1 hsm1
    (fun i j c hi hj hc => imgBytes_at8 hj hc (px := fun i j c => px i (C - 1 - j) c))
  simp only [newSHdr] at r2 r3
  set m2 := m1.put m.next (R * C * ch) (imgBytes C ch 1 (fun i j c _ => px i (C - 1 - j) c)) with hm2
  have hd2 : IsImage8 m2 dp R C ch px' := by
    refine img_only hd1 ?_ r3
    rintro x ⟨⟨h1, e1, rfl⟩, ⟨h2, e2, e3⟩⟩
    rw [hsm1] at e2; cases e2
    rw [hspd, b1] at e1; cases e1
    simp only [newSHdr] at e3
    omega
  have s1 := flip_v_core r2 hd2 (show m2.sm (m.next + 1) = _ from hsm1) (show m2.sm dp = _ from hd0)
    (show m.next ≠ dd by omega) (by omega)
  unfold simple_mat_flip
  rw [nonNull_some, nonNull_some, bind_ok (getS_ok a1), bind_ok (getS_ok b1)]
  simp only [and_self, decide_true, cassert_bind_true]
  rw [if_neg (by decide), if_neg (by decide), if_pos trivial]
  rw [bind_ok hcopy, bind_ok r1, bind_ok s1]
  exact delete_sm_bad (hdr := newSHdr m R C 1 ch 1) hsm1 rfl hb

end

/-! ### Transposition -/

theorem transport_run {m : Mem} {rp sp R C E : Nat} {dt : Int} {px px' : Nat → Nat → Nat → Nat → UInt8}
    (hr : IsImage m rp C R dt 1 E px') (hs : IsImage m sp R C dt 1 E px)
    (hsep : SepPixels m sp rp) (hN : R * C * E ≤ 2147483647) :
    ∃ m', simple_mat_transport (some rp) (some sp) m = .ok ((), m') ∧
      IsImage m' rp C R dt 1 E (fun i j c t => px j i c t) ∧ OnlyPixels m m' rp := by
  obtain ⟨sd, si, a1, a6⟩ := img_lit hs
  obtain ⟨dd, di, b1, b6⟩ := img_lit hr
  obtain ⟨e1, e2, e3⟩ := get_elemsize_eq hs.size
  have hne : sd ≠ dd := sep_ne hsep a1 b1
  rw [Nat.mul_one] at a6 b6
  have hN' : C * R * E ≤ 2147483647 := by rw [Nat.mul_comm C R]; exact hN
  have hf := move_fills (R := C) (C := R) (ch := E) a6 hne
    (new := imgBytes R 1 E (fun i j c t => px j i c t))
    (fun i j k => j * CI.lit C * CI.lit E + i * CI.lit E + k)
    (fun i j k => i * CI.lit R * CI.lit E + j * CI.lit E + k)
    (fun i j k => (j * C + i) * E + k)
    (by intro i j c hi hj hc; exact eval_img hj hi hc hN)
    (by intro i j c hi hj hc; exact img8_lt hj hi hc)
    (by intro i j c hi hj hc; exact eval_img hi hj hc hN')
    (by
      intro i j c hi hj hc
      have := imgBytes_at (C := R) (ch := 1) (E := E) (i := i) (j := j) (c := 0) (t := c)
        (px := fun i j c t => px j i c t) hj (by omega) hc
      have h2 := imgBytes_at (C := C) (ch := 1) (E := E) (i := j) (j := i) (c := 0) (t := c)
        (px := px) hi (by omega) hc
      rw [Nat.mul_one, Nat.add_zero] at this h2
      rw [this, h2])
  obtain ⟨g1, g2⟩ := img_put (px' := fun i j c t => px j i c t)
    (new := imgBytes R 1 E (fun i j c t => px j i c t)) hr b1
    (fun i j c t hi hj hc ht => imgBytes_at hj hc ht)
  rw [Nat.mul_one] at g1 g2
  refine ⟨_, ?_, g1, g2⟩
  unfold simple_mat_transport
  rw [bind_ok (show derefS (some rp) m = _ from getS_ok b1), bind_ok (show derefS (some sp) m = _ from getS_ok a1)]
  simp only [and_self, decide_true, cassert_bind_true, e1]
  exact hf.total (fun p hp => hp) b6

/-! ### Pointwise loops -/

/-- `for (i) dst[i] = g(src[i])`; `src` and `dst` may be the same block -/
theorem map_run {m : Mem} {s d n : Nat} {f h : Nat → UInt8} {g : UInt8 → UInt8}
    (hs : Holds m s n f) (hd : Holds m d n h) :
    forI 0 (n : Int) (fun i => do
      let v ← load s i
      store d i (g v)) m = .ok ((), m.put d n (fun p => g (f p))) := by
  by_cases hsd : s = d
  · subst hsd
    have key := forI_run (n := n) (body := fun i => do
      let v ← load s i
      store s i (g v))
      (fun i => m.put s n (fun p => if p < i then g (f p) else f p)) (by
        intro i hi
        rw [bind_ok (load_ok (holds_put _ _ _ _) hi), store_put hi]
        refine congrArg (fun x => Except.ok ((), x)) ?_
        apply put_congr
        intro p hp
        by_cases h1 : p = i
        · subst h1; simp
        · by_cases h2 : p < i
          · simp [h1, h2, show p < i + 1 by omega]
          · simp [h1, h2, show ¬ p < i + 1 by omega])
    have e0 : m.put s n (fun p => if p < 0 then g (f p) else f p) = m := by
      have : m.put s n (fun p => if p < 0 then g (f p) else f p) = m.put s n f :=
        put_congr _ _ _ (by intro p hp; simp)
      rw [this]; exact hs.put_self
    beta_reduce at key
    rw [e0] at key
    rw [key]
    refine congrArg (fun x => Except.ok ((), x)) ?_
    apply put_congr
    intro p hp
    simp [hp]
  · have hf : Fills (forI 0 (n : Int) (fun i => do
        let v ← load s i
        store d i (g v))) m d n (fun p => g (f p)) (fun p => p < n) := by
      refine Fills.congr (Fills.loop (P := fun i p => p = i) ?_) ?_ (fun _ _ _ => rfl)
      · intro i hi
        refine Fills.bind (fun g => load_ok (hs.put_ne hsd) hi) ?_
        exact Fills.store hi rfl
      · intro p hp
        exact ⟨fun _ => hp, fun _ => ⟨p, hp, rfl⟩⟩
    exact hf.total (fun p hp => hp) hd

theorem threshold_run {m : Mem} {sp dp R C : Nat} {px px' : Nat → Nat → Nat → UInt8} (F : Int → Int)
    (hs : IsImage8 m sp R C 1 px) (hd : IsImage8 m dp R C 1 px') (hN : R * C ≤ 2147483647) :
    ∃ m', thresholdLoop F (some sp) (some dp) m = .ok ((), m') ∧
      IsImage8 m' dp R C 1 (fun i j c => uchar (F (ival (px i j c)))) ∧ OnlyPixels m m' dp := by
  obtain ⟨sd, si, a1, a6⟩ := img8_lit hs
  obtain ⟨dd, di, b1, b6⟩ := img8_lit hd
  have hrun := map_run (g := fun v => uchar (F (ival v))) a6 b6
  obtain ⟨g1, g2⟩ := img8_put (px' := fun i j c => uchar (F (ival (px i j c))))
    (new := fun p => uchar (F (ival (imgBytes C 1 1 (fun i j c _ => px i j c) p)))) hd b1
    (fun i j c hi hj hc => by rw [imgBytes_at8 hj hc])
  refine ⟨_, ?_, g1, g2⟩
  unfold thresholdLoop
  rw [nonNull_some, nonNull_some, bind_ok (getS_ok a1), bind_ok (getS_ok b1)]
  simp only [and_self, decide_true, cassert_bind_true, Int.natCast_one]
  have e := size3_eval (R := R) (C := C) (ch := 1) hs.posC (by omega) (by omega)
  rw [Int.natCast_one] at e
  rw [ev_bind e]
  exact hrun

theorem uchar_toNat (x : Int) : ((uchar x).toNat : Int) = x % 256 := by
  have h : (x % 256).toNat < 256 := by omega
  have e : (uchar x).toNat = (x % 256).toNat := by
    unfold uchar
    rw [UInt8.toNat_ofNat']
    exact Nat.mod_eq_of_lt h
  rw [e]; omega

theorem uchar_eq_of {x y : Int} (h : x % 256 = y % 256) : uchar x = uchar y := by
  unfold uchar; rw [h]

/-! ### Otsu -/

theorem forI_reads {body : Int → M Unit} {m : Mem} {e : Err} {n : Nat}
    (h : ∀ i, i < n → body (i : Int) m = .ok ((), m) ∨ body (i : Int) m = .error e)
    (hb : ∃ i, i < n ∧ body (i : Int) m = .error e) :
    forI 0 (n : Int) body m = .error e := by
  classical
  let b := Nat.find hb
  have hb1 := Nat.find_spec hb
  refine forI_err (b := b) (fun _ => m) hb1.1 ?_ hb1.2
  intro i hi
  have := Nat.find_min hb hi
  rcases h i (by omega) with h' | h'
  · exact h'
  · exact absurd ⟨by omega, h'⟩ this

theorem forI_reads_or {body : Int → M Unit} {m : Mem} {e : Err} {n : Nat}
    (h : ∀ i, i < n → body (i : Int) m = .ok ((), m) ∨ body (i : Int) m = .error e) :
    forI 0 (n : Int) body m = .ok ((), m) ∨ forI 0 (n : Int) body m = .error e := by
  by_cases hb : ∃ i, i < n ∧ body (i : Int) m = .error e
  · exact Or.inr (forI_reads h hb)
  · left
    refine forI_run (fun _ => m) ?_
    intro i hi
    rcases h i hi with h' | h'
    · exact h'
    · exact absurd ⟨i, hi, h'⟩ hb

theorem load_or {m : Mem} {h n i : Nat} {f : Nat → UInt8} (hm : Holds m h n f) :
    load h (i : Int) m = .ok (f i, m) ∧ i < n ∨ load h (i : Int) m = .error (.ub .oob) ∧ n ≤ i := by
  by_cases hi : i < n
  · exact Or.inl ⟨load_ok hm hi, hi⟩
  · exact Or.inr ⟨load_oob hm (by omega), by omega⟩

end HyperCV
