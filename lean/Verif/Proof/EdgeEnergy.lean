/- The run of `cal_edge_signal_energy`. -/
import Verif.Proof.FloatAdd
import Verif.Proof.Arrays
import Verif.Proof.Header

namespace HyperCV
open Spec

/-- border type 0 selects row or column 1 outside the image -/
def oneTap (len : Nat) (p : Int) : Nat := if 0 ≤ p ∧ p < len then p.toNat else 1

theorem tap_one {len k : Nat} (h : 2 ≤ len) : TapOK 0 len k (oneTap len) := by
  intro p h1 h2
  unfold border borderFuel oneTap
  rw [if_neg (by omega), if_neg (by simp)]
  by_cases hp : 0 ≤ p ∧ p < len
  · rw [if_pos hp, if_pos hp]
    refine ⟨?_, by omega⟩
    rw [Int.toNat_of_nonneg hp.1]; rfl
  · rw [if_neg hp, if_neg hp]
    refine ⟨?_, by omega⟩
    rfl

/-- the bits of a kernel -/
def edgeBits (w : Int → Int) (t : Nat) : Nat := f32.encode (f32.div (f32.ofInt (w t)) (f32.ofInt 6))

theorem edgeBits_lt (w : Int → Int) (t : Nat) : edgeBits w t < 256 ^ 4 := f32_encode_lt (good_div _ _ _)

theorem edgeKernel_run (w : Int → Int) (m : Mem) : edgeKernel w m = .ok (m.next, m.grow 36 (encN 4 (edgeBits w))) := by
  unfold edgeKernel
  rw [bind_ok (malloc_run 36 m)]
  obtain ⟨g, g1, -⟩ := holds_elems (n := 9) (grow_holds m 36 (m.junk m.next))
  have run := forI_run (n := 9) (body := fun t => stF m.next t (f32.div (f32.ofInt (w t)) (f32.ofInt 6)))
    (fun t => (m.grow 36 (m.junk m.next)).putN m.next 4 9 (fun q => if q < t then edgeBits w q else g q)) (by
    intro t ht
    unfold stF
    rw [storeN_put ht]
    refine congrArg (fun x => Except.ok ((), x)) (putN_congr _ ?_)
    intro q _
    by_cases e : q = t
    · subst e
      rw [if_pos rfl, if_pos (by omega)]
      exact Nat.mod_eq_of_lt (edgeBits_lt w q)
    · rw [if_neg e]
      by_cases e2 : q < t
      · rw [if_pos e2, if_pos (by omega)]
      · rw [if_neg e2, if_neg (by omega)])
  have z0 : (m.grow 36 (m.junk m.next)).putN m.next 4 9 (fun q => if q < 0 then edgeBits w q else g q) = m.grow 36 (m.junk m.next) :=
    (putN_congr _ (fun _ _ => if_neg (by omega))).trans g1.put_self
  have z1 : (m.grow 36 (m.junk m.next)).putN m.next 4 9 (fun q => if q < 9 then edgeBits w q else g q) = m.grow 36 (encN 4 (edgeBits w)) :=
    (putN_congr _ (fun _ h => if_pos h)).trans (grow_put m 36 36 _ _)
  beta_reduce at run
  rw [z0, z1] at run
  exact (bind_ok run).trans rfl

/-- two nested accumulating loops over consecutive elements -/
theorem flat2_runA {σ : Type} {R C : Nat} {m : Mem} {body : Int → Int → σ → M σ} (G : Nat → σ)
    (step : ∀ i j, i < R → j < C → body i j (G (i * C + j)) m = .ok (G (i * C + j + 1), m)) :
    (forA 0 (R:Int) (G 0) fun i r => forA 0 (C:Int) r fun j r => body i j r) m = .ok (G (R * C), m) := by
  have top := forA_run (n := R) (body := fun i r => forA 0 (C:Int) r fun j r => body i j r) (fun _ => m) (fun i => G (i * C)) (by
    intro i hi
    have mid := forA_run (n := C) (body := fun j r => body i j r) (fun _ => m) (fun j => G (i * C + j)) (fun j hj => step i j hi hj)
    beta_reduce at mid
    rw [Nat.add_zero] at mid
    refine mid.trans ?_
    rw [show (i + 1) * C = i * C + C by ring])
  beta_reduce at top
  rw [Nat.zero_mul] at top
  exact top

/-- the correlation with one of the two kernels -/
def edgeCorr (w : Int → Int) (R C : Nat) (px : Nat → Nat → Nat → UInt8) : Corr :=
  ⟨edgeBits w, 3, 3, oneTap R, oneTap C, px⟩

/-- the response at element `q` of the sum image -/
def edgeResp (R C : Nat) (px : Nat → Nat → Nat → UInt8) (q : Nat) : FV :=
  f32.add (f32.decode ((edgeCorr edgeWeight1 R C px).acc (fun _ _ _ => 0) (q / C) (q % C) 0 9))
    (f32.decode ((edgeCorr edgeWeight2 R C px).acc (fun _ _ _ => 0) (q / C) (q % C) 0 9))

/-- the sum of the squares of the first `n` responses -/
def edgeTotal (R C : Nat) (px : Nat → Nat → Nat → UInt8) : Nat → FV
  | 0 => .fin false 0
  | n + 1 => addSquare (edgeTotal R C px n) (f64.conv (edgeResp R C px n))

theorem encN_zero (p : Nat) : encN 4 (fun _ => 0) p = 0 := by
  unfold encN leByte
  simp

theorem filter_run_edge {m : Mem} {sd dd kd R C N sp dp : Nat} {w : Int → Int} {px : Nat → Nat → Nat → UInt8} {s d : SimpleMat}
    (h1 : m.sm sp = some s) (h2 : m.sm dp = some d) (hN : R * C ≤ N) (hs : Holds m sd N (imgBytes C 1 1 (fun i j c _ => px i j c)))
    (hk : HoldsN m kd 4 9 (edgeBits w)) (hd : HoldsP m dd 4 R C 1 (fun _ _ _ => 0)) (hne1 : sd ≠ dd) (hne2 : kd ≠ dd)
    (hR : 2 ≤ R) (hC : 2 ≤ C) (hb : R * C ≤ 2147483551)
    (s1 : s.rows = R) (s2 : s.cols = C) (s3 : s.channels = 1) (s4 : s.data = sd) (d1 : d.data_type = 4) (d4 : d.data = dd) :
    hypercv_filter2D (some sp) (some dp) (some kd) 3 3 0 m
      = .ok ((), m.putP dd 4 R C 1 (fun i j c => (edgeCorr w R C px).acc (fun _ _ _ => 0) i j c 9)) := by
  have b1 : R * 2 ≤ R * C := Nat.mul_le_mul_left _ hC
  have b2 : 2 * C ≤ R * C := Nat.mul_le_mul_right _ hR
  have run := filter_run (bt := 0) (a := edgeCorr w R C px) (s := s) (d := d) (N := N) (ch := 1) (by rw [Nat.mul_one]; exact hN) hs hk hd hne1 hne2 (Or.inl rfl)
    (by omega) (show 3 * 3 ≤ _ by omega) (show R + 3 ≤ _ by omega) (show C + 3 ≤ _ by omega) (tap_one hR) (tap_one hC) s1 s2 s3 s4 d4
  unfold hypercv_filter2D
  rw [nonNull_some, nonNull_some, nonNull_some, bind_ok (getS_ok h2)]
  have e : ({ d with data_type := 4 } : SimpleMat) = d := by rw [← d1]
  refine (bind_ok ((congrArg (fun x => setS dp x m) e).trans (setS_self h2))).trans ?_
  rw [bind_ok (getS_ok h1), bind_ok (getS_ok h2)]
  exact run

/-- everything after the two assignments to the header -/
theorem edge_tail {m : Mem} (wf : m.WF) {p R C N : Nat} {s : SimpleMat} {px : Nat → Nat → Nat → UInt8}
    (h1 : m.sm p = some s) (hN : R * C ≤ N) (hs : Holds m s.data N (imgBytes C 1 1 (fun i j c _ => px i j c)))
    (hR : 2 ≤ R) (hC : 2 ≤ C) (hb : R * C * 4 ≤ 2147483551) (s1 : s.rows = R) (s2 : s.cols = C) (s3 : s.channels = 1)
    (ha : m.addr (m.next + 3) % 16 = 0 ∧ m.addr (m.next + 3) % 64 ≠ 48) (hc : m.addr (m.next + 5) % 16 = 0 ∧ m.addr (m.next + 5) % 64 ≠ 48) :
    (do
      let opt1 ← edgeKernel edgeWeight1
      let opt2 ← edgeKernel edgeWeight2
      let s ← getS p
      let dst1 ← create_simple_mat s.rows s.cols 4 1
      let dst2 ← create_simple_mat s.rows s.cols 4 1
      hypercv_filter2D (some p) dst1 (some opt1) 3 3 0
      hypercv_filter2D (some p) dst2 (some opt2) 3 3 0
      simple_mat_addition_float dst1 dst2 dst1
      let d ← derefS dst1
      let r ← edgeSum d.data s.rows s.cols
      delete_simple_mat dst1
      delete_simple_mat dst2
      free opt1
      free opt2
      pure (f32.div (f32.div r (f32.ofInt s.rows)) (f32.ofInt s.cols)) : M FV) m
      = .ok (f32.div (f32.div (edgeTotal R C px (R * C)) (f32.ofInt R)) (f32.ofInt C), { m with next := m.next + 6 }) := by
  have hp : p < m.next := by
    by_contra h
    have := (wf p (by omega)).2.2
    rw [h1] at this; cases this
  have hsd := hs.lt_next wf
  rw [bind_ok (edgeKernel_run _ m)]
  let m1 := m.grow 36 (encN 4 (edgeBits edgeWeight1))
  have w1 : m1.WF := grow_WF wf _ _
  rw [bind_ok (edgeKernel_run _ m1)]
  let m2 := m1.grow 36 (encN 4 (edgeBits edgeWeight2))
  have w2 : m2.WF := grow_WF w1 _ _
  have p2 : m2.sm p = some s := h1
  rw [bind_ok (getS_ok p2), s1, s2]
  have c1 := create_sm_ok (m := m2) (R := R) (C := C) (dt := 4) (ch := 1) (E := 4) (by omega) (by omega) (by omega) rfl (by omega)
  rw [newImage_congr m2 (g := encN 4 (fun _ => 0)) (fun q hq => by rw [if_pos (by omega), encN_zero])] at c1
  refine (bind_ok c1).trans ?_
  let m3 := m2.newImage R C 4 1 4 (encN 4 (fun _ => 0))
  have w3 : m3.WF := newImage_WF w2
  have c2 := create_sm_ok (m := m3) (R := R) (C := C) (dt := 4) (ch := 1) (E := 4) (by omega) (by omega) (by omega) rfl (by omega)
  rw [newImage_congr m3 (g := encN 4 (fun _ => 0)) (fun q hq => by rw [if_pos (by omega), encN_zero])] at c2
  refine (bind_ok c2).trans ?_
  let m4 := m3.newImage R C 4 1 4 (encN 4 (fun _ => 0))
  have w4 : m4.WF := newImage_WF w3
  -- the contents of `m4`
  have k1 : HoldsN m4 m.next 4 9 (edgeBits edgeWeight1) := by
    refine ⟨newImage_holds_old w3 (newImage_holds_old w2 ?_), fun i _ => edgeBits_lt _ _⟩
    show Holds m2 m.next 36 _
    unfold Holds
    rw [grow_blk_ne _ _ _ (show m.next ≠ m1.next by show m.next ≠ m.next + 1; omega)]
    exact grow_holds m 36 _
  have k2 : HoldsN m4 (m.next + 1) 4 9 (edgeBits edgeWeight2) :=
    ⟨newImage_holds_old w3 (newImage_holds_old w2 (grow_holds m1 36 _)), fun i _ => edgeBits_lt _ _⟩
  have t1 : HoldsP m4 (m.next + 2) 4 R C 1 (fun _ _ _ => 0) :=
    ⟨newImage_holds_old w3 (newImage_data m2 R C 4 1 4 _), fun _ _ => by show (0:Nat) < _; decide⟩
  have t2 : HoldsP m4 (m.next + 4) 4 R C 1 (fun _ _ _ => 0) :=
    ⟨newImage_data m3 R C 4 1 4 _, fun _ _ => by show (0:Nat) < _; decide⟩
  have hs4 : Holds m4 s.data N (imgBytes C 1 1 (fun i j c _ => px i j c)) := by
    refine newImage_holds_old w3 (newImage_holds_old w2 ?_)
    show Holds m2 _ _ _
    unfold Holds
    rw [grow_blk_ne _ _ _ (show s.data ≠ m1.next by show s.data ≠ m.next + 1; omega)]
    show m1.blk s.data = _
    rw [grow_blk_ne _ _ _ (show s.data ≠ m.next by omega)]
    exact hs
  have q1 : m4.sm p = some s := by
    show (m3.newImage R C 4 1 4 _).sm p = _
    rw [newImage_sm_old _ (show p ≠ m3.next + 1 by show p ≠ m.next + 4 + 1; omega)]
    show (m2.newImage R C 4 1 4 _).sm p = _
    rw [newImage_sm_old _ (show p ≠ m2.next + 1 by show p ≠ m.next + 2 + 1; omega)]
    exact h1
  have q2 : m4.sm (m.next + 3) = some (newSHdr m2 R C 4 1 4) := by
    show (m3.newImage R C 4 1 4 _).sm (m.next + 3) = _
    rw [newImage_sm_old _ (show m.next + 3 ≠ m3.next + 1 by show m.next + 3 ≠ m.next + 4 + 1; omega)]
    exact newImage_sm m2 R C 4 1 4 _
  have q3 : m4.sm (m.next + 5) = some (newSHdr m3 R C 4 1 4) := newImage_sm m3 R C 4 1 4 _
  have hb' : R * C ≤ 2147483551 := by omega
  have f1 := filter_run_edge (w := edgeWeight1) (px := px) q1 q2 hN hs4 k1 t1 (by omega) (by omega) hR hC hb' s1 s2 s3 rfl rfl rfl
  refine (bind_ok f1).trans ?_
  generalize hA1 : (fun i j c => (edgeCorr edgeWeight1 R C px).acc (fun _ _ _ => 0) i j c 9) = A1
  have l1 : FitsP 4 R C 1 A1 := by
    rw [← hA1]; intro i j c _ _ _; exact Corr.acc_lt (by decide)
  let m5 := m4.putP (m.next + 2) 4 R C 1 A1
  have f2 := filter_run_edge (m := m5) (w := edgeWeight2) (px := px) q1 q3 hN (hs4.putP_ne (by omega)) (k2.putP_ne (by omega))
    (HoldsN.putP_ne t2 (by omega)) (by omega) (by omega) hR hC hb' s1 s2 s3 rfl rfl rfl
  refine (bind_ok f2).trans ?_
  generalize hA2 : (fun i j c => (edgeCorr edgeWeight2 R C px).acc (fun _ _ _ => 0) i j c 9) = A2
  have l2 : FitsP 4 R C 1 A2 := by
    rw [← hA2]; intro i j c _ _ _; exact Corr.acc_lt (by decide)
  let m6 := m5.putP (m.next + 4) 4 R C 1 A2
  have u1 : HoldsN m6 (m.next + 2) 4 (R * C * 1) (pxF C 1 A1) := HoldsN.putP_ne (holdsP_putP m4 l1) (by omega)
  have u2 : HoldsN m6 (m.next + 4) 4 (R * C * 1) (pxF C 1 A2) := holdsP_putP m5 l2
  have q2' : m6.sm (m.next + 3) = some (newSHdr m2 R C 4 1 4) := q2
  have q3' : m6.sm (m.next + 5) = some (newSHdr m3 R C 4 1 4) := q3
  have add := add_float_run (R1 := R) (R2 := R) (C1 := C) (C2 := C) (ch := 1) q2' q3' q2' u1 u2 u1 rfl rfl rfl rfl rfl rfl
    (by rw [Nat.min_self, Nat.min_self]) (by rw [Nat.min_self, Nat.min_self]) (by rw [Nat.min_self, Nat.min_self])
    (by rw [Nat.min_self, Nat.min_self]; omega)
  rw [Nat.min_self, Nat.min_self, Nat.mul_one] at add
  refine (bind_ok add).trans ?_
  let m7 := m6.putN (m.next + 2) 4 (R * C) (addMix (R * C) (pxF C 1 A1) (pxF C 1 A2) (pxF C 1 A1))
  have q2'' : m7.sm (m.next + 3) = some (newSHdr m2 R C 4 1 4) := q2
  refine (bind_ok (show derefS (some (m.next + 3)) m7 = _ from getS_ok q2'')).trans ?_
  have u3 : HoldsN m7 (m.next + 2) 4 (R * C) (addMix (R * C) (pxF C 1 A1) (pxF C 1 A2) (pxF C 1 A1)) :=
    holdsN_putN m6 (addMix_lt (fun q hq => by
      have := u1.2 q (by omega); exact this))
  have sum : edgeSum (m.next + 2) R C m7 = .ok (edgeTotal R C px (R * C), m7) := by
    unfold edgeSum
    refine flat2_runA (body := fun i j r => do
        let p ← ev (CI.lit i * CI.lit (C:Int) + CI.lit j)
        let v ← ldF (m.next + 2) p
        pure (addSquare r (f64.conv v))) (edgeTotal R C px) ?_
    intro i j hi hj
    have hlt := mix_lt hi hj
    have e := eval_px1 hi hj (show R * C ≤ 2147483647 by omega)
    rw [Nat.mul_one, Nat.add_zero] at e
    rw [bind_ok (ev_ok e _)]
    have l : ldF (m.next + 2) ((i * C + j : Nat) : Int) m7 = .ok (edgeResp R C px (i * C + j), m7) := by
      unfold ldF
      rw [bind_ok (u3.load hlt)]
      show Except.ok (f32.decode (addMix _ _ _ _ _), m7) = _
      unfold addMix
      rw [if_pos hlt, f32_dec_enc (good_add _ _ _)]
      unfold edgeResp pxF
      rw [← hA1, ← hA2]
      simp only [Nat.div_one, Nat.mod_one]
    rw [bind_ok l]
    rfl
  refine (bind_ok sum).trans ?_
  have a3 : m7.addr (m.next + 3) = m.addr (m.next + 3) := rfl
  have d1 := delete_sm_run (m := m7) q2'' rfl (by rw [a3]; exact ha.1) (by rw [a3]; exact ha.2)
  refine (bind_ok (Eq.trans d1 rfl)).trans ?_
  generalize hm8 : ({ m7 with
    sm := fun q => if q = m.next + 3 then none else m7.sm q
    blk := fun q => if q = (newSHdr m2 R C 4 1 4).data ∧ (newSHdr m2 R C 4 1 4).inl = true then none else m7.blk q } : Mem) = m8
  have q3'' : m8.sm (m.next + 5) = some (newSHdr m3 R C 4 1 4) := by
    rw [← hm8]
    show (if m.next + 5 = m.next + 3 then none else m7.sm (m.next + 5)) = _
    rw [if_neg (by omega)]
    exact q3
  have a5 : m8.addr (m.next + 5) = m.addr (m.next + 5) := by rw [← hm8]; rfl
  have d2 := delete_sm_run (m := m8) q3'' rfl (by rw [a5]; exact hc.1) (by rw [a5]; exact hc.2)
  refine (bind_ok (Eq.trans d2 rfl)).trans ?_
  generalize hm9 : ({ m8 with
    sm := fun q => if q = m.next + 5 then none else m8.sm q
    blk := fun q => if q = (newSHdr m3 R C 4 1 4).data ∧ (newSHdr m3 R C 4 1 4).inl = true then none else m8.blk q } : Mem) = m9
  -- the blocks of `m9`
  have bd : ∀ q, m9.blk q = if q = m.next + 4 then none else if q = m.next + 2 then none else m4.blk q := by
    intro q
    rw [← hm9]
    show (if q = m.next + 4 ∧ true = true then none else m8.blk q) = _
    by_cases e4 : q = m.next + 4
    · rw [if_pos ⟨e4, rfl⟩, if_pos e4]
    rw [if_neg (fun h => e4 h.1), if_neg e4, ← hm8]
    show (if q = m.next + 2 ∧ true = true then none else m7.blk q) = _
    by_cases e2 : q = m.next + 2
    · rw [if_pos ⟨e2, rfl⟩, if_pos e2]
    rw [if_neg (fun h => e2 h.1), if_neg e2]
    show (m6.put (m.next + 2) _ _).blk q = _
    rw [put_blk_ne _ _ _ e2]
    show (m5.put (m.next + 4) _ _).blk q = _
    rw [put_blk_ne _ _ _ e4]
    exact put_blk_ne _ _ _ e2
  have v1 : Holds m9 m.next (9 * 4) (encN 4 (edgeBits edgeWeight1)) := by
    unfold Holds
    rw [bd, if_neg (by omega), if_neg (by omega)]
    exact k1.1
  refine (bind_ok (free_blk v1)).trans ?_
  have v2 : Holds (m9.setBlk m.next none) (m.next + 1) (9 * 4) (encN 4 (edgeBits edgeWeight2)) := by
    unfold Holds
    rw [setBlk_blk_ne _ _ (by omega), bd, if_neg (by omega), if_neg (by omega)]
    exact k2.1
  refine (bind_ok (free_blk v2)).trans ?_
  show Except.ok (_, _) = _
  refine congrArg (fun x => Except.ok (_, x)) ?_
  have hnext : m9.next = m.next + 6 := by rw [← hm9, ← hm8]; rfl
  have fresh : ∀ q, m.next ≤ q → m.blk q = none := fun q hq => (wf q hq).1
  have freshS : ∀ q, m.next ≤ q → m.sm q = none := fun q hq => (wf q hq).2.2
  apply Mem.ext'
  · funext q
    by_cases e1 : q = m.next + 1
    · subst e1
      rw [show ((m9.setBlk m.next none).setBlk (m.next + 1) none).blk (m.next + 1) = none by simp [Mem.setBlk]]
      exact (fresh _ (by omega)).symm
    rw [setBlk_blk_ne _ _ e1]
    by_cases e0 : q = m.next
    · subst e0
      rw [show (m9.setBlk m.next none).blk m.next = none by simp [Mem.setBlk]]
      exact (fresh _ (by omega)).symm
    rw [setBlk_blk_ne _ _ e0, bd]
    by_cases e4 : q = m.next + 4
    · rw [if_pos e4]; exact (fresh q (by omega)).symm
    by_cases e2 : q = m.next + 2
    · rw [if_neg e4, if_pos e2]; exact (fresh q (by omega)).symm
    rw [if_neg e4, if_neg e2]
    show (m3.newImage R C 4 1 4 _).blk q = m.blk q
    rw [newImage_blk_old _ (show q ≠ m3.next from e4)]
    show (m2.newImage R C 4 1 4 _).blk q = m.blk q
    rw [newImage_blk_old _ (show q ≠ m2.next from e2)]
    show (m1.grow 36 _).blk q = _
    rw [grow_blk_ne _ _ _ (show q ≠ m1.next from e1)]
    exact grow_blk_ne _ _ _ e0
  · exact hnext
  · show m9.junk = _; rw [← hm9, ← hm8]; rfl
  · show m9.hm = _; rw [← hm9, ← hm8]; rfl
  · show m9.sm = m.sm
    funext q
    rw [← hm9]
    show (if q = m.next + 5 then none else m8.sm q) = _
    by_cases e5 : q = m.next + 5
    · rw [if_pos e5]; exact (freshS q (by omega)).symm
    rw [if_neg e5, ← hm8]
    show (if q = m.next + 3 then none else m4.sm q) = _
    by_cases e3 : q = m.next + 3
    · rw [if_pos e3]; exact (freshS q (by omega)).symm
    rw [if_neg e3]
    show (m3.newImage R C 4 1 4 _).sm q = m.sm q
    rw [newImage_sm_old _ (show q ≠ m3.next + 1 from e5)]
    show (m2.newImage R C 4 1 4 _).sm q = m.sm q
    rw [newImage_sm_old _ (show q ≠ m2.next + 1 from e3)]
    rfl
  · show m9.pad = _; rw [← hm9, ← hm8]; rfl
  · show m9.addr = _; rw [← hm9, ← hm8]; rfl

end HyperCV
