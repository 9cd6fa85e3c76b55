/- C82, C83: image pyramids. -/
import Verif.Proof.Pyramid

namespace HyperCV
open Spec

section
variable {m : Mem} {sp dp R C ch : Nat} {px old : Nat → Nat → Nat → UInt8} {exp : FV → FV}

/-- an image that existed before and whose pixels were not written is still there -/
theorem img_but {m m' : Mem} {p q R C ch E : Nat} {dt : Int} {px : Nat → Nat → Nat → Nat → UInt8} (hm : m.WF) (h : IsImage m p R C dt ch E px)
    (ho : OldUnchangedBut m m' q) (hs : SepPixels m p q) : IsImage m' p R C dt ch E px := by
  have hp := img_lt_next hm h
  obtain ⟨h0, h1, h2, h3, hdr, f, g1, g2, g3, g4, g5, g6, g7, g8⟩ := h
  refine ⟨h0, h1, h2, h3, hdr, f, ?_, g2, g3, g4, g5, g6, ?_, g8⟩
  · rw [(ho.2 p hp).2.1]; exact g1
  · rw [bytes_iff] at g7 ⊢
    unfold Holds
    have l := g7.lt_next hm
    rw [(ho.2 hdr.data l).2.2 fun hq => hs hdr.data ⟨⟨hdr, g1, rfl⟩, hq⟩]
    exact g7

/-! ### C82 -/

/-- the loop of `hypercv_pyramid_down` -/
def downLoop (C ch Rd Cd dd t : Nat) : M Unit :=
  forI 0 (Rd:Int) fun i => forI 0 (Cd:Int) fun j => forI 0 (ch:Int) fun k => do
    let si ← ev (CI.lit 2 * CI.lit i * CI.lit C * CI.lit ch + CI.lit 2 * CI.lit j * CI.lit ch + CI.lit k)
    let v ← load t si
    let di ← ev (CI.lit i * CI.lit Cd * CI.lit ch + CI.lit j * CI.lit ch + CI.lit k)
    store dd di v

/-- everything before the loop; the destination may have another number of channels -/
theorem down_front {ch' dd : Nat} {di : Bool} (hm : m.WF) (hch : ch = 1 ∨ ch = 3) (hs : IsImage8 m sp R C ch px) (hd : IsImage8 m dp ((R + 1) / 2) ((C + 1) / 2) ch' old)
    (d1 : m.sm dp = some ⟨((R + 1) / 2 : Nat), ((C + 1) / 2 : Nat), 1, ch', 1, dd, di⟩)
    (hR : 2 ≤ R) (hC : 2 ≤ C) (hN : R * C * ch * 4 ≤ 2147483551) :
    ∃ m2 bl, hypercv_pyramid_down exp (some sp) (some dp) m = downLoop C ch ((R + 1) / 2) ((C + 1) / 2) dd m.next m2 ∧
      IsImage8 m2 (m.next + 1) R C ch bl ∧ Holds m2 m.next (R * C * ch) (imgBytes C ch 1 (fun i j c _ => bl i j c)) ∧ m2.sm (m.next + 1) = some (newSHdr m R C 1 ch 1) ∧
      m2.sm dp = some ⟨((R + 1) / 2 : Nat), ((C + 1) / 2 : Nat), 1, ch', 1, dd, di⟩ ∧ IsImage8 m2 dp ((R + 1) / 2) ((C + 1) / 2) ch' old ∧
      Holds m2 dd ((R + 1) / 2 * ((C + 1) / 2) * ch') (imgBytes ((C + 1) / 2) ch' 1 (fun i j c _ => old i j c)) ∧
      (m.next + 2 ≤ m2.next ∧ ∀ x, x < m.next → m2.hm x = m.hm x ∧ m2.sm x = m.sm x ∧ m2.blk x = m.blk x) ∧ dd < m.next ∧
      ∀ i j c, i < R → j < C → c < ch → NearestEven (gaussMean .replicate R C px 5 5 i j c) (bl i j c).toNat := by
  have pR := hs.posR
  have pC := hs.posC
  have pch := hs.posCh
  have hRC : R * C ≤ R * C * ch := Nat.le_mul_of_pos_right _ pch
  have hb := size_bounds pR pC (by omega)
  obtain ⟨sd, si, s1, s2⟩ := img8_lit hs
  have lsp := img_lt_next hm hs
  have ldp := img_lt_next hm hd
  have ldd : dd < m.next := by
    obtain ⟨dd', di', d1', d2⟩ := img8_lit hd
    rw [d1] at d1'
    have : dd = dd' := congrArg SimpleMat.data (Option.some.inj d1')
    rw [this]; exact d2.lt_next hm
  let f0 : Nat → UInt8 := fun p => if p < R * C * 1 then 0 else m.junk m.next p
  let m1 := m.newImage R C 1 ch 1 f0
  have w1 : m1.WF := newImage_WF hm
  have c1 : create_simple_mat (R:Int) (C:Int) 1 (ch:Int) m = .ok (some (m.next + 1), m1) :=
    create_sm_ok pR pC pch rfl (by omega)
  have hs1 : IsImage8 m1 sp R C ch px := img_frame hm hs (newImage_frame m)
  have ht1 : IsImage8 m1 (m.next + 1) R C ch (fun i j c => f0 (((i * C + j) * ch + c) * 1 + 0)) := by
    refine img_congr (newImage_any (f := f0) rfl pR pC pch) ?_
    intro i j c t _ _ _ ht
    obtain rfl : t = 0 := by omega
    rfl
  obtain ⟨m2, bl, r1, r2, r3, r4⟩ := C34_gaussian (exp := exp) .replicate (sigma1 := .fin false 0) (sigma2 := .fin false 0) (by decide +kernel) (by decide +kernel)
    (w := 5) (h := 5) (by unfold BuiltIn; omega) (by unfold BuiltIn; omega) hch w1 hs1 ht1 hN
  have hd1 : IsImage8 m1 dp ((R + 1) / 2) ((C + 1) / 2) ch' old := img_frame hm hd (newImage_frame m)
  have d1' : m1.sm dp = some ⟨((R + 1) / 2 : Nat), ((C + 1) / 2 : Nat), 1, ch', 1, dd, di⟩ := by rw [← d1]; exact newImage_sm_old m (by omega)
  have ts1 : m1.sm (m.next + 1) = some (newSHdr m R C 1 ch 1) := newImage_sm _ _ _ _ _ _ _
  have sep : SepPixels m1 dp (m.next + 1) := by
    rintro x ⟨⟨a, a1, a2⟩, ⟨b, b1, b2⟩⟩
    rw [d1'] at a1
    rw [ts1] at b1
    have a1 := Option.some.inj a1
    have b1 := Option.some.inj b1
    subst a1 b1
    have a2 : x = dd := a2
    have b2 : x = m.next := b2
    omega
  have hd2 : IsImage8 m2 dp ((R + 1) / 2) ((C + 1) / 2) ch' old := img_but w1 hd1 r3 sep
  have n1 : m1.next = m.next + 2 := rfl
  have d2' : m2.sm dp = some ⟨((R + 1) / 2 : Nat), ((C + 1) / 2 : Nat), 1, ch', 1, dd, di⟩ := by
    rw [← d1']; exact (r3.2 dp (by omega)).2.1
  have ts2 : m2.sm (m.next + 1) = some (newSHdr m R C 1 ch 1) := by
    rw [← ts1]; exact (r3.2 _ (by omega)).2.1
  have th2 : Holds m2 m.next (R * C * ch) (imgBytes C ch 1 (fun i j c _ => bl i j c)) := by
    obtain ⟨td, ti, t1, t2⟩ := img8_lit r2
    rw [ts2] at t1
    have : m.next = td := congrArg SimpleMat.data (Option.some.inj t1)
    rw [this]; exact t2
  have dh2 : Holds m2 dd ((R + 1) / 2 * ((C + 1) / 2) * ch') (imgBytes ((C + 1) / 2) ch' 1 (fun i j c _ => old i j c)) := by
    obtain ⟨td, ti, t1, t2⟩ := img8_lit hd2
    rw [d2'] at t1
    have : dd = td := congrArg SimpleMat.data (Option.some.inj t1)
    rw [this]; exact t2
  refine ⟨m2, bl, ?_, r2, th2, ts2, d2', hd2, dh2, ⟨?_, ?_⟩, ldd, r4⟩
  · unfold hypercv_pyramid_down
    rw [nonNull_some, bind_ok (getS_ok s1)]
    dsimp only
    rw [cassert_bind (by rw [decide_eq_true_eq]; constructor <;> omega), nonNull_some, bind_ok (getS_ok d1), bind_ok (ev_ok (half_up (by omega)) _),
      cassert_bind (by rw [decide_eq_true_eq]), bind_ok (ev_ok (half_up (by omega)) _), cassert_bind (by rw [decide_eq_true_eq]),
      cassert_bind (by rw [decide_eq_true_eq]), bind_ok c1]
    refine (bind_ok r1).trans ?_
    rw [bind_ok (show derefS (some (m.next + 1)) m2 = _ from getS_ok ts2)]
    rfl
  · exact (show m.next + 2 ≤ m1.next by omega).trans r3.1
  · intro x hx
    have a1 := newImage_frame m (R := R) (C := C) (dt := 1) (ch := ch) (E := 1) (f := f0) x hx
    have a2 := r3.2 x (by omega)
    refine ⟨a2.1.trans a1.2.1, a2.2.1.trans a1.2.2, (a2.2.2 ?_).trans a1.1⟩
    rintro ⟨b, b1, b2⟩
    rw [ts1] at b1
    have b1 := Option.some.inj b1
    subst b1
    have b2 : x = m.next := b2
    omega

theorem down_run (hm : m.WF) (hch : ch = 1 ∨ ch = 3) (hs : IsImage8 m sp R C ch px) (hd : IsImage8 m dp ((R + 1) / 2) ((C + 1) / 2) ch old)
    (hR : 2 ≤ R) (hC : 2 ≤ C) (hN : R * C * ch * 4 ≤ 2147483551) :
    ∃ m' out, hypercv_pyramid_down exp (some sp) (some dp) m = .ok ((), m') ∧ IsImage8 m' dp ((R + 1) / 2) ((C + 1) / 2) ch out ∧ OldUnchangedBut m m' dp ∧
      (∀ i j c, i < (R + 1) / 2 → j < (C + 1) / 2 → c < ch → NearestEven (gaussMean .replicate R C px 5 5 (2 * i) (2 * j) c) (out i j c).toNat) ∧
      ∃ bl, IsImage8 m' (m.next + 1) R C ch bl := by
  have hRC : R * C ≤ R * C * ch := Nat.le_mul_of_pos_right _ hs.posCh
  have hb := size_bounds hs.posR hs.posC (by omega)
  have hsm : (R + 1) / 2 * ((C + 1) / 2) * ch ≤ R * C * ch :=
    Nat.mul_le_mul_right _ (Nat.mul_le_mul (by omega) (by omega))
  obtain ⟨dd, di, d1, -⟩ := img8_lit hd
  obtain ⟨m2, bl, r1, r2, th2, ts2, d2', hd2, dh2, ⟨r5, r6⟩, ldd, r4⟩ := down_front (exp := exp) hm hch hs hd d1 hR hC hN
  have hf := move_fills (R := (R + 1) / 2) (C := (C + 1) / 2) (ch := ch) th2 (show m.next ≠ dd by omega)
    (new := imgBytes ((C + 1) / 2) ch 1 (fun i j c _ => bl (2 * i) (2 * j) c))
    (fun i j k => CI.lit 2 * CI.lit i * CI.lit C * CI.lit ch + CI.lit 2 * CI.lit j * CI.lit ch + CI.lit k)
    (fun i j k => CI.lit i * CI.lit ((C + 1) / 2 : Nat) * CI.lit ch + CI.lit j * CI.lit ch + CI.lit k)
    (fun i j k => (2 * i * C + 2 * j) * ch + k)
    (by
      intro i j c hi hj hc
      beta_reduce
      rw [dbl_eval (by omega), dbl_eval (by omega)]
      exact eval_img (R := R) (by omega) (by omega) hc (by omega))
    (by intro i j c hi hj hc; exact img8_lt (by omega) (by omega) hc)
    (by intro i j c hi hj hc; exact eval_img hi hj hc (by omega))
    (by
      intro i j c hi hj hc
      rw [imgBytes_at8 hj hc (px := fun i j c => bl (2 * i) (2 * j) c), imgBytes_at8 (by omega) hc])
  obtain ⟨o1, o2⟩ := img8_put (px' := fun i j c => bl (2 * i) (2 * j) c) (new := imgBytes ((C + 1) / 2) ch 1 (fun i j c _ => bl (2 * i) (2 * j) c)) hd2 d2'
    (fun i j c _ hj hc => imgBytes_at8 hj hc (px := fun i j c => bl (2 * i) (2 * j) c))
  refine ⟨_, fun i j c => bl (2 * i) (2 * j) c, r1.trans (hf.total (fun p hp => hp) dh2), o1, ⟨?_, ?_⟩, ?_, bl, ?_⟩
  · show m.next ≤ m2.next
    omega
  · intro x hx
    obtain ⟨a1, a2, a3⟩ := r6 x hx
    refine ⟨a1, a2, fun hp => ?_⟩
    have hne : x ≠ dd := fun he => hp ⟨_, d1, he⟩
    exact (put_blk_ne m2 _ _ hne).trans a3
  · intro i j c hi hj hc
    exact r4 (2 * i) (2 * j) c (by omega) (by omega) hc
  · obtain ⟨h0, h1, h2, h3, hdr, f, g1, g2, g3, g4, g5, g6, g7, g8⟩ := r2
    refine ⟨h0, h1, h2, h3, hdr, f, g1, g2, g3, g4, g5, g6, ?_, g8⟩
    rw [ts2] at g1
    have e : m.next = hdr.data := congrArg SimpleMat.data (Option.some.inj g1)
    rw [bytes_iff] at g7 ⊢
    exact g7.put_ne (by show hdr.data ≠ dd; omega)

/-- **C82**: reducing a byte image with one or three channels writes to pixel (`i`, `j`) of the destination the weighted mean of the 5 x 5 neighbourhood
of pixel (`2 i`, `2 j`) of the source, rounded to the nearest integer (even on ties), for every image of at least 2 x 2 pixels.  No previously existing
memory other than the pixels of the destination changes. -/
theorem C82_down (hm : m.WF) (hch : ch = 1 ∨ ch = 3) (hs : IsImage8 m sp R C ch px) (hd : IsImage8 m dp ((R + 1) / 2) ((C + 1) / 2) ch old)
    (hR : 2 ≤ R) (hC : 2 ≤ C) (hN : R * C * ch * 4 ≤ 2147483551) :
    ∃ m' out, hypercv_pyramid_down exp (some sp) (some dp) m = .ok ((), m') ∧ IsImage8 m' dp ((R + 1) / 2) ((C + 1) / 2) ch out ∧ OldUnchangedBut m m' dp ∧
      ∀ i j c, i < (R + 1) / 2 → j < (C + 1) / 2 → c < ch → NearestEven (gaussMean .replicate R C px 5 5 (2 * i) (2 * j) c) (out i j c).toNat := by
  obtain ⟨m', out, h1, h2, h3, h4, -⟩ := down_run (exp := exp) hm hch hs hd hR hC hN
  exact ⟨m', out, h1, h2, h3, h4⟩

/-- **C82**: in every channel the reduced image stays between any bounds of the image; in particular constant images stay constant -/
theorem C82_range (hm : m.WF) (hch : ch = 1 ∨ ch = 3) (hs : IsImage8 m sp R C ch px) (hd : IsImage8 m dp ((R + 1) / 2) ((C + 1) / 2) ch old)
    (hR : 2 ≤ R) (hC : 2 ≤ C) (hN : R * C * ch * 4 ≤ 2147483551) {lo hi : Nat → Nat}
    (hp : ∀ i j c, i < R → j < C → c < ch → lo c ≤ (px i j c).toNat ∧ (px i j c).toNat ≤ hi c) :
    ∃ m' out, hypercv_pyramid_down exp (some sp) (some dp) m = .ok ((), m') ∧ IsImage8 m' dp ((R + 1) / 2) ((C + 1) / 2) ch out ∧
      ∀ i j c, i < (R + 1) / 2 → j < (C + 1) / 2 → c < ch → lo c ≤ (out i j c).toNat ∧ (out i j c).toNat ≤ hi c := by
  obtain ⟨m', out, h1, h2, h3, h4⟩ := C82_down (exp := exp) hm hch hs hd hR hC hN
  refine ⟨m', out, h1, h2, ?_⟩
  intro i j c h5 h6 h7
  have hRC : R * C ≤ R * C * ch := Nat.le_mul_of_pos_right _ hs.posCh
  have hb := size_bounds hs.posR hs.posC (by omega)
  have hm := mean_between .replicate (w := 5) (h := 5) (by unfold BuiltIn; omega) (by unfold BuiltIn; omega) hs.posR hs.posC (by omega) (px := px) (c := c)
    (lo := lo c) (hi := hi c) (fun i j hi hj => hp i j c hi hj h7) (i := 2 * i) (j := 2 * j) (by omega) (by omega)
  have := nearest_between (lo := lo c) (hi := hi c) (h4 i j c h5 h6 h7) (by exact_mod_cast hm.1) (by exact_mod_cast hm.2)
  omega

/-- **C82 refuted**, memory: every call leaves an image of the size of the source allocated that no one can reach -/
theorem C82_refuted_leak (hm : m.WF) (hch : ch = 1 ∨ ch = 3) (hs : IsImage8 m sp R C ch px) (hd : IsImage8 m dp ((R + 1) / 2) ((C + 1) / 2) ch old)
    (hR : 2 ≤ R) (hC : 2 ≤ C) (hN : R * C * ch * 4 ≤ 2147483551) :
    ∃ m' t bl, hypercv_pyramid_down exp (some sp) (some dp) m = .ok ((), m') ∧ m.next ≤ t ∧ IsImage8 m' t R C ch bl := by
  obtain ⟨m', out, h1, -, -, -, bl, h5⟩ := down_run (exp := exp) hm hch hs hd hR hC hN
  exact ⟨m', _, bl, h1, by omega, h5⟩

/-- **C82 refuted**, channels: the numbers of channels are not compared.  With three channels in the source and one in the destination the call always writes
beyond the destination -/
theorem C82_refuted_channels (hm : m.WF) (hs : IsImage8 m sp R C 3 px) (hd : IsImage8 m dp ((R + 1) / 2) ((C + 1) / 2) 1 old)
    (hR : 2 ≤ R) (hC : 2 ≤ C) (hN : R * C * 3 * 4 ≤ 2147483551) :
    hypercv_pyramid_down exp (some sp) (some dp) m = .error (.ub .oob) := by
  obtain ⟨dd, di, d1, -⟩ := img8_lit hd
  obtain ⟨m2, bl, r1, r2, th2, ts2, d2', hd2, dh2, ⟨r5, r6⟩, ldd, r4⟩ := down_front (exp := exp) hm (Or.inr rfl) hs hd d1 hR hC hN
  have hRC : R * C ≤ R * C * 3 := by omega
  have hb := size_bounds hs.posR hs.posC (by omega)
  have hsm : (R + 1) / 2 * ((C + 1) / 2) ≤ R * C := Nat.mul_le_mul (by omega) (by omega)
  have pd : 0 < (R + 1) / 2 * ((C + 1) / 2) := Nat.mul_pos (by omega) (by omega)
  rw [r1]
  let P : Mem → Prop := fun m' => ∃ g, m' = m2.put dd ((R + 1) / 2 * ((C + 1) / 2) * 1) g
  have one : ∀ i j k, i < (R + 1) / 2 → j < (C + 1) / 2 → k < 3 → ∀ m', P m' →
      ∀ body, body = (do
        let si ← ev (CI.lit 2 * CI.lit (i:Int) * CI.lit (C:Int) * CI.lit ((3:Nat):Int) + CI.lit 2 * CI.lit (j:Int) * CI.lit ((3:Nat):Int) + CI.lit (k:Int))
        let v ← load m.next si
        let di ← ev (CI.lit (i:Int) * CI.lit (((C + 1) / 2 : Nat) : Int) * CI.lit ((3:Nat):Int) + CI.lit (j:Int) * CI.lit ((3:Nat):Int) + CI.lit (k:Int))
        store dd di v) →
      (body m' = .error (.ub .oob) ∨ ∃ m'', body m' = .ok ((), m'') ∧ P m'') ∧
      ((R + 1) / 2 * ((C + 1) / 2) ≤ (i * ((C + 1) / 2) + j) * 3 + k → body m' = .error (.ub .oob)) := by
    rintro i j k hi hj hk _ ⟨g, rfl⟩ _ rfl
    have l1 := load_ok (th2.put_ne (h' := dd) (n' := (R + 1) / 2 * ((C + 1) / 2) * 1) (f' := g) (show m.next ≠ dd by omega))
      (i := (2 * i * C + 2 * j) * 3 + k) (img8_lt (by omega) (by omega) hk)
    have e1 : (CI.lit 2 * CI.lit (i:Int) * CI.lit (C:Int) * CI.lit ((3:Nat):Int) + CI.lit 2 * CI.lit (j:Int) * CI.lit ((3:Nat):Int) + CI.lit (k:Int) : CI)
        = CI.lit (((2 * i * C + 2 * j) * 3 + k : Nat) : Int) := by
      rw [dbl_eval (by omega), dbl_eval (by omega)]
      exact eval_img (R := R) (by omega) (by omega) hk (by omega)
    rw [bind_ok (ev_ok e1 _), bind_ok l1, bind_ok (ev_ok (eval_img hi hj hk (by omega)) _)]
    by_cases hlt : (i * ((C + 1) / 2) + j) * 3 + k < (R + 1) / 2 * ((C + 1) / 2) * 1
    · exact ⟨Or.inr ⟨_, store_put hlt, _, rfl⟩, fun h => by omega⟩
    · have := store_oob (v := imgBytes C 3 1 (fun i j c _ => bl i j c) ((2 * i * C + 2 * j) * 3 + k)) (holds_put m2 dd ((R + 1) / 2 * ((C + 1) / 2) * 1) g)
        (i := (((i * ((C + 1) / 2) + j) * 3 + k : Nat) : Int)) (by omega)
      exact ⟨Or.inl this, fun _ => this⟩
  have P0 : P m2 := ⟨_, dh2.put_self.symm⟩
  have last : (R + 1) / 2 * ((C + 1) / 2) ≤ (((R + 1) / 2 - 1) * ((C + 1) / 2) + ((C + 1) / 2 - 1)) * 3 + 2 := by
    have e : ((R + 1) / 2 - 1) * ((C + 1) / 2) + ((C + 1) / 2 - 1) = (R + 1) / 2 * ((C + 1) / 2) - 1 := by
      rw [Nat.sub_mul, one_mul]
      have : (C + 1) / 2 ≤ (R + 1) / 2 * ((C + 1) / 2) := Nat.le_mul_of_pos_left _ (by omega)
      omega
    rw [e]; omega
  unfold downLoop
  refine forI_fails (n := (R + 1) / 2) (k := (R + 1) / 2 - 1) P (fun i hi m' hm' => forI_outcome (n := (C + 1) / 2) P (fun j hj m' hm' =>
    forI_outcome (n := 3) P (fun k hk m' hm' => (one i j k hi hj hk m' hm' _ rfl).1) hm') hm') (by omega) (fun m' hm' => ?_) P0
  refine forI_fails (n := (C + 1) / 2) (k := (C + 1) / 2 - 1) P (fun j hj m' hm' =>
    forI_outcome (n := 3) P (fun k hk m' hm' => (one _ j k (by omega) hj hk m' hm' _ rfl).1) hm') (by omega) (fun m' hm' => ?_) hm'
  exact forI_fails (n := 3) (k := 2) P (fun k hk m' hm' => (one _ _ k (by omega) (by omega) hk m' hm' _ rfl).1) (by omega)
    (fun m' hm' => (one _ _ 2 (by omega) (by omega) (by omega) m' hm' _ rfl).2 last) hm'

/-! ### C83 -/

/-- **C83**, exact description: enlarging a byte image with one or three channels writes the rounded value of `upValue`, the filtered image with gaps, to
every element of the destination, for every image of at least 2 x 2 pixels.  No previously existing memory other than the pixels of the destination changes. -/
theorem C83_up (hm : m.WF) (hch : ch = 1 ∨ ch = 3) (hs : IsImage8 m sp R C ch px) (hd : IsImage8 m dp (2 * R) (2 * C) ch old)
    (hR : 2 ≤ R) (hC : 2 ≤ C) (hN : 2 * R * (2 * C) * ch * 4 ≤ 2147483551) :
    ∃ m' out, hypercv_pyramid_up exp (some sp) (some dp) m = .ok ((), m') ∧ IsImage8 m' dp (2 * R) (2 * C) ch out ∧ OldUnchangedBut m m' dp ∧
      ∀ i j c, i < 2 * R → j < 2 * C → c < ch → NearestEven (upValue (2 * R) (2 * C) px i j c) (out i j c).toNat := by
  have pR := hs.posR
  have pC := hs.posC
  have pch := hs.posCh
  have hRC : 2 * R * (2 * C) ≤ 2 * R * (2 * C) * ch := Nat.le_mul_of_pos_right _ pch
  have hb := size_bounds hd.posR hd.posC (by omega)
  have hsm : R * C * ch ≤ 2 * R * (2 * C) * ch := Nat.mul_le_mul_right _ (Nat.mul_le_mul (by omega) (by omega))
  obtain ⟨sd, si, s1, s2⟩ := img8_lit hs
  obtain ⟨dd, di, d1, d2⟩ := img8_lit hd
  have lsp := img_lt_next hm hs
  have ldp := img_lt_next hm hd
  have lsd := s2.lt_next hm
  have ldd := d2.lt_next hm
  let m1 := m.newImage (2 * R) (2 * C) 1 ch 1 (imgBytes (2 * C) ch 1 (fun i j c _ => old i j c))
  let m2 := m.newImage (2 * R) (2 * C) 1 ch 1 (imgBytes (2 * C) ch 1 (fun i j c _ => spread px i j c))
  let m3 := m2.newKernel 2
  let m4 := m2.newImage 1 5 4 1 4 (encN 4 dbits)
  have n2 : m2.next = m.next + 2 := rfl
  have n4 : m4.next = m.next + 4 := rfl
  have w2 : m2.WF := newImage_WF hm
  have w4 : m4.WF := newImage_WF w2
  have c1 : simple_mat_copy (some dp) m = .ok (some (m.next + 1), m1) := copy_sm_ok hm hd (by omega)
  have ts1 : m1.sm (m.next + 1) = some (newSHdr m (2 * R) (2 * C) 1 ch 1) := newImage_sm _ _ _ _ _ _ _
  have th1 : Holds m1 m.next (2 * R * (2 * C) * ch) (imgBytes (2 * C) ch 1 (fun i j c _ => old i j c)) := by
    have := newImage_data m (2 * R) (2 * C) 1 ch 1 (imgBytes (2 * C) ch 1 (fun i j c _ => old i j c))
    rwa [Nat.mul_one] at this
  have sh1 : Holds m1 sd (R * C * ch) (imgBytes C ch 1 (fun i j c _ => px i j c)) := newImage_holds_old hm s2
  have loop : (forI 0 ((2 * R : Nat) : Int) fun i => forI 0 ((2 * C : Nat) : Int) fun j => forI 0 (ch : Int) fun k =>
      pyrUpElem ⟨R, C, 1, ch, 1, sd, si⟩ ⟨(2 * R : Nat), (2 * C : Nat), 1, ch, 1, dd, di⟩ (newSHdr m (2 * R) (2 * C) 1 ch 1) i j k) m1 = .ok ((), m2) := by
    have hf := nest3 (n1 := 2 * R) (n2 := 2 * C) (n3 := ch) (m := m1) (d := m.next) (N := 2 * R * (2 * C) * ch)
      (new := imgBytes (2 * C) ch 1 (fun i j c _ => spread px i j c)) (P := fun i j k p => p = (i * (2 * C) + j) * ch + k)
      (body := fun i j k => pyrUpElem ⟨R, C, 1, ch, 1, sd, si⟩ ⟨(2 * R : Nat), (2 * C : Nat), 1, ch, 1, dd, di⟩ (newSHdr m (2 * R) (2 * C) 1 ch 1) i j k) (by
        intro i j k hi hj hk
        have ed : (CI.lit (i:Int) * CI.lit ((2 * C : Nat):Int) * CI.lit (ch:Int) + CI.lit (j:Int) * CI.lit (ch:Int) + CI.lit (k:Int) : CI)
          = CI.lit (((i * (2 * C) + j) * ch + k : Nat) : Int) := eval_img hi hj hk (by omega)
        have hv : imgBytes (2 * C) ch 1 (fun i j c _ => spread px i j c) ((i * (2 * C) + j) * ch + k) = spread px i j k := imgBytes_at8 hj hk
        unfold pyrUpElem
        by_cases hp : i % 2 = 1 ∨ j % 2 = 1
        · rw [if_pos (by omega)]
          refine Fills.bind (fun g => ev_ok ed _) ?_
          refine Fills.store (img8_lt hi hj hk) ?_
          rw [hv]; unfold spread; rw [if_pos hp]
        · rw [if_neg (by omega)]
          have e2 : ((i:Int) / 2) = ((i / 2 : Nat) : Int) := by omega
          have e3 : ((j:Int) / 2) = ((j / 2 : Nat) : Int) := by omega
          rw [e2, e3]
          refine Fills.bind (fun g => ev_ok (eval_img (R := R) (C := C) (ch := ch) (i := i / 2) (j := j / 2) (c := k) (by omega) (by omega) hk (by omega)) _) ?_
          refine Fills.bind (fun g => load_ok (sh1.put_ne (show sd ≠ m.next by omega)) (img8_lt (by omega) (by omega) hk)) ?_
          refine Fills.bind (fun g => ev_ok ed _) ?_
          refine Fills.store (img8_lt hi hj hk) ?_
          rw [hv, imgBytes_at8 (by omega) hk]; unfold spread; rw [if_neg hp])
    refine (hf.total ?_ th1).trans ?_
    · intro p hp
      obtain ⟨i, j, c, hi, hj, hc, e⟩ := img8_cover hp
      exact ⟨i, hi, j, hj, c, hc, e⟩
    · have := newImage_put m (R := 2 * R) (C := 2 * C) (dt := 1) (ch := ch) (E := 1) (f := imgBytes (2 * C) ch 1 (fun i j c _ => old i j c))
        (g := imgBytes (2 * C) ch 1 (fun i j c _ => spread px i j c))
      rw [Nat.mul_one] at this
      rw [this]
  have ker : gaussian_kernel exp 5 (.fin false 0) 4 m2 = .ok (some (m2.next + 1), m3) := gaussian_kernel_run (exp := exp) (m := m2) (h := 2) (by decide)
  have ks3 : m3.sm (m2.next + 1) = some (newSHdr m2 1 5 4 1 4) := newImage_sm _ _ _ _ _ _ _
  have ks4 : m4.sm (m2.next + 1) = some (newSHdr m2 1 5 4 1 4) := newImage_sm _ _ _ _ _ _ _
  have hk4 : IsImageN m4 (m2.next + 1) 1 5 4 1 4 (fun _ b _ => dbits b) := by
    refine ⟨?_, fun i j c _ hj _ => dbits_lt j⟩
    refine img_congr (newImage_any (f := encN 4 dbits) rfl (by decide) (by decide) (by decide)) ?_
    intro i j c t hi hj hc ht
    obtain rfl : i = 0 := by omega
    obtain rfl : c = 0 := by omega
    have : ((0 * 5 + j) * 1 + 0) * 4 + t = j * 4 + t := by ring
    rw [this]
    exact encN_at _ ht
  have ht2 : IsImage8 m2 (m.next + 1) (2 * R) (2 * C) ch (spread px) := newImage_isImage rfl hd.posR hd.posC hd.posCh
  have ht4 : IsImage8 m4 (m.next + 1) (2 * R) (2 * C) ch (spread px) := img_frame w2 ht2 (newImage_frame m2)
  have hd4 : IsImage8 m4 dp (2 * R) (2 * C) ch old := img_frame w2 (img_frame hm hd (newImage_frame m)) (newImage_frame m2)
  have d4 : m4.sm dp = some ⟨(2 * R : Nat), (2 * C : Nat), 1, ch, 1, dd, di⟩ := by
    rw [← d1]; exact (newImage_sm_old m2 (by omega)).trans (newImage_sm_old m (by omega))
  have sep : SepPixels m4 (m2.next + 1) dp := by
    rintro x ⟨⟨a, a1, a2⟩, ⟨b, b1, b2⟩⟩
    rw [ks4] at a1
    rw [d4] at b1
    have a1 := Option.some.inj a1
    have b1 := Option.some.inj b1
    subst a1 b1
    have a2 : x = m2.next := a2
    have b2 : x = dd := b2
    omega
  obtain ⟨m5, out, r1, r2, r3, r4⟩ := C66_separable .replicate
    (⟨w4, ht4, hd4, hk4, hk4, sep, hch, hN, by omega, by omega⟩ : SepArgs m4 (m.next + 1) dp (m2.next + 1) (m2.next + 1) (2 * R) (2 * C) ch 5 5 (spread px) old dbits dbits)
  refine ⟨m5, out, ?_, r2, ⟨?_, ?_⟩, ?_⟩
  · unfold hypercv_pyramid_up
    rw [nonNull_some, bind_ok (getS_ok s1)]
    dsimp only
    rw [cassert_bind (by rw [decide_eq_true_eq]; constructor <;> omega), nonNull_some, bind_ok (getS_ok d1), bind_ok (ev_ok (twice_eval (by omega)) _),
      cassert_bind (by rw [decide_eq_true_eq]), bind_ok (ev_ok (twice_eval (by omega)) _), cassert_bind (by rw [decide_eq_true_eq]),
      cassert_bind (by rw [decide_eq_true_eq]), bind_ok c1, bind_ok (show derefS (some (m.next + 1)) m1 = _ from getS_ok ts1)]
    refine (bind_ok loop).trans ?_
    rw [bind_ok ker, bind_ok (show derefS (some (m2.next + 1)) m3 = _ from getS_ok ks3)]
    refine (bind_ok (double_run m2)).trans ?_
    exact r1
  · exact (show m.next ≤ m4.next by omega).trans r3.1
  · intro x hx
    have a1 := newImage_frame m (R := 2 * R) (C := 2 * C) (dt := 1) (ch := ch) (E := 1) (f := imgBytes (2 * C) ch 1 (fun i j c _ => spread px i j c)) x hx
    have a2 := newImage_frame m2 (R := 1) (C := 5) (dt := 4) (ch := 1) (E := 4) (f := encN 4 dbits) x (by omega)
    have a3 := r3.2 x (by omega)
    refine ⟨a3.1.trans (a2.2.1.trans a1.2.1), a3.2.1.trans (a2.2.2.trans a1.2.2), fun hp => (a3.2.2 ?_).trans (a2.1.trans a1.1)⟩
    rintro ⟨b, b1, b2⟩
    rw [d4] at b1
    exact hp ⟨b, by rw [d1]; exact b1, b2⟩
  · intro i j c hi hj hc
    exact r4 i j c _ hi hj hc (sepFloat_up (fun b _ => dbits_dec b) px i j c)

theorem nearest_whole {n z : ℤ} (h : NearestEven (n:ℚ) z) : z = n := by
  have := nearest_between (lo := n) (hi := n) h (le_refl _) (le_refl _)
  omega

/-- **C83**, in the interior: where no tap meets the border, an image with one value per channel is enlarged to the same values -/
theorem C83_constant_partial {v : Nat → UInt8} (hm : m.WF) (hch : ch = 1 ∨ ch = 3) (hs : IsImage8 m sp R C ch (fun _ _ c => v c)) (hd : IsImage8 m dp (2 * R) (2 * C) ch old)
    (hR : 2 ≤ R) (hC : 2 ≤ C) (hN : 2 * R * (2 * C) * ch * 4 ≤ 2147483551) :
    ∃ m' out, hypercv_pyramid_up exp (some sp) (some dp) m = .ok ((), m') ∧ IsImage8 m' dp (2 * R) (2 * C) ch out ∧
      ∀ i j c, 2 ≤ i → i + 2 < 2 * R → 2 ≤ j → j + 2 < 2 * C → c < ch → out i j c = v c := by
  obtain ⟨m', out, h1, h2, -, h4⟩ := C83_up (exp := exp) hm hch hs hd hR hC hN
  refine ⟨m', out, h1, h2, ?_⟩
  intro i j c a1 a2 a3 a4 hc
  have h5 := h4 i j c (by omega) (by omega) hc
  have hv := UInt8.toNat_lt (v c)
  have hv' : ((v c).toNat : ℚ) ≤ 255 := by exact_mod_cast (by omega : (v c).toNat ≤ 255)
  rw [upValue_const, hit_inner a1 a2, hit_inner a3 a4, one_mul, one_mul, min_eq_right hv', min_eq_right hv'] at h5
  have := nearest_whole (n := ((v c).toNat : ℤ)) (by exact_mod_cast h5)
  exact UInt8.toNat_inj.mp (by omega)

/-- **C83 refuted**, at the border: in every image of any size whose pixels all have the value 100 the enlarged image has the value 225 in its first and 25 in
its last pixel -/
theorem C83_refuted_border (hm : m.WF) (hch : ch = 1 ∨ ch = 3) (hs : IsImage8 m sp R C ch (fun _ _ _ => 100)) (hd : IsImage8 m dp (2 * R) (2 * C) ch old)
    (hR : 2 ≤ R) (hC : 2 ≤ C) (hN : 2 * R * (2 * C) * ch * 4 ≤ 2147483551) :
    ∃ m' out, hypercv_pyramid_up exp (some sp) (some dp) m = .ok ((), m') ∧ IsImage8 m' dp (2 * R) (2 * C) ch out ∧
      ∀ c, c < ch → out 0 0 c = 225 ∧ out (2 * R - 1) (2 * C - 1) c = 25 := by
  obtain ⟨m', out, h1, h2, -, h4⟩ := C83_up (exp := exp) hm hch hs hd hR hC hN
  refine ⟨m', out, h1, h2, ?_⟩
  intro c hc
  have h5 := h4 0 0 c (by omega) (by omega) hc
  have h6 := h4 (2 * R - 1) (2 * C - 1) c (by omega) (by omega) hc
  have e100 : (((100 : UInt8)).toNat : ℚ) = 100 := by rw [show (100 : UInt8).toNat = 100 from rfl]; norm_num
  rw [upValue_const (v := fun _ => 100), hit_first (by omega), hit_first (by omega), e100] at h5
  rw [upValue_const (v := fun _ => 100), hit_last hR, hit_last hC, e100] at h6
  constructor
  · have := nearest_whole (n := 225) (z := (out 0 0 c).toNat) (by norm_num at h5 ⊢; exact h5)
    exact UInt8.toNat_inj.mp (by show (out 0 0 c).toNat = 225; omega)
  · have := nearest_whole (n := 25) (z := (out (2 * R - 1) (2 * C - 1) c).toNat) (by norm_num at h6 ⊢; exact h6)
    exact UInt8.toNat_inj.mp (by show (out (2 * R - 1) (2 * C - 1) c).toNat = 25; omega)

end

/-! ### The hypotheses are met -/

/-- two byte images in one memory -/
theorem two_bytes {R C ch R' C' ch' : Nat} (hR : 0 < R) (hC : 0 < C) (hc : 0 < ch) (hR' : 0 < R') (hC' : 0 < C') (hc' : 0 < ch') (px px' : Nat → Nat → Nat → UInt8) :
    ∃ m, m.WF ∧ IsImage8 m 1 R C ch px ∧ IsImage8 m 3 R' C' ch' px' := by
  let m0 := Mem.empty.newImage R C 1 ch 1 (imgBytes C ch 1 fun i j c _ => px i j c)
  have h0 : m0.WF := newImage_WF empty_WF
  exact ⟨m0.newImage R' C' 1 ch' 1 (imgBytes C' ch' 1 fun i j c _ => px' i j c), newImage_WF h0,
    img_frame h0 (newImage_isImage (m := Mem.empty) rfl hR hC hc) (newImage_frame m0), newImage_isImage (m := m0) rfl hR' hC' hc'⟩

/-- a 5 x 4 image reduced to 3 x 2 pixels -/
example : ∃ m, m.WF ∧ IsImage8 m 1 5 4 3 (fun i j c => UInt8.ofNat (i + j + c)) ∧ IsImage8 m 3 ((5 + 1) / 2) ((4 + 1) / 2) 3 (fun _ _ _ => 0) ∧ 5 * 4 * 3 * 4 ≤ 2147483551 := by
  obtain ⟨m, h1, h2, h3⟩ := two_bytes (R := 5) (C := 4) (ch := 3) (R' := 3) (C' := 2) (ch' := 3) (by decide) (by decide) (by decide) (by decide) (by decide) (by decide)
    (fun i j c => UInt8.ofNat (i + j + c)) (fun _ _ _ => 0)
  exact ⟨m, h1, h2, h3, by decide⟩

/-- a three-channel source with a one-channel destination -/
example : ∃ m, m.WF ∧ IsImage8 m 1 5 4 3 (fun i j c => UInt8.ofNat (i + j + c)) ∧ IsImage8 m 3 ((5 + 1) / 2) ((4 + 1) / 2) 1 (fun _ _ _ => 0) := by
  obtain ⟨m, h1, h2, h3⟩ := two_bytes (R := 5) (C := 4) (ch := 3) (R' := 3) (C' := 2) (ch' := 1) (by decide) (by decide) (by decide) (by decide) (by decide) (by decide)
    (fun i j c => UInt8.ofNat (i + j + c)) (fun _ _ _ => 0)
  exact ⟨m, h1, h2, h3⟩

/-- a 3 x 2 image of value 100 enlarged to 6 x 4 pixels -/
example : ∃ m, m.WF ∧ IsImage8 m 1 3 2 1 (fun _ _ _ => 100) ∧ IsImage8 m 3 (2 * 3) (2 * 2) 1 (fun _ _ _ => 0) ∧ 2 * 3 * (2 * 2) * 1 * 4 ≤ 2147483551 := by
  obtain ⟨m, h1, h2, h3⟩ := two_bytes (R := 3) (C := 2) (ch := 1) (R' := 6) (C' := 4) (ch' := 1) (by decide) (by decide) (by decide) (by decide) (by decide) (by decide)
    (fun _ _ _ => 100) (fun _ _ _ => 0)
  exact ⟨m, h1, h2, h3, by decide⟩

end HyperCV
