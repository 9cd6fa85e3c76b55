/- Execution of the Fourier transforms (Model/Dft). -/
import Verif.Model.Dft
import Verif.Proof.EdgeEnergy

namespace HyperCV
open Spec

/-- the sum of `n` terms of type `double`, accumulated in `float` -/
def accD (t : Nat → FV) : Nat → FV
  | 0 => .fin false 0
  | n + 1 => addD (accD t n) (t n)

theorem good_accD (t : Nat → FV) : ∀ n, f32.Good (accD t n)
  | 0 => good_zero
  | _ + 1 => good_conv _ _

/-- the terms of the transform at the frequency (`i`, `j`); `f` is `cos` or `sin` -/
def dftTerm (f : FV → FV) (R C : Nat) (a : Nat → Nat → Nat → Nat) (i j q : Nat) : FV :=
  f64.mul (f64.ofInt (a (q / C) (q % C) 0 : Nat)) (f (dftAngle (-2) (dftTemp R C i j (q / C : Nat) (q % C : Nat))))

theorem dftSums_run (L : Trig) {m : Mem} {w sd R C : Nat} {a : Nat → Nat → Nat → Nat} (h : HoldsP m sd w R C 1 a) (hz : R * C ≤ 2147483647) (i j : Nat) :
    dftSums L w sd R C i j m = .ok ((accD (dftTerm L.cos R C a i j) (R * C), accD (dftTerm L.sin R C a i j) (R * C)), m) := by
  unfold dftSums
  exact flat2_runA (fun q => (accD (dftTerm L.cos R C a i j) q, accD (dftTerm L.sin R C a i j) q)) (by
    intro x y hx hy
    rw [bind_ok (ev_ok (eval_px1 hx hy hz) _), bind_ok (h.load hx hy (by decide))]
    show Except.ok ((addD _ _, addD _ _), m) = Except.ok ((addD _ _, addD _ _), m)
    unfold dftTerm
    rw [mix_div hy, mix_mod hy])

/-- the idea of `putP` of two images -/
theorem putP_comm (m : Mem) {d d' w w' R C ch R' C' ch' : Nat} {a b : Nat → Nat → Nat → Nat} (h : d ≠ d') :
    (m.putP d w R C ch a).putP d' w' R' C' ch' b = (m.putP d' w' R' C' ch' b).putP d w R C ch a := put_comm m _ _ _ _ h

theorem HoldsP.putP_ne {m : Mem} {d d' w w' R C ch R' C' ch' : Nat} {a b : Nat → Nat → Nat → Nat} (h : HoldsP m d w R C ch a) (hne : d ≠ d') :
    HoldsP (m.putP d' w' R' C' ch' b) d w R C ch a := HoldsN.putN_ne h hne

/-- store one value of type `float` in an image of one channel that is partly new -/
theorem stF_mix {m : Mem} {d R C i j : Nat} {new old : Nat → Nat → Nat → Nat} {v : FV} (hv : f32.Good v) (he : f32.encode v = new i j 0)
    (hi : i < R) (hj : j < C) :
    stF d (((i * C + j) * 1 + 0 : Nat) : Int) v (m.putP d 4 R C 1 (mixP i j new old)) = .ok ((), m.putP d 4 R C 1 (mixP i (j + 1) new old)) := by
  unfold stF
  rw [storeP_put hi hj (by decide), Nat.mod_eq_of_lt (f32_encode_lt hv)]
  exact congrArg (fun x => Except.ok ((), x)) (putP_congr m (mixP_step1 _ he))

/-- a loop over all pixels that writes two images -/
theorem pixels_run2 {m : Mem} {d d' w w' R C ch : Nat} {old new old' new' : Nat → Nat → Nat → Nat} {body : Int → Int → M Unit}
    (hd : HoldsP m d w R C ch old) (hd' : HoldsP m d' w' R C ch old')
    (step : ∀ i j, i < R → j < C → body i j ((m.putP d w R C ch (mixP i j new old)).putP d' w' R C ch (mixP i j new' old'))
      = .ok ((), (m.putP d w R C ch (mixP i (j+1) new old)).putP d' w' R C ch (mixP i (j+1) new' old'))) :
    (forI 0 (R:Int) fun i => forI 0 (C:Int) fun j => body i j) m = .ok ((), (m.putP d w R C ch new).putP d' w' R C ch new') := by
  have cg : ∀ {a b a' b' : Nat → Nat → Nat → Nat}, (∀ i j c, i < R → j < C → c < ch → a i j c = b i j c) → (∀ i j c, i < R → j < C → c < ch → a' i j c = b' i j c) →
      (m.putP d w R C ch a).putP d' w' R C ch a' = (m.putP d w R C ch b).putP d' w' R C ch b' := by
    intro a b a' b' h1 h2
    rw [putP_congr m h1, putP_congr _ h2]
  have mx : ∀ (i : Nat) (n o : Nat → Nat → Nat → Nat), ∀ x y c, x < R → y < C → c < ch → mixP i C n o x y c = mixP (i + 1) 0 n o x y c := by
    intro i n o x y c _ hy _
    unfold mixP
    by_cases e : x < i + 1
    · rw [if_pos (by omega), if_pos (by omega)]
    · rw [if_neg (by omega), if_neg (by omega)]
  have top := forI_run (n := R) (body := fun i => forI 0 (C:Int) fun j => body i j)
    (fun i => (m.putP d w R C ch (mixP i 0 new old)).putP d' w' R C ch (mixP i 0 new' old')) (fun i hi => by
    refine (forI_run (n := C) (body := fun j => body i j)
      (fun j => (m.putP d w R C ch (mixP i j new old)).putP d' w' R C ch (mixP i j new' old')) (fun j hj => step i j hi hj)).trans ?_
    exact congrArg (fun x => Except.ok ((), x)) (cg (mx i _ _) (mx i _ _)))
  have s0 : (m.putP d w R C ch (mixP 0 0 new old)).putP d' w' R C ch (mixP 0 0 new' old') = m := by
    rw [cg (a := mixP 0 0 new old) (a' := mixP 0 0 new' old') (b := old) (b' := old') (fun a b c _ _ _ => if_neg (by omega)) (fun a b c _ _ _ => if_neg (by omega)), hd.put_self, hd'.put_self]
  have s1 : (m.putP d w R C ch (mixP R 0 new old)).putP d' w' R C ch (mixP R 0 new' old') = (m.putP d w R C ch new).putP d' w' R C ch new' :=
    cg (fun a b c ha _ _ => if_pos (Or.inl ha)) (fun a b c ha _ _ => if_pos (Or.inl ha))
  rw [s0, s1] at top
  exact top

/-- the bits of the transform -/
def dftBits (f : FV → FV) (R C : Nat) (a : Nat → Nat → Nat → Nat) (i j _c : Nat) : Nat := f32.encode (accD (dftTerm f R C a i j) (R * C))

theorem dftLoop_run (L : Trig) {m : Mem} {w sd rd id R C : Nat} {a r0 i0 : Nat → Nat → Nat → Nat} (hs : HoldsP m sd w R C 1 a)
    (hr : HoldsP m rd 4 R C 1 r0) (hi : HoldsP m id 4 R C 1 i0) (h1 : sd ≠ rd) (h2 : sd ≠ id) (h3 : rd ≠ id) (hz : R * C ≤ 2147483647) :
    dftLoop L w sd rd id R C m = .ok ((), (m.putP rd 4 R C 1 (dftBits L.cos R C a)).putP id 4 R C 1 (dftBits L.sin R C a)) := by
  unfold dftLoop
  refine pixels_run2 (body := fun i j => do
    let a ← dftSums L w sd R C i j
    let p ← ev (CI.lit i * CI.lit (C:Int) + CI.lit j)
    stF rd p a.1
    stF id p a.2) hr hi ?_
  intro i j hi hj
  beta_reduce
  have hs' := (hs.putP_ne (w' := 4) (R' := R) (C' := C) (ch' := 1) (b := mixP i j (dftBits L.cos R C a) r0) h1).putP_ne (w' := 4) (R' := R) (C' := C) (ch' := 1)
    (b := mixP i j (dftBits L.sin R C a) i0) h2
  rw [bind_ok (dftSums_run L hs' hz i j), bind_ok (ev_ok (eval_px1 hi hj hz) _)]
  show (stF rd _ (accD (dftTerm L.cos R C a i j) (R * C)) >>= fun _ => stF id _ (accD (dftTerm L.sin R C a i j) (R * C))) _ = _
  rw [putP_comm m h3, bind_ok (stF_mix (new := dftBits L.cos R C a) (good_accD _ _) rfl hi hj), ← putP_comm m h3]
  exact stF_mix (good_accD _ _) rfl hi hj

theorem dftChecks_run {m : Mem} {ps pr pi R C : Nat} {dt : Int} {E sd rd id : Nat} {si ri ii : Bool}
    (hs : m.sm ps = some ⟨R, C, dt, (1:Nat), E, sd, si⟩) (hr : m.sm pr = some ⟨R, C, 4, (1:Nat), (4:Nat), rd, ri⟩)
    (hi : m.sm pi = some ⟨R, C, 4, (1:Nat), (4:Nat), id, ii⟩) :
    dftChecks (some ps) (some pr) (some pi) m =
      .ok ((⟨R, C, dt, (1:Nat), E, sd, si⟩, ⟨R, C, 4, (1:Nat), (4:Nat), rd, ri⟩, ⟨R, C, 4, (1:Nat), (4:Nat), id, ii⟩), m) := by
  unfold dftChecks
  rw [show derefS (some ps) = getS ps from rfl, show derefS (some pr) = getS pr from rfl, show derefS (some pi) = getS pi from rfl]
  simp only [ne_eq, reduceCtorEq, not_false_eq_true, and_self, decide_true, cassert_bind_true]
  rw [bind_ok (getS_ok hs), bind_ok (getS_ok hr), bind_ok (getS_ok hi)]
  simp only [and_self, Nat.cast_one, decide_true, cassert_bind_true]
  rfl

theorem idftChecks_run {m : Mem} {dt : Int} {pr pi pd R C chr chi chd : Nat} {E rd id dd : Nat} {ri ii di : Bool}
    (hr : m.sm pr = some ⟨R, C, 4, chr, (4:Nat), rd, ri⟩) (hi : m.sm pi = some ⟨R, C, 4, chi, (4:Nat), id, ii⟩)
    (hd : m.sm pd = some ⟨R, C, dt, chd, E, dd, di⟩) :
    idftChecks dt (some pr) (some pi) (some pd) m =
      .ok ((⟨R, C, 4, chr, (4:Nat), rd, ri⟩, ⟨R, C, 4, chi, (4:Nat), id, ii⟩, ⟨R, C, dt, chd, E, dd, di⟩), m) := by
  unfold idftChecks
  rw [show derefS (some pd) = getS pd from rfl, show derefS (some pr) = getS pr from rfl, show derefS (some pi) = getS pi from rfl]
  rw [bind_ok (getS_ok hr), bind_ok (getS_ok hi), bind_ok (getS_ok hd)]
  simp only [and_self, decide_true, cassert_bind_true]
  rfl

/-- the terms of the inverse transform at the pixel (`i`, `j`) -/
def idftTerm (L : Trig) (R C : Nat) (r v : Nat → Nat → Nat → Nat) (i j q : Nat) : FV :=
  f64.sub (f64.mul (f64.conv (f32.decode (r (q / C) (q % C) 0))) (L.cos (dftAngle 2 (dftTemp R C i j (q / C : Nat) (q % C : Nat)))))
    (f64.mul (f64.conv (f32.decode (v (q / C) (q % C) 0))) (L.sin (dftAngle 2 (dftTemp R C i j (q / C : Nat) (q % C : Nat)))))

theorem ldF_px {m : Mem} {d R C i j : Nat} {a : Nat → Nat → Nat → Nat} (h : HoldsP m d 4 R C 1 a) (hi : i < R) (hj : j < C) :
    ldF d (((i * C + j) * 1 + 0 : Nat) : Int) m = .ok (f32.decode (a i j 0), m) := by
  unfold ldF
  rw [bind_ok (h.load hi hj (by decide))]
  rfl

theorem idftSum_run (L : Trig) {m : Mem} {rd id R C : Nat} {r v : Nat → Nat → Nat → Nat} (hr : HoldsP m rd 4 R C 1 r) (hv : HoldsP m id 4 R C 1 v)
    (hz : R * C ≤ 2147483647) (i j : Nat) :
    idftSum L rd id R C i j m = .ok (accD (idftTerm L R C r v i j) (R * C), m) := by
  unfold idftSum
  exact flat2_runA (fun q => accD (idftTerm L R C r v i j) q) (by
    intro x y hx hy
    rw [bind_ok (ev_ok (eval_px1 hx hy hz) _), bind_ok (ldF_px hr hx hy), bind_ok (ldF_px hv hx hy)]
    show Except.ok (addD _ _, m) = Except.ok (addD _ _, m)
    unfold idftTerm
    rw [mix_div hy, mix_mod hy])

/-- the pixels of the inverse transform -/
def idftBits (L : Trig) (R C : Nat) (r v : Nat → Nat → Nat → Nat) (i j _c : Nat) : Nat :=
  (idftValue (accD (idftTerm L R C r v i j) (R * C)) (R * C : Nat)).toNat

theorem eval_rc {R C : Nat} (hz : R * C ≤ 2147483647) : (CI.lit (R:Int) * CI.lit (C:Int) : CI) = CI.lit ((R * C : Nat) : Int) := by
  rw [CI.mul_ok (by constructor <;> ((try norm_cast) <;> omega))]
  push_cast; rfl

theorem idftLoop_run (L : Trig) {m : Mem} {w dd rd id R C : Nat} {r v d0 : Nat → Nat → Nat → Nat} (hw : 1 ≤ w) (hd : HoldsP m dd w R C 1 d0)
    (hr : HoldsP m rd 4 R C 1 r) (hv : HoldsP m id 4 R C 1 v) (h1 : rd ≠ dd) (h2 : id ≠ dd) (hz : R * C ≤ 2147483647) :
    idftLoop L w rd id dd R C m = .ok ((), m.putP dd w R C 1 (idftBits L R C r v)) := by
  unfold idftLoop
  refine pixels_run (body := fun i j => do
    let a ← idftSum L rd id R C i j
    let n ← ev (CI.lit (R:Int) * CI.lit (C:Int))
    let p ← ev (CI.lit i * CI.lit (C:Int) + CI.lit j)
    storeN w dd p (idftValue a n).toNat) hd ?_
  intro i j hi hj
  beta_reduce
  rw [bind_ok (idftSum_run L (hr.putP_ne h1) (hv.putP_ne h2) hz i j), bind_ok (ev_ok (eval_rc hz) _), bind_ok (ev_ok (eval_px1 hi hj hz) _),
    storeP_put hi hj (by decide)]
  refine congrArg (fun x => Except.ok ((), x)) (putP_congr m (mixP_step1 _ ?_))
  refine Nat.mod_eq_of_lt (lt_of_lt_of_le (UInt8.toNat_lt _) ?_)
  calc 2 ^ 8 = 256 ^ 1 := rfl
    _ ≤ 256 ^ w := Nat.pow_le_pow_right (by decide) hw

/-- the terms of the centred spectrum -/
def specTerm (f : FV → FV) (R C : Nat) (px : Nat → Nat → Nat → Nat) (i j q : Nat) : FV :=
  f64.mul (f64.mul (f64.ofInt (px (q / C) (q % C) 0 : Nat)) (f (dftAngle (-2) (dftTemp R C i j (q / C : Nat) (q % C : Nat))))) (f64.ofInt (dftMove (q / C : Nat) (q % C : Nat)))

theorem specSums_run (L : Trig) {m : Mem} {sd R C : Nat} {a : Nat → Nat → Nat → Nat} {ch : Nat} (hc : 1 ≤ ch) (h : HoldsP m sd 1 R C ch a) (hz : R * C ≤ 2147483647) (i j : Nat) :
    specSums L sd R C i j m = .ok ((accD (specTerm L.cos R C (fun x y _ => pxF C ch a (x * C + y)) i j) (R * C),
      accD (specTerm L.sin R C (fun x y _ => pxF C ch a (x * C + y)) i j) (R * C)), m) := by
  unfold specSums
  exact flat2_runA (fun q => (accD (specTerm L.cos R C (fun x y _ => pxF C ch a (x * C + y)) i j) q, accD (specTerm L.sin R C (fun x y _ => pxF C ch a (x * C + y)) i j) q)) (by
    intro x y hx hy
    have e := eval_px1 hx hy hz
    rw [Nat.mul_one, Nat.add_zero] at e
    have hlt : x * C + y < R * C * ch := lt_of_lt_of_le (mix_lt hx hy) (Nat.le_mul_of_pos_right _ hc)
    rw [bind_ok (ev_ok e _), bind_ok (HoldsN.load h hlt)]
    show Except.ok ((addD _ _, addD _ _), m) = Except.ok ((addD _ _, addD _ _), m)
    unfold specTerm
    rw [mix_div hy, mix_mod hy])

/-- a heap with three images that do not share pixels -/
theorem exists_three {R C E1 E2 E3 : Nat} {dt1 dt2 dt3 : Int} {a b c : Nat → Nat → Nat → Nat} (hR : 0 < R) (hC : 0 < C) (h1 : elemBytes dt1 = some E1)
    (h2 : elemBytes dt2 = some E2) (h3 : elemBytes dt3 = some E3) (ha : FitsP E1 R C 1 a) (hb : FitsP E2 R C 1 b) (hc : FitsP E3 R C 1 c) :
    ∃ m, Mem.WF m ∧ IsImageN m 1 R C dt1 1 E1 a ∧ IsImageN m 3 R C dt2 1 E2 b ∧ IsImageN m 5 R C dt3 1 E3 c ∧
      SepPixels m 1 3 ∧ SepPixels m 1 5 ∧ SepPixels m 3 5 := by
  let m1 := Mem.empty.newImage R C dt1 1 E1 (imgBytes C 1 E1 fun i j k t => leByte (a i j k) t)
  let m2 := m1.newImage R C dt2 1 E2 (imgBytes C 1 E2 fun i j k t => leByte (b i j k) t)
  let m3 := m2.newImage R C dt3 1 E3 (imgBytes C 1 E3 fun i j k t => leByte (c i j k) t)
  have w1 : m1.WF := newImage_WF empty_WF
  have w2 : m2.WF := newImage_WF w1
  have w3 : m3.WF := newImage_WF w2
  have i1 : IsImage m1 1 R C dt1 1 E1 _ := newImage_isImage (m := Mem.empty) h1 hR hC (by decide)
  have i2 : IsImage m2 3 R C dt2 1 E2 _ := newImage_isImage (m := m1) h2 hR hC (by decide)
  have i3 : IsImage m3 5 R C dt3 1 E3 _ := newImage_isImage (m := m2) h3 hR hC (by decide)
  have s5 : m3.sm 5 = some (newSHdr m2 R C dt3 1 E3) := newImage_sm m2 R C dt3 1 E3 _
  have s3 : m3.sm 3 = some (newSHdr m1 R C dt2 1 E2) :=
    (newImage_sm_old m2 (show (3:Nat) ≠ 5 by decide)).trans (newImage_sm m1 R C dt2 1 E2 _)
  have s1 : m3.sm 1 = some (newSHdr Mem.empty R C dt1 1 E1) :=
    (newImage_sm_old m2 (show (1:Nat) ≠ 5 by decide)).trans ((newImage_sm_old m1 (show (1:Nat) ≠ 3 by decide)).trans (newImage_sm Mem.empty R C dt1 1 E1 _))
  have sep : ∀ {p q : Nat} {x y : SimpleMat}, m3.sm p = some x → m3.sm q = some y → x.data ≠ y.data → SepPixels m3 p q := by
    rintro p q x y hp hq hne h ⟨⟨x', g1, g2⟩, ⟨y', g3, g4⟩⟩
    rw [hp] at g1
    rw [hq] at g3
    cases g1
    cases g3
    exact hne (g2.symm.trans g4)
  exact ⟨m3, w3, ⟨img_frame w2 (img_frame w1 i1 (newImage_frame _)) (newImage_frame _), ha⟩, ⟨img_frame w2 i2 (newImage_frame _), hb⟩, ⟨i3, hc⟩,
    sep s1 s3 (by show (0:Nat) ≠ 2; decide), sep s1 s5 (by show (0:Nat) ≠ 4; decide), sep s3 s5 (by show (2:Nat) ≠ 4; decide)⟩

end HyperCV
