/- The runs of the shape matching: stored values, similarity, and the effect of moving a shape. -/
import Verif.Proof.Shape
import Verif.Proof.Image
import Verif.Proof.FloatGood
import Verif.Proof.Typed
import Verif.Proof.Spectral

namespace HyperCV
open Spec Finset

/-! ### The seven stored values -/

/-- the header of a byte image, and its first bytes -/
structure ShapeAt (m : Mem) (p R C : Nat) (b : Nat → UInt8) : Prop where
  obj : ∃ ch data inl N f, m.sm p = some ⟨R, C, 1, ch, 1, data, inl⟩ ∧ Holds m data N f ∧ R * C ≤ N ∧ ∀ x : Nat, x < R * C → f x = b x

/-- the sums have the values they should have -/
structure HuIs (s00 : FV) (w : HuMoments) (n : Nat) (M : Nat → Nat → Int) : Prop where
  i00 : s00.Is (n:ℚ)
  i11 : w.m11.Is ((M 1 1 : Int) : ℚ)
  i20 : w.m20.Is ((M 2 0 : Int) : ℚ)
  i02 : w.m02.Is ((M 0 2 : Int) : ℚ)
  i03 : w.m03.Is ((M 0 3 : Int) : ℚ)
  i30 : w.m30.Is ((M 3 0 : Int) : ℚ)
  i12 : w.m12.Is ((M 1 2 : Int) : ℚ)
  i21 : w.m21.Is ((M 2 1 : Int) : ℚ)

theorem good_hu (u : HuMoments) (k : Nat) : f64.Good (huValues u k) := by
  match k with
  | 0 => exact good_add _ _ _
  | 1 => exact good_add _ _ _
  | 2 => exact good_add _ _ _
  | 3 => exact good_add _ _ _
  | 4 => exact good_add _ _ _
  | 5 => exact good_add _ _ _
  | _ + 6 => exact good_sub _ _ _

/-- the seven stores -/
theorem huStore_run {m : Mem} {hu : Nat} {f : Nat → UInt8} (u : HuMoments) (hh : Holds m hu 56 f) :
    (forI 0 7 fun k => storeN 8 hu k (f64.encode (huValues u k.toNat))) m = .ok ((), m.putN hu 8 7 fun k => f64.encode (huValues u k)) := by
  have hh' : HoldsN m hu 8 7 (fun i => leNat (tab 8 fun t => f (i * 8 + t))) := holdsN_any (by norm_num) hh
  let F : Nat → Mem := fun k => m.putN hu 8 7 fun j => if j < k then f64.encode (huValues u j) else leNat (tab 8 fun t => f (j * 8 + t))
  have h0 : m = F 0 := by
    show m = m.putN hu 8 7 _
    simp only [Nat.not_lt_zero, if_false]
    exact hh'.put_self.symm
  have key := forI_run (n := 7) (body := fun k => storeN 8 hu k (f64.encode (huValues u k.toNat))) F (by
    intro k hk
    show storeN 8 hu (k:Int) _ (m.putN hu 8 7 _) = _
    rw [storeN_put hk]
    congr 3
    funext j
    rw [Int.toNat_natCast, Nat.mod_eq_of_lt (f64_encode_lt (good_hu u k))]
    by_cases h : j = k
    · rw [if_pos h, if_pos (by omega), h]
    · rw [if_neg h]
      by_cases h2 : j < k
      · rw [if_pos h2, if_pos (by omega)]
      · rw [if_neg h2, if_neg (by omega)])
  rw [← h0] at key
  rw [show ((7:Nat):Int) = 7 from rfl] at key
  have e : F 7 = m.putN hu 8 7 fun k => f64.encode (huValues u k) := putN_congr _ fun j hj => by rw [if_pos hj]
  rw [key, e]

/-- the values depend on the grey values only -/
theorem hu_run {pow : FV → FV → FV} {m : Mem} {p R C : Nat} {b : Nat → UInt8} (hR : R ≤ 512) (hC : C ≤ 512) (h : ShapeAt m p R C b)
    (hn : 0 < mass R C (grey C b)) : ∃ s00 w, HuIs s00 w (mass R C (grey C b)) (moment R C (grey C b)) ∧
      ∀ m' p', ShapeAt m' p' R C b → ∀ hu f, Holds m' hu 56 f →
        calc_hu_moment pow (some hu) (some p') m' = .ok ((), m'.putN hu 8 7 fun k => f64.encode (huValues (huNormalise pow s00 w) k)) := by
  obtain ⟨ch, sd, inl, N, g, a1, c1, c2, c3⟩ := h.obj
  have a2 : ∀ x : Nat, x < R * C → load sd (x:Int) m = .ok (b x, m) := fun x hx => by rw [load_ok c1 (by omega), c3 x hx]
  obtain ⟨s, f1, -, f2, f3, f4⟩ := huFirst_run hR hC a2 a2
  have hm := mass_le (f := grey C b) hR hC (greyC_le C b)
  obtain ⟨cx, hx⟩ := centre_spec f2 f4 hn hm (massX_le hC)
  obtain ⟨cy, hy⟩ := centre_spec f3 f4 hn hm (massY_le hR)
  obtain ⟨w, g1, -, g2, g3, g4, g5, g6, g7, g8⟩ := huMoments_run hR hC hx hy a2 a2
  have es : ev (CI.lit (C:Int) * CI.lit (get_elemsize 1)) = pure (C:Int) := by
    show ev (CI.lit (C:Int) * CI.lit 1) = _
    rw [CI.mul_ok (by constructor <;> omega), Int.mul_one]
    rfl
  refine ⟨s.s00, w, ⟨f4, g2, g3, g4, g5, g6, g7, g8⟩, ?_⟩
  intro m' p' h' hu f hh
  obtain ⟨ch', sd', inl', N', g', a1', c1', c2', c3'⟩ := h'.obj
  have a2' : ∀ x : Nat, x < R * C → load sd' (x:Int) m' = .ok (b x, m') := fun x hx => by rw [load_ok c1' (by omega), c3' x hx]
  obtain ⟨s', e1, e1', -⟩ := huFirst_run hR hC a2 a2'
  rw [f1] at e1
  obtain rfl : s = s' := by injection e1 with e; exact congrArg Prod.fst e
  obtain ⟨w', e2, e2', -⟩ := huMoments_run hR hC hx hy a2 a2'
  rw [g1] at e2
  obtain rfl : w = w' := by injection e2 with e; exact congrArg Prod.fst e
  show (getS p' >>= _) m' = _
  rw [bind_ok (getS_ok a1')]
  show (ev (CI.lit (C:Int) * CI.lit (get_elemsize 1)) >>= _) m' = _
  rw [es]
  show (huFirst sd' R C C >>= _) m' = _
  rw [bind_ok e1', cx, cy]
  show (huMoments sd' R C C _ _ >>= _) m' = _
  rw [bind_ok e2']
  exact huStore_run _ hh

/-! ### Their distance to the invariants -/

theorem moment_le {R C : Nat} {f : Nat → Nat → Nat} (hR : R ≤ 512) (hC : C ≤ 512) (hn : 0 < mass R C f) (hm : mass R C f ≤ 67108864) {p q : Nat} (hpq : p + q ≤ 3) :
    |moment R C f p q| ≤ 511 ^ 3 * mass R C f := by
  have hx : nearest (massX R C f) (mass R C f) ≤ 511 := by
    have := massX_le (R := R) (f := f) hC
    unfold nearest
    exact Nat.lt_succ_iff.1 (Nat.div_lt_of_lt_mul (by rw [Nat.mul_comm]; omega))
  have hy : nearest (massY R C f) (mass R C f) ≤ 511 := by
    have := massY_le (C := C) (f := f) hR
    unfold nearest
    exact Nat.lt_succ_iff.1 (Nat.div_lt_of_lt_mul (by rw [Nat.mul_comm]; omega))
  unfold moment
  generalize nearest (massX R C f) (mass R C f) = cx at *
  generalize nearest (massY R C f) (mass R C f) = cy at *
  refine le_trans (abs_sum_le_sum_abs _ _) ?_
  unfold mass
  push_cast
  rw [mul_sum]
  refine sum_le_sum fun j hj => ?_
  refine le_trans (abs_sum_le_sum_abs _ _) ?_
  rw [mul_sum]
  refine sum_le_sum fun i hi => ?_
  have hj := mem_range.1 hj
  have hi := mem_range.1 hi
  have h1 : |(i:Int) - cx| ≤ 511 := by rw [abs_le]; constructor <;> omega
  have h2 : |(j:Int) - cy| ≤ 511 := by rw [abs_le]; constructor <;> omega
  rw [abs_mul, abs_mul, Nat.abs_cast]
  refine mul_le_mul_of_nonneg_right ?_ (by positivity)
  calc |((i:Int) - cx) ^ p| * |((j:Int) - cy) ^ q| ≤ 511 ^ p * 511 ^ q := mul_le_mul (abs_pow_le h1 p) (abs_pow_le h2 q) (abs_nonneg _) (by positivity)
    _ = 511 ^ (p + q) := by rw [pow_add]
    _ ≤ 511 ^ 3 := pow_le_pow_right₀ (by norm_num) hpq

theorem eta_le {R C : Nat} {f : Nat → Nat → Nat} (hR : R ≤ 512) (hC : C ≤ 512) (hn : 0 < mass R C f) (hm : mass R C f ≤ 67108864) {p q : Nat} (hpq : p + q ≤ 3) :
    |eta R C f p q| ≤ 2 ^ 80 := by
  have h := moment_le hR hC hn hm hpq
  unfold eta
  have hn1 : (1:ℝ) ≤ mass R C f := by exact_mod_cast hn
  have hs : (1:ℝ) ≤ Real.sqrt (mass R C f) ^ (p + q) := one_le_pow₀ (Real.one_le_sqrt.2 hn1)
  have hw : (mass R C f : ℝ) ≤ mass R C f * Real.sqrt (mass R C f) ^ (p + q) := le_mul_of_one_le_right (by linarith) hs
  have hpos : (0:ℝ) < mass R C f * Real.sqrt (mass R C f) ^ (p + q) := by linarith
  rw [abs_div, abs_of_pos hpos, div_le_iff₀ hpos]
  have h' : |(moment R C f p q : ℝ)| ≤ 511 ^ 3 * mass R C f := by exact_mod_cast h
  refine le_trans h' ?_
  refine mul_le_mul ?_ hw (by linarith) (by positivity)
  norm_num

theorem rng_size2 {R C : Nat} {f : Nat → Nat → Nat} (hR : R ≤ 512) (hC : C ≤ 512) (hn : 0 < mass R C f) (hm : mass R C f ≤ 67108864) : Rng 1 (size2 R C f) := by
  unfold Rng size2
  rw [pow_one]
  refine ⟨le_max_left _ _, ?_⟩
  refine max_le (by norm_num) (max_le (eta_le hR hC hn hm (by decide)) (max_le (eta_le hR hC hn hm (by decide)) (eta_le hR hC hn hm (by decide))))

theorem rng_size3 {R C : Nat} {f : Nat → Nat → Nat} (hR : R ≤ 512) (hC : C ≤ 512) (hn : 0 < mass R C f) (hm : mass R C f ≤ 67108864) : Rng 1 (size3 R C f) := by
  unfold Rng size3
  rw [pow_one]
  refine ⟨le_max_left _ _, ?_⟩
  refine max_le (by norm_num) (max_le (max_le (eta_le hR hC hn hm (by decide)) (eta_le hR hC hn hm (by decide)))
    (max_le (eta_le hR hC hn hm (by decide)) (eta_le hR hC hn hm (by decide))))

/-- the seven values of two runs over images with the same moments are the same numbers, near the invariants -/
theorem hu_err {pow : FV → FV → FV} (hp : GoodPow pow) {R C : Nat} {f : Nat → Nat → Nat} {s s' : FV} {w w' : HuMoments} (hR : R ≤ 512) (hC : C ≤ 512)
    (hn : 0 < mass R C f) (hm : mass R C f ≤ 67108864) (h : HuIs s w (mass R C f) (moment R C f)) (h' : HuIs s' w' (mass R C f) (moment R C f)) (k : Nat) :
    ∃ z : ℚ, (huValues (huNormalise pow s w) k).Is z ∧ (huValues (huNormalise pow s' w') k).Is z ∧
      |(z:ℝ) - huOf (eta R C f) k| ≤ huScale (size2 R C f) (size3 R C f) k / 2 ^ 38 ∧ |(z:ℝ)| ≤ huScale (size2 R C f) (size3 R C f) k * 2 ^ 15 := by
  have rU := rng_size2 hR hC hn hm
  have rV := rng_size3 hR hC hn hm
  obtain ⟨P, p1, p2⟩ := hp.two _ hn hm
  obtain ⟨Q, q1, q2⟩ := hp.half _ hn hm
  have hn0 : (0:ℝ) < mass R C f := by exact_mod_cast hn
  have hs2 : Real.sqrt (mass R C f) ^ 2 = mass R C f := Real.sq_sqrt hn0.le
  have W2 : (mass R C f : ℝ) * Real.sqrt (mass R C f) ^ 2 = (mass R C f : ℝ) ^ 2 := by rw [hs2]; ring
  have W3 : (mass R C f : ℝ) * Real.sqrt (mass R C f) ^ 3 = (mass R C f : ℝ) ^ 2 * Real.sqrt (mass R C f) := by
    rw [pow_succ _ 2, hs2]; ring
  have s0 : 0 < Real.sqrt (mass R C f) := Real.sqrt_pos.2 hn0
  have lo : ∀ {n : Nat} {T : ℝ}, Rng 1 T → 1 / 2 ^ 400 ≤ T ∧ T ≤ 2 ^ 400 := by
    intro n T h
    have := h.scaled (c := 1) (by norm_num) (by norm_num) (by norm_num)
    rwa [one_mul] at this
  have two : ∀ {p q : Nat} {a a' : FV}, p + q = 2 → a.Is ((moment R C f p q : Int) : ℚ) → a'.Is ((moment R C f p q : Int) : ℚ) → |eta R C f p q| ≤ size2 R C f →
      Ap (f64.div a (pow s (.fin false 2))) (f64.div a' (pow s' (.fin false 2))) (eta R C f p q) (size2 R C f) 6 := by
    intro p q a a' hpq ia ia' hb
    have e : eta R C f p q = ((moment R C f p q : ℚ) : ℝ) / (mass R C f : ℝ) ^ 2 := by unfold eta; rw [hpq, W2]; push_cast; rfl
    rw [e] at hb ⊢
    exact Ap.div ia ia' (p1 _ h.i00) (p1 _ h'.i00) (by positivity) p2 hb (lo (n := 0) rU).1 (lo (n := 0) rU).2
  have three : ∀ {p q : Nat} {a a' : FV}, p + q = 3 → a.Is ((moment R C f p q : Int) : ℚ) → a'.Is ((moment R C f p q : Int) : ℚ) → |eta R C f p q| ≤ size3 R C f →
      Ap (f64.div a (pow s (.fin false (5 / 2)))) (f64.div a' (pow s' (.fin false (5 / 2)))) (eta R C f p q) (size3 R C f) 6 := by
    intro p q a a' hpq ia ia' hb
    have e : eta R C f p q = ((moment R C f p q : ℚ) : ℝ) / ((mass R C f : ℝ) ^ 2 * Real.sqrt (mass R C f)) := by unfold eta; rw [hpq, W3]; push_cast; rfl
    rw [e] at hb ⊢
    exact Ap.div ia ia' (q1 _ h.i00) (q1 _ h'.i00) (by positivity) q2 hb (lo (n := 0) rV).1 (lo (n := 0) rV).2
  refine huValues_err rU rV (two (by decide) h.i11 h'.i11 ?_) (two (by decide) h.i20 h'.i20 ?_) (two (by decide) h.i02 h'.i02 ?_) (three (by decide) h.i03 h'.i03 ?_)
    (three (by decide) h.i30 h'.i30 ?_) (three (by decide) h.i12 h'.i12 ?_) (three (by decide) h.i21 h'.i21 ?_) k <;> simp [size2, size3]

/-! ### The similarity -/

/-- the sums of the similarity as computed -/
def simFold (A B : Nat → FV) : Nat → HuSims
  | 0 => ⟨.fin false 0, .fin false 0⟩
  | n + 1 => ⟨f64.add (simFold A B n).tmp1 (f64.sub (A n) (B n)).abs, f64.add (simFold A B n).tmp2 (f64.add (A n) (B n)).abs⟩

/-- the similarity as computed -/
def simVal (A B : Nat → FV) : FV := f64.sub (f64.ofInt 1) (f64.div (simFold A B 7).tmp1 (simFold A B 7).tmp2)

theorem similar_run {m : Mem} {h1 h2 : Nat} {A B : Nat → FV} (gA : ∀ k, f64.Good (A k)) (gB : ∀ k, f64.Good (B k)) (hA : HoldsN m h1 8 7 fun k => f64.encode (A k))
    (hB : HoldsN m h2 8 7 fun k => f64.encode (B k)) : calc_similar_hu h1 h2 m = .ok (simVal A B, m) := by
  have key := forA_run (n := 7) (body := fun i (t : HuSims) => (do
    let a ← loadN 8 h1 i
    let b ← loadN 8 h2 i
    pure ⟨f64.add t.tmp1 (f64.sub (f64.decode a) (f64.decode b)).abs, f64.add t.tmp2 (f64.add (f64.decode a) (f64.decode b)).abs⟩ : M HuSims)) (fun _ => m) (simFold A B) (by
    intro i hi
    rw [bind_ok (hA.load hi), bind_ok (hB.load hi), f64_dec_enc (gA i), f64_dec_enc (gB i)]
    rfl)
  unfold calc_similar_hu
  rw [show ((7:Nat):Int) = 7 from rfl, show simFold A B 0 = ⟨.fin false 0, .fin false 0⟩ from rfl] at key
  rw [bind_ok key]
  rfl

theorem fadd_comm (F : Fmt) (a b : FV) : F.add a b = F.add b a := by
  cases a <;> cases b <;> simp only [Fmt.add]
  · rename_i s s'
    by_cases h : s = s'
    · rw [if_pos h, if_pos h.symm, h]
    · rw [if_neg h, if_neg (Ne.symm h)]
  · rw [add_comm, Bool.and_comm]

theorem round_abs_neg (F : Fmt) (z z' : Bool) (q : ℚ) : (F.round z (-q)).abs = (F.round z' q).abs := by
  by_cases hq : q = 0
  · subst hq
    rw [neg_zero, round_zero, round_zero]
    rfl
  · have hq' : -q ≠ 0 := neg_ne_zero.2 hq
    have h1 := rv_neg F q
    by_cases hb : |F.rv q| < 2 ^ (2 ^ (F.w - 1))
    · rw [round_rv hq' (by rw [h1, abs_neg]; exact hb), round_rv hq hb, h1]
      simp [FV.abs]
    · have e : ∀ (z : Bool) {r : ℚ}, r ≠ 0 → ¬ |F.rv r| < 2 ^ (2 ^ (F.w - 1)) → (F.round z r).abs = .inf false := by
        intro z r hr h
        unfold Fmt.round
        rw [if_neg hr]
        have : (2:ℚ) ^ (2 ^ (F.w - 1)) ≤ |(rne (r / 2 ^ F.ulpExp r) * 2 ^ F.ulpExp r : ℚ)| := by
          have := not_lt.1 h
          unfold Fmt.rv at this
          exact this
        simp only [if_pos this]
        rfl
      rw [e z hq' (by rw [h1, abs_neg]; exact hb), e z' hq hb]

theorem fsub_abs_comm (F : Fmt) (a b : FV) : (F.sub a b).abs = (F.sub b a).abs := by
  unfold Fmt.sub
  cases a <;> cases b <;> simp only [Fmt.add, FV.neg] <;> try rfl
  · rename_i s s'
    cases s <;> cases s' <;> rfl
  · rename_i s q s' q'
    rw [show q + -q' = -(q' + -q) by ring]
    exact round_abs_neg F _ _ _

theorem simFold_comm (A B : Nat → FV) : ∀ n, simFold A B n = simFold B A n
  | 0 => rfl
  | n + 1 => by
    simp only [simFold]
    rw [simFold_comm A B n, fsub_abs_comm f64 (A n), fadd_comm f64 (A n)]

theorem simVal_comm (A B : Nat → FV) : simVal A B = simVal B A := by
  unfold simVal
  rw [simFold_comm]

/-! a similarity is never above one -/

/-- a value without a sign -/
def FV.Pos (v : FV) : Prop := v = .nan ∨ v = .inf false ∨ ∃ q : ℚ, 0 ≤ q ∧ v = .fin false q

theorem pos_round {q : ℚ} (h : 0 ≤ q) : (f64.round false q).Pos := by
  by_cases hq : q = 0
  · rw [hq, round_zero]; exact .inr (.inr ⟨0, le_refl _, rfl⟩)
  · have hq0 : ¬ q < 0 := not_lt.2 h
    by_cases hb : |f64.rv q| < 2 ^ (2 ^ (f64.w - 1))
    · rw [round_rv hq hb]
      refine .inr (.inr ⟨f64.rv q, rv_nonneg h, ?_⟩)
      simp [hq0]
    · unfold Fmt.round
      rw [if_neg hq]
      have : (2:ℚ) ^ (2 ^ (f64.w - 1)) ≤ |(rne (q / 2 ^ f64.ulpExp q) * 2 ^ f64.ulpExp q : ℚ)| := by
        have := not_lt.1 hb
        unfold Fmt.rv at this
        exact this
      simp only [if_pos this, hq0, decide_false]
      exact .inr (.inl rfl)

theorem pos_add {a b : FV} (ha : a.Pos) (hb : b.Pos) : (f64.add a b).Pos := by
  rcases ha with rfl | rfl | ⟨q, hq, rfl⟩ <;> rcases hb with rfl | rfl | ⟨r, hr, rfl⟩
  all_goals first
    | exact .inl rfl
    | exact .inr (.inl rfl)
    | exact pos_round (add_nonneg hq hr)

theorem pos_abs (a : FV) : a.abs.Pos := by
  cases a with
  | nan => exact .inl rfl
  | inf s => exact .inr (.inl rfl)
  | fin s q => exact .inr (.inr ⟨|q|, abs_nonneg _, rfl⟩)

theorem pos_div {a b : FV} (ha : a.Pos) (hb : b.Pos) : (f64.div a b).Pos := by
  rcases ha with rfl | rfl | ⟨q, hq, rfl⟩ <;> rcases hb with rfl | rfl | ⟨r, hr, rfl⟩
  all_goals first
    | exact .inl rfl
    | exact .inr (.inl rfl)
    | exact .inr (.inr ⟨0, le_refl _, rfl⟩)
    | skip
  simp only [Fmt.div]
  by_cases hr0 : r = 0
  · rw [if_pos hr0]
    by_cases hq0 : q = 0
    · rw [if_pos hq0]; exact .inl rfl
    · rw [if_neg hq0]; exact .inr (.inl rfl)
  · rw [if_neg hr0]
    exact pos_round (div_nonneg hq hr)

theorem pos_sims (A B : Nat → FV) : ∀ n, (simFold A B n).tmp1.Pos ∧ (simFold A B n).tmp2.Pos
  | 0 => ⟨.inr (.inr ⟨0, le_refl _, rfl⟩), .inr (.inr ⟨0, le_refl _, rfl⟩)⟩
  | n + 1 => ⟨pos_add (pos_sims A B n).1 (pos_abs _), pos_add (pos_sims A B n).2 (pos_abs _)⟩

theorem ofInt_one : f64.ofInt 1 = .fin false 1 := by
  have := rep64_int (n := 1) (by norm_num)
  unfold Fmt.ofInt
  push_cast at this ⊢
  rw [round_rep this one_ne_zero]
  simp

theorem simVal_le (A B : Nat → FV) : simVal A B = .nan ∨ simVal A B = .inf true ∨ ∃ z : ℚ, (simVal A B).Is z ∧ z ≤ 1 := by
  unfold simVal
  rw [ofInt_one]
  rcases pos_div (pos_sims A B 7).1 (pos_sims A B 7).2 with h | h | ⟨q, hq, h⟩ <;> rw [h]
  · exact .inl rfl
  · exact .inr (.inl rfl)
  · show f64.round _ (1 + -q) = .nan ∨ _
    have g1 : f64.GRep 1 := by
      have := (rep64_int (n := 1) (by norm_num)).g
      exact_mod_cast this
    have hle : f64.rv (1 + -q) ≤ 1 := rv_le g1 (by linarith)
    by_cases hb : |f64.rv (1 + -q)| < 2 ^ (2 ^ (f64.w - 1))
    · exact .inr (.inr ⟨_, round_is hb, hle⟩)
    · right; left
      have hneg : 1 + -q < 0 := by
        by_contra hc
        have h0 := rv_nonneg (F := f64) (not_lt.1 hc)
        apply hb
        rw [abs_of_nonneg h0, f64_max]
        exact lt_of_le_of_lt hle (one_lt_pow₀ (by norm_num) (by norm_num))
      have hz : (1 + -q : ℚ) ≠ 0 := hneg.ne
      show f64.round _ (1 + -q) = _
      unfold Fmt.round
      rw [if_neg hz]
      have : (2:ℚ) ^ (2 ^ (f64.w - 1)) ≤ |(rne ((1 + -q) / 2 ^ f64.ulpExp (1 + -q)) * 2 ^ f64.ulpExp (1 + -q) : ℚ)| := by
        have := not_lt.1 hb
        unfold Fmt.rv at this
        exact this
      simp only [if_pos this, hneg, decide_true]

end HyperCV
