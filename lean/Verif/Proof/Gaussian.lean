/- Gaussian filter with the built-in kernels: the arithmetic is exact. -/
import Verif.Model.Gaussian
import Verif.Proof.Gradient
import Verif.Proof.InvertExact
import Verif.Props.Invert

namespace HyperCV
open Spec

/-! ### Values that are not negative -/

theorem nn_round {F : Fmt} {q : ℚ} (h0 : 0 ≤ q) (h : F.Rep q) : F.round false q = .fin false q := by
  by_cases hq : q = 0
  · subst hq; exact round_zero
  · rw [round_rep h hq]
    congr 1
    simpa using h0

theorem nn_add {F : Fmt} {a b : ℚ} (ha : 0 ≤ a) (hb : 0 ≤ b) (h : F.Rep (a + b)) :
    F.add (.fin false a) (.fin false b) = .fin false (a + b) := nn_round (by linarith) h

theorem nn_mul {F : Fmt} {a b : ℚ} (ha : 0 ≤ a) (hb : 0 ≤ b) (h : F.Rep (a * b)) :
    F.mul (.fin false a) (.fin false b) = .fin false (a * b) := nn_round (mul_nonneg ha hb) h

theorem nn_conv {F : Fmt} {a : ℚ} (ha : 0 ≤ a) (h : F.Rep a) : F.conv (.fin false a) = .fin false a := nn_round ha h

theorem nn_ofInt {F : Fmt} {n : Nat} (h : F.Rep n) : F.ofInt (n : ℤ) = .fin false n := by
  unfold Fmt.ofInt
  rw [Int.cast_natCast]
  exact nn_round (by positivity) h

theorem nn_dec {q : ℚ} (h0 : 0 ≤ q) (h : f32.Rep q) : f32.decode (f32.encode (.fin false q)) = .fin false q :=
  f32_dec_enc ⟨h, fun _ => by simpa using h0⟩

theorem rep_nat_div {n : Nat} (k : Nat) (hn : n ≤ 2 ^ 24) (hk : k ≤ 100) : f32.Rep ((n : ℚ) / 2 ^ k) := by
  have := rep_dyadic n k (by rw [abs_of_nonneg (by omega)]; exact_mod_cast hn) hk
  rwa [Int.cast_natCast] at this

theorem rep64 {n : Nat} (hn : n ≤ 16777216) : f32.Rep ((n : ℚ) / 64) := by
  have := rep_nat_div 6 (n := n) (by omega) (by omega)
  norm_num at this ⊢
  exact this

theorem rep4096 {n : Nat} (hn : n ≤ 16777216) : f32.Rep ((n : ℚ) / 4096) := by
  have := rep_nat_div 12 (n := n) (by omega) (by omega)
  norm_num at this ⊢
  exact this

theorem rep1 {n : Nat} (hn : n ≤ 16777216) : f32.Rep (n : ℚ) := by
  have := rep_nat_div 0 (n := n) (by omega) (by omega)
  rwa [pow_zero, div_one] at this

/-! ### The kernels -/

/-- weight `b` of the kernel of size `2 * h + 1`, in units of 1/64 -/
def gw (h b : Nat) : Nat := (gaussTab h).getD b 0

theorem gw_total {h : Nat} (hh : h < 4) : ∑ b ∈ Finset.range (2 * h + 1), gw h b = 64 := by
  interval_cases h <;> decide

theorem gw_prefix {h k : Nat} (hh : h < 4) (hk : k ≤ 2 * h + 1) : ∑ b ∈ Finset.range k, gw h b ≤ 64 := by
  rw [← gw_total hh]
  exact Finset.sum_le_sum_of_subset (Finset.range_mono hk)

theorem gw_le {h b : Nat} (hh : h < 4) (hb : b < 2 * h + 1) : gw h b ≤ 64 := by
  have := gw_prefix hh (k := b + 1) (by omega)
  rw [Finset.sum_range_succ] at this
  omega

/-- the elements of the kernel of size `2 * h + 1` -/
def kbits (h b : Nat) : Nat := f32.encode (.fin false ((gw h b : ℚ) / 64))

theorem kbits_lt (h b : Nat) (hh : h < 4) (hb : b < 2 * h + 1) : kbits h b < 256 ^ 4 :=
  f32_encode_lt ⟨rep64 (by have := gw_le hh hb; omega), fun _ => by simp; positivity⟩

theorem kbits_dec {h b : Nat} (hh : h < 4) (hb : b < 2 * h + 1) : f32.decode (kbits h b) = .fin false ((gw h b : ℚ) / 64) :=
  nn_dec (by positivity) (rep64 (by have := gw_le hh hb; omega))

theorem rep64' {n : Nat} (hn : n ≤ 16777216) : f64.Rep ((n : ℚ) / 64) := f32_to_f64 (rep64 hn)

theorem gaussFill_run {exp : FV → FV} {m : Mem} {h d i n : Nat} {sigma : FV} {a : Nat → Nat} (hh : h < 4) (hi : i < 2 * h + 1)
    (hn : n + gw h i ≤ 64) :
    gaussFill exp true ((2 * h + 1 : Nat) : Int) sigma 4 d i (.fin false ((n : ℚ) / 64)) (m.putN d 4 (2 * h + 1) a)
      = .ok (.fin false (((n + gw h i : Nat) : ℚ) / 64),
          m.putN d 4 (2 * h + 1) (fun j => if j = i then kbits h i else a j)) := by
  have e : gaussT exp true ((2 * h + 1 : Nat) : Int) sigma i = .fin false ((gw h i : ℚ) / 64) := by
    unfold gaussT fixedKernel gw
    rw [if_pos rfl]
    congr 4
    · congr 1; omega
  unfold gaussFill
  simp only [e, if_true]
  have g1 := gw_le hh hi
  have e2 : f32.conv (.fin false ((gw h i : ℚ) / 64)) = .fin false ((gw h i : ℚ) / 64) :=
    nn_conv (by positivity) (rep64 (by omega))
  rw [e2]
  have st := storeN_put (m := m) (h := d) (w := 4) (v := kbits h i) (a := a) hi
  rw [Nat.mod_eq_of_lt (kbits_lt h i hh hi)] at st
  rw [show f32.encode (.fin false ((gw h i : ℚ) / 64)) = kbits h i from rfl, bind_ok st]
  have hl : loadN 4 d (i : Int) (m.putN d 4 (2 * h + 1) (fun j => if j = i then kbits h i else a j))
      = .ok (kbits h i, m.putN d 4 (2 * h + 1) (fun j => if j = i then kbits h i else a j)) := by
    refine loadN_val (holds_put _ _ _ _) (slot_le hi) ?_ (kbits_lt h i hh hi)
    intro t ht
    rw [encN_at _ ht, if_pos rfl]
  rw [bind_ok hl, kbits_dec hh hi]
  have e3 : f64.conv (.fin false ((gw h i : ℚ) / 64)) = .fin false ((gw h i : ℚ) / 64) :=
    nn_conv (by positivity) (rep64' (by omega))
  rw [e3, nn_add (by positivity) (by positivity)]
  · show Except.ok _ = Except.ok _
    congr 3
    push_cast; ring
  · have := rep64' (n := n + gw h i) (by omega)
    push_cast at this
    rwa [add_div] at this

theorem gaussScale_run {m : Mem} {h d i : Nat} (hh : h < 4) (hi : i < 2 * h + 1) :
    gaussScale 4 d (.fin false 1) i (m.putN d 4 (2 * h + 1) (kbits h)) = .ok ((), m.putN d 4 (2 * h + 1) (kbits h)) := by
  unfold gaussScale
  rw [if_pos rfl]
  have g1 := gw_le hh hi
  have hH : HoldsN (m.putN d 4 (2 * h + 1) (kbits h)) d 4 (2 * h + 1) (kbits h) :=
    holdsN_putN m fun j hj => kbits_lt h j hh hj
  rw [bind_ok (hH.load hi), kbits_dec hh hi, nn_conv (by positivity) (rep64' (by omega)),
    nn_mul (by positivity) (by norm_num) (by rw [mul_one]; exact rep64' (by omega)), mul_one,
    nn_conv (by positivity) (rep64 (by omega))]
  rw [show f32.encode (.fin false ((gw h i : ℚ) / 64)) = kbits h i from rfl, storeN_put hi]
  refine congrArg (fun x => Except.ok ((), x)) (putN_congr m ?_)
  intro j _
  split
  · rename_i e; rw [e, Nat.mod_eq_of_lt (kbits_lt h i hh hi)]
  · rfl

/-- the memory after the construction of a built-in kernel -/
def Mem.newKernel (m : Mem) (h : Nat) : Mem := m.newImage 1 (2 * h + 1) 4 1 4 (encN 4 (kbits h))

theorem newKernel_put (m : Mem) (h : Nat) (a : Nat → Nat) {f : Nat → UInt8} :
    (m.newImage 1 (2 * h + 1) 4 1 4 f).putN m.next 4 (2 * h + 1) a = m.newImage 1 (2 * h + 1) 4 1 4 (encN 4 a) := by
  have := newImage_put m (R := 1) (C := 2 * h + 1) (dt := 4) (ch := 1) (E := 4) (f := f) (g := encN 4 a)
  unfold Mem.putN
  rw [show 1 * (2 * h + 1) * 1 * 4 = (2 * h + 1) * 4 by omega] at this
  exact this

theorem gaussian_kernel_run {exp : FV → FV} {m : Mem} {h : Nat} (hh : h < 4) :
    gaussian_kernel exp ((2 * h + 1 : Nat) : Int) (.fin false 0) 4 m = .ok (some (m.next + 1), m.newKernel h) := by
  unfold gaussian_kernel
  rw [cassert_bind (by rw [decide_eq_true_eq]; omega), cassert_bind (by simp)]
  have hfix : (decide (((2 * h + 1 : Nat) : Int) % 2 = 1 ∧ ((2 * h + 1 : Nat) : Int) ≤ 7) && FV.le (.fin false 0) (.fin false 0)) = true := by
    rw [Bool.and_eq_true]
    exact ⟨by rw [decide_eq_true_eq]; omega, by decide +kernel⟩
  rw [hfix]
  have hc := create_sm_ok (m := m) (R := 1) (C := 2 * h + 1) (ch := 1) (E := 4) (dt := 4) (by omega) (by omega) (by omega) rfl (by omega)
  refine (bind_ok hc).trans ?_
  refine (bind_ok (getS_ok (newImage_sm m 1 (2 * h + 1) 4 1 4 _))).trans ?_
  let f0 : Nat → UInt8 := fun p => if p < 1 * (2 * h + 1) * 4 then 0 else m.junk m.next p
  have r1 := forA_run (n := 2 * h + 1) (body := fun i sum => gaussFill exp true ((2 * h + 1 : Nat) : Int) (.fin false 0) 4 m.next i sum)
    (fun k => (m.newImage 1 (2 * h + 1) 4 1 4 f0).putN m.next 4 (2 * h + 1) (fun j => if j < k then kbits h j else 0))
    (fun k => .fin false (((∑ b ∈ Finset.range k, gw h b : Nat) : ℚ) / 64)) (by
      intro i hi
      have hp := gw_prefix hh (k := i + 1) (by omega)
      rw [Finset.sum_range_succ] at hp
      beta_reduce
      rw [gaussFill_run hh hi hp, Finset.sum_range_succ]
      refine congrArg (fun x => Except.ok (_, x)) (putN_congr _ ?_)
      intro j _
      by_cases e : j = i
      · rw [if_pos e, if_pos (by omega), e]
      · rw [if_neg e]
        by_cases e2 : j < i
        · rw [if_pos e2, if_pos (by omega)]
        · rw [if_neg e2, if_neg (by omega)])
  beta_reduce at r1
  have z0 : (m.newImage 1 (2 * h + 1) 4 1 4 f0).putN m.next 4 (2 * h + 1) (fun j => if j < 0 then kbits h j else 0)
      = m.newImage 1 (2 * h + 1) 4 1 4 f0 := by
    rw [newKernel_put]
    apply newImage_congr
    intro p hp
    show encN 4 _ p = if _ then _ else _
    rw [if_pos (by omega)]
    unfold encN
    beta_reduce
    rw [if_neg (by omega)]
    unfold leByte
    simp
  have z1 : (m.newImage 1 (2 * h + 1) 4 1 4 f0).putN m.next 4 (2 * h + 1) (fun j => if j < 2 * h + 1 then kbits h j else 0)
      = (m.newImage 1 (2 * h + 1) 4 1 4 f0).putN m.next 4 (2 * h + 1) (kbits h) := by
    apply putN_congr
    intro j hj
    rw [if_pos hj]
  rw [z0, z1, gw_total hh, Finset.sum_range_zero] at r1
  rw [show (((0:Nat):ℚ) / 64) = 0 by norm_num, show (((64:Nat):ℚ) / 64) = 1 by norm_num] at r1
  refine (bind_ok r1).trans ?_
  have hdiv : f64.div (.fin false 1) (.fin false 1) = .fin false 1 := by
    show (if (1:ℚ) = 0 then (if (1:ℚ) = 0 then FV.nan else FV.inf (false != false)) else f64.round (false != false) (1 / 1)) = _
    rw [if_neg one_ne_zero, div_one]
    have := rep64' (n := 64) (by omega)
    rw [show (((64:Nat):ℚ) / 64) = 1 by norm_num] at this
    exact nn_round (by norm_num) this
  simp only [hdiv]
  have r2 := forI_run (n := 2 * h + 1) (body := fun i => gaussScale 4 m.next (.fin false 1) i)
    (fun _ => (m.newImage 1 (2 * h + 1) 4 1 4 f0).putN m.next 4 (2 * h + 1) (kbits h)) (fun i hi => gaussScale_run hh hi)
  refine (bind_ok r2).trans ?_
  show Except.ok _ = Except.ok _
  unfold Mem.newKernel
  rw [newKernel_put]

theorem newKernel_holds (m : Mem) {h : Nat} (hh : h < 4) : HoldsN (m.newKernel h) m.next 4 (2 * h + 1) (kbits h) := by
  refine ⟨?_, fun i hi => kbits_lt h i hh hi⟩
  have := newImage_data m 1 (2 * h + 1) 4 1 4 (encN 4 (kbits h))
  rwa [show 1 * (2 * h + 1) * 1 * 4 = (2 * h + 1) * 4 by omega] at this

/-! ### Sums over the channels -/

/-- accumulators with values `a` -/
def sums (ch : Nat) (a : Nat → ℚ) : Int → FV := fun c => .fin false (if 0 ≤ c ∧ c < ch then a c.toNat else 0)

theorem sums_at {ch c : Nat} {a : Nat → ℚ} (hc : c < ch) : sums ch a c = .fin false (a c) := by
  unfold sums; rw [if_pos (by omega)]; simp

theorem sums_congr {ch : Nat} {a b : Nat → ℚ} (h : ∀ c, c < ch → a c = b c) : sums ch a = sums ch b := by
  funext c
  unfold sums
  by_cases hc : 0 ≤ c ∧ c < ch
  · rw [if_pos hc, if_pos hc, h _ (by omega)]
  · rw [if_neg hc, if_neg hc]

theorem sums_zero (ch : Nat) : sums ch (fun _ => 0) = fun _ => FV.fin false 0 := by
  funext c; unfold sums; simp

theorem sums_set {ch c : Nat} {a : Nat → ℚ} {v : ℚ} (hc : c < ch) :
    setAt (sums ch a) c (.fin false v) = sums ch (fun c' => if c' = c then v else a c') := by
  funext c'
  unfold setAt sums
  by_cases e : c' = c
  · rw [if_pos e, if_pos (by omega)]
    beta_reduce
    rw [if_pos (by omega)]
  · rw [if_neg e]
    by_cases h2 : 0 ≤ c' ∧ c' < ch
    · rw [if_pos h2, if_pos h2]
      beta_reduce
      rw [if_neg (by omega)]
    · rw [if_neg h2, if_neg h2]

theorem chan_run {ch : Nat} {a a' : Nat → ℚ} {m : Mem} {body : Int → (Int → FV) → M (Int → FV)}
    (h : ∀ c s, c < ch → s (c:Int) = .fin false (a c) → body c s m = .ok (setAt s c (.fin false (a' c)), m)) :
    forA 0 (ch:Int) (sums ch a) body m = .ok (sums ch a', m) := by
  have r := forA_run (n := ch) (body := body) (fun _ => m) (fun k => sums ch (fun c => if c < k then a' c else a c)) (by
    intro c hc
    beta_reduce
    rw [h c _ hc (by rw [sums_at hc, if_neg (by omega)]), sums_set hc]
    refine congrArg (fun x => Except.ok (x, m)) (sums_congr ?_)
    intro c' _
    by_cases e : c' = c
    · rw [if_pos e, if_pos (by omega), e]
    · rw [if_neg e]
      by_cases e2 : c' < c
      · rw [if_pos e2, if_pos (by omega)]
      · rw [if_neg e2, if_neg (by omega)])
  beta_reduce at r
  rw [sums_congr (b := a) (fun c _ => if_neg (by omega)), sums_congr (a := fun c => if c < ch then a' c else a c) (b := a') (fun c hc => if_pos hc)] at r
  exact r

theorem clampF_id {q : ℚ} (h0 : 0 ≤ q) (h1 : q ≤ 255) : clampF (.fin false q) = .fin false q := by
  unfold clampF FV.lt
  simp only []
  rw [if_neg (by simpa using h0), if_neg (by simpa using h1)]

/-- a weighted sum of bounded terms -/
theorem wsum_le {h k B : Nat} {t : Nat → Nat} (hh : h < 4) (hk : k ≤ 2 * h + 1) (ht : ∀ b, b < k → t b ≤ B) :
    ∑ b ∈ Finset.range k, gw h b * t b ≤ 64 * B := by
  calc _ ≤ ∑ b ∈ Finset.range k, gw h b * B := Finset.sum_le_sum fun b hb => Nat.mul_le_mul_left _ (ht b (Finset.mem_range.mp hb))
    _ = (∑ b ∈ Finset.range k, gw h b) * B := by rw [Finset.sum_mul]
    _ ≤ _ := Nat.mul_le_mul_right _ (gw_prefix hh hk)

/-! ### Horizontal pass -/

/-- the first `k` terms of the horizontal sum, in units of 1/64 -/
def rowN (h : Nat) (g : Int → Nat) (px : Nat → Nat → Nat → UInt8) (i j c k : Nat) : Nat :=
  ∑ b ∈ Finset.range k, gw h b * (px i (g ((j:Int) + b - h)) c).toNat

theorem rowN_le {h : Nat} {g : Int → Nat} {px : Nat → Nat → Nat → UInt8} {i j c k : Nat} (hh : h < 4) (hk : k ≤ 2 * h + 1) :
    rowN h g px i j c k ≤ 16320 := by
  refine le_trans (wsum_le (B := 255) hh hk ?_) (by norm_num)
  intro b _
  have := (px i (g ((j:Int) + b - h)) c).toNat_lt
  omega

theorem gaussRowTap_run {m : Mem} {sd kd R C ch i j k h : Nat} {bt : Int} {g : Int → Nat} {px : Nat → Nat → Nat → UInt8}
    {s : SimpleMat} (hh : h < 4) (hs : Holds m sd (R * C * ch) (imgBytes C ch 1 (fun i j c _ => px i j c)))
    (hkx : HoldsN m kd 4 (2 * h + 1) (kbits h)) (hb : R * C * ch ≤ 2147483647) (hC' : C ≤ 2147483600)
    (hC : TapOK bt C h g) (hi : i < R) (hj : j < C) (hk : k < 2 * h + 1)
    (s2 : s.cols = C) (s3 : s.channels = ch) (s4 : s.data = sd) :
    gaussRowTap s kd ((2 * h + 1 : Nat) : Int) bt i j k (sums ch fun c => (rowN h g px i j c k : ℚ) / 64) m
      = .ok (sums ch fun c => (rowN h g px i j c (k+1) : ℚ) / 64, m) := by
  unfold gaussRowTap
  have e0 : (((2 * h + 1 : Nat) : Int) / 2) = h := by omega
  have e1 : (CI.lit (j:Int) + CI.lit (k:Int) - CI.lit (((2 * h + 1 : Nat) : Int) / 2) : CI) = CI.lit ((j:Int) + k - h) := by
    rw [e0, CI.add_ok (by constructor <;> omega), CI.sub_ok (by constructor <;> omega)]
  obtain ⟨r1, r2⟩ := hC ((j:Int) + k - h) (by omega) (by omega)
  rw [bind_ok (ev_ok e1 _), s2, s3, s4, bind_ok (tapIndex_ok r1 m)]
  refine chan_run ?_
  intro c sm hc hsm
  rw [bind_ok (hkx.load hk), bind_ok (ev_ok (eval_img hi r2 hc hb) _), bind_ok (load_ok hs (img8_lt hi r2 hc)), imgBytes_at8 r2 hc,
    kbits_dec hh hk]
  have hv := (px i (g ((j:Int) + k - h)) c).toNat_lt
  have g1 := gw_le hh hk
  have hle := rowN_le (g := g) (px := px) (i := i) (j := j) (c := c) (k := k + 1) hh (by omega)
  have hst : rowN h g px i j c (k + 1) = rowN h g px i j c k + gw h k * (px i (g ((j:Int) + k - h)) c).toNat := by
    unfold rowN; rw [Finset.sum_range_succ]
  rw [hst] at hle
  have e2 : ((gw h k : ℚ) / 64) * ((px i (g ((j:Int) + k - h)) c).toNat : ℚ)
      = ((gw h k * (px i (g ((j:Int) + k - h)) c).toNat : Nat) : ℚ) / 64 := by push_cast; ring
  have e3 : ((rowN h g px i j c k : ℚ) / 64) + ((gw h k * (px i (g ((j:Int) + k - h)) c).toNat : Nat) : ℚ) / 64
      = (rowN h g px i j c (k+1) : ℚ) / 64 := by rw [hst]; push_cast; ring
  rw [nn_ofInt (rep1 (by omega)), nn_mul (by positivity) (by positivity) (by rw [e2]; exact rep64 (by omega)), e2, hsm,
    nn_add (by positivity) (by positivity) (by rw [e3, hst]; exact rep64 (by omega)), e3]
  rfl

/-- elements of the intermediate image -/
def tbits (h : Nat) (g : Int → Nat) (px : Nat → Nat → Nat → UInt8) (i j c : Nat) : Nat :=
  f32.encode (.fin false ((rowN h g px i j c (2 * h + 1) : ℚ) / 64))

theorem tbits_lt {h : Nat} {g : Int → Nat} {px : Nat → Nat → Nat → UInt8} {i j c : Nat} (hh : h < 4) : tbits h g px i j c < 256 ^ 4 :=
  f32_encode_lt ⟨rep64 (by have := rowN_le (g := g) (px := px) (i := i) (j := j) (c := c) hh (le_refl _); omega), fun _ => by simp; positivity⟩

theorem tbits_dec {h : Nat} {g : Int → Nat} {px : Nat → Nat → Nat → UInt8} {i j c : Nat} (hh : h < 4) :
    f32.decode (tbits h g px i j c) = .fin false ((rowN h g px i j c (2 * h + 1) : ℚ) / 64) :=
  nn_dec (by positivity) (rep64 (by have := rowN_le (g := g) (px := px) (i := i) (j := j) (c := c) hh (le_refl _); omega))

theorem gaussRow_run {m : Mem} {sd kd td R C ch i j h : Nat} {bt : Int} {g : Int → Nat} {px : Nat → Nat → Nat → UInt8}
    {s t : SimpleMat} (hh : h < 4) (hs : Holds m sd (R * C * ch) (imgBytes C ch 1 (fun i j c _ => px i j c)))
    (hkx : HoldsN m kd 4 (2 * h + 1) (kbits h)) (hb : R * C * ch ≤ 2147483647) (hC' : C ≤ 2147483600)
    (hC : TapOK bt C h g) (hi : i < R) (hj : j < C) (hne1 : sd ≠ td) (hne2 : kd ≠ td)
    (s2 : s.cols = C) (s3 : s.channels = ch) (s4 : s.data = sd) (t2 : t.cols = C) (t3 : t.data = td) :
    Fills (gaussRow s t kd ((2 * h + 1 : Nat) : Int) bt i j) m td (R * C * ch * 4) (encN 4 (pxF C ch (tbits h g px)))
      (fun p => ∃ c, c < ch ∧ ((i * C + j) * ch + c) * 4 ≤ p ∧ p < ((i * C + j) * ch + c) * 4 + 4) := by
  unfold gaussRow
  refine Fills.bind (a := sums ch fun c => (rowN h g px i j c (2 * h + 1) : ℚ) / 64) ?_ ?_
  · intro g'
    have r := forA_run (n := 2 * h + 1) (body := fun k sum => gaussRowTap s kd ((2 * h + 1 : Nat) : Int) bt i j k sum)
      (fun _ => m.put td (R * C * ch * 4) g') (fun k => sums ch fun c => (rowN h g px i j c k : ℚ) / 64)
      (fun k hk => gaussRowTap_run hh (hs.put_ne hne1) (hkx.put_ne hne2) hb hC' hC hi hj hk s2 s3 s4)
    beta_reduce at r
    have z : (sums ch fun c => (rowN h g px i j c 0 : ℚ) / 64) = fun _ => FV.fin false 0 := by
      rw [← sums_zero ch]; apply sums_congr; intro c _; unfold rowN; simp
    rw [z] at r
    exact r
  rw [s3, t2, t3]
  refine Fills.loop (P := fun c p => ((i * C + j) * ch + c) * 4 ≤ p ∧ p < ((i * C + j) * ch + c) * 4 + 4) ?_
  intro c hc
  refine Fills.bind (fun g => ev_ok (eval_img hi hj hc hb) _) ?_
  have hle := rowN_le (g := g) (px := px) (i := i) (j := j) (c := c) hh (le_refl (2 * h + 1))
  have hle' : (rowN h g px i j c (2 * h + 1) : ℚ) ≤ 16320 := by exact_mod_cast hle
  rw [sums_at hc, clampF_id (by positivity) (by linarith)]
  refine storeN_fills (slot_le (img8_lt hi hj hc)) ?_
  intro t' ht
  rw [encN_at _ ht, pxF_at _ hj hc]
  rfl

/-! ### Vertical pass -/

/-- the first `k` terms of the vertical sum, in units of 1/4096 -/
def colN (h h' : Nat) (g g' : Int → Nat) (px : Nat → Nat → Nat → UInt8) (i j c k : Nat) : Nat :=
  ∑ a ∈ Finset.range k, gw h' a * rowN h g px (g' ((i:Int) + a - h')) j c (2 * h + 1)

theorem colN_le {h h' : Nat} {g g' : Int → Nat} {px : Nat → Nat → Nat → UInt8} {i j c k : Nat} (hh : h < 4) (hh' : h' < 4)
    (hk : k ≤ 2 * h' + 1) : colN h h' g g' px i j c k ≤ 1044480 :=
  le_trans (wsum_le (B := 16320) hh' hk fun _ _ => rowN_le hh (le_refl _)) (by norm_num)

theorem gaussColTap_run {m : Mem} {td kd R C ch i j k h h' : Nat} {bt : Int} {g g' : Int → Nat} {px : Nat → Nat → Nat → UInt8}
    {s t : SimpleMat} (hh : h < 4) (hh' : h' < 4) (ht : HoldsP m td 4 R C ch (tbits h g px))
    (hky : HoldsN m kd 4 (2 * h' + 1) (kbits h')) (hb : R * C * ch ≤ 2147483647) (hR' : R ≤ 2147483600)
    (hR : TapOK bt R h' g') (hi : i < R) (hj : j < C) (hk : k < 2 * h' + 1)
    (s1 : s.rows = R) (s3 : s.channels = ch) (t2 : t.cols = C) (t3 : t.data = td) :
    gaussColTap s t kd ((2 * h' + 1 : Nat) : Int) bt j i k (sums ch fun c => (colN h h' g g' px i j c k : ℚ) / 4096) m
      = .ok (sums ch fun c => (colN h h' g g' px i j c (k+1) : ℚ) / 4096, m) := by
  unfold gaussColTap
  have e0 : (((2 * h' + 1 : Nat) : Int) / 2) = h' := by omega
  have e1 : (CI.lit (i:Int) + CI.lit (k:Int) - CI.lit (((2 * h' + 1 : Nat) : Int) / 2) : CI) = CI.lit ((i:Int) + k - h') := by
    rw [e0, CI.add_ok (by constructor <;> omega), CI.sub_ok (by constructor <;> omega)]
  obtain ⟨r1, r2⟩ := hR ((i:Int) + k - h') (by omega) (by omega)
  rw [bind_ok (ev_ok e1 _), s1, s3, t2, t3, bind_ok (tapIndex_ok r1 m)]
  refine chan_run ?_
  intro c sm hc hsm
  rw [bind_ok (hky.load hk), bind_ok (ev_ok (eval_img r2 hj hc hb) _), bind_ok (ht.load r2 hj hc), kbits_dec hh' hk, tbits_dec hh]
  have hv := rowN_le (g := g) (px := px) (i := g' ((i:Int) + k - h')) (j := j) (c := c) hh (le_refl (2 * h + 1))
  have hle := colN_le (g := g) (g' := g') (px := px) (i := i) (j := j) (c := c) (k := k + 1) hh hh' (by omega)
  have hst : colN h h' g g' px i j c (k + 1) = colN h h' g g' px i j c k
      + gw h' k * rowN h g px (g' ((i:Int) + k - h')) j c (2 * h + 1) := by
    unfold colN; rw [Finset.sum_range_succ]
  rw [hst] at hle
  have e2 : ((gw h' k : ℚ) / 64) * ((rowN h g px (g' ((i:Int) + k - h')) j c (2 * h + 1) : ℚ) / 64)
      = ((gw h' k * rowN h g px (g' ((i:Int) + k - h')) j c (2 * h + 1) : Nat) : ℚ) / 4096 := by push_cast; ring
  have e3 : ((colN h h' g g' px i j c k : ℚ) / 4096) + ((gw h' k * rowN h g px (g' ((i:Int) + k - h')) j c (2 * h + 1) : Nat) : ℚ) / 4096
      = (colN h h' g g' px i j c (k+1) : ℚ) / 4096 := by rw [hst]; push_cast; ring
  rw [nn_mul (by positivity) (by positivity) (by rw [e2]; exact rep4096 (by omega)), e2, hsm,
    nn_add (by positivity) (by positivity) (by rw [e3, hst]; exact rep4096 (by omega)), e3]
  rfl

theorem gaussCol_run {m : Mem} {td kd dd R C ch i j h h' : Nat} {bt : Int} {g g' : Int → Nat} {px out : Nat → Nat → Nat → UInt8}
    {s t d : SimpleMat} (hh : h < 4) (hh' : h' < 4) (ht : HoldsP m td 4 R C ch (tbits h g px))
    (hky : HoldsN m kd 4 (2 * h' + 1) (kbits h')) (hb : R * C * ch ≤ 2147483647) (hR' : R ≤ 2147483600)
    (hR : TapOK bt R h' g') (hi : i < R) (hj : j < C) (hne1 : td ≠ dd) (hne2 : kd ≠ dd)
    (s1 : s.rows = R) (s3 : s.channels = ch) (t2 : t.cols = C) (t3 : t.data = td) (d2 : d.cols = C) (d3 : d.data = dd)
    (hout : ∀ c, c < ch → ((out i j c).toNat : ℤ) = rne ((colN h h' g g' px i j c (2 * h' + 1) : ℚ) / 4096)) :
    Fills (gaussCol s t d kd ((2 * h' + 1 : Nat) : Int) bt j i) m dd (R * C * ch) (imgBytes C ch 1 (fun i j c _ => out i j c))
      (fun p => ∃ c, c < ch ∧ p = (i * C + j) * ch + c) := by
  unfold gaussCol
  refine Fills.bind (a := sums ch fun c => (colN h h' g g' px i j c (2 * h' + 1) : ℚ) / 4096) ?_ ?_
  · intro g''
    have r := forA_run (n := 2 * h' + 1) (body := fun k sum => gaussColTap s t kd ((2 * h' + 1 : Nat) : Int) bt j i k sum)
      (fun _ => m.put dd (R * C * ch) g'') (fun k => sums ch fun c => (colN h h' g g' px i j c k : ℚ) / 4096)
      (fun k hk => gaussColTap_run hh hh' (HoldsN.put_ne ht hne1) (hky.put_ne hne2) hb hR' hR hi hj hk s1 s3 t2 t3)
    beta_reduce at r
    have z : (sums ch fun c => (colN h h' g g' px i j c 0 : ℚ) / 4096) = fun _ => FV.fin false 0 := by
      rw [← sums_zero ch]; apply sums_congr; intro c _; unfold colN; simp
    rw [z] at r
    exact r
  rw [s3, d2, d3]
  refine Fills.loop (P := fun c p => p = (i * C + j) * ch + c) ?_
  intro c hc
  refine Fills.bind (fun g => ev_ok (eval_img hi hj hc hb) _) ?_
  have hle := colN_le (g := g) (g' := g') (px := px) (i := i) (j := j) (c := c) hh hh' (le_refl (2 * h' + 1))
  have hle' : (colN h h' g g' px i j c (2 * h' + 1) : ℚ) ≤ 1044480 := by exact_mod_cast hle
  rw [sums_at hc, clampF_id (by positivity) (by linarith)]
  refine Fills.store (img8_lt hi hj hc) ?_
  rw [imgBytes_at8 hj hc]
  apply UInt8.toNat_inj.mp
  have hsat := saturate_fin (v := .fin false ((colN h h' g g' px i j c (2 * h' + 1) : ℚ) / 4096)) ⟨false, rfl⟩
  have hl := (out i j c).toNat_lt
  rw [← hout c hc] at hsat
  have : clamp 0 255 ((out i j c).toNat : ℤ) = (out i j c).toNat := by
    unfold clamp; rw [if_neg (by omega), if_neg (by omega)]
  rw [this] at hsat
  exact_mod_cast hsat

end HyperCV
