import Verif.Proof.Geometric
import Verif.Proof.Cluster
import Verif.Proof.SpecError
import Verif.Model.Otsu
import Verif.Spec.Otsu

namespace HyperCV
open Spec Finset

/-! ### The level of a pixel -/

theorem const64 {q : ℚ} (h0 : 0 ≤ q) (h : q ≤ 1) : ∃ z, f64.Val (f64.round false q) z ∧ |z - q| ≤ 1 / 2 ^ 52 := by
  have b := rv_bound f64 q
  have he := f64_eta_small
  rw [f64_u, abs_of_nonneg h0] at b
  refine ⟨f64.rv q, good_val (good_round f64 _ _) (round_is (rv_lt' ?_)), le_trans b ?_⟩
  · rw [f64_u, f64_max, abs_of_nonneg h0]
    refine lt_of_le_of_lt (b := 2 ^ 10) ?_ (pow_lt_pow_right₀ (by norm_num) (by decide))
    have : (1:ℚ) / 2 ^ 200 ≤ 1 := by norm_num
    norm_num at *
    linarith
  · have : (1:ℚ) / 2 ^ 200 ≤ 1 / 2 ^ 54 := by norm_num
    norm_num at *
    linarith

theorem lumaTerm {b : Nat} {c : FV} {q z : ℚ} (hb : b ≤ 255) (hc : f64.Val c z) (hz : |z - q| ≤ 1 / 2 ^ 52) (h0 : 0 ≤ q) (h1 : q ≤ 1) :
    ∃ y, f64.Val (f64.mul (f64.ofInt (b:Int)) c) y ∧ |y - b * q| ≤ 1 / 2 ^ 43 ∧ |y| ≤ 256 := by
  have he := f64_eta_small
  have hbq : (b:ℚ) ≤ 255 := by exact_mod_cast hb
  have hb0 : (0:ℚ) ≤ b := by positivity
  have hi : (f64.ofInt (b:Int)).Is (b:ℚ) := by
    have := is_ofInt (F := f64) (n := (b:Int)) (rep64_int (by rw [abs_of_nonneg (by omega)]; omega))
    simpa using this
  have hzb : |z| ≤ 1 + 1 / 2 ^ 52 := by
    have := abs_add_le (z - q) q
    rw [sub_add_cancel, abs_of_nonneg h0] at this
    linarith
  have hbz : |(b:ℚ) * z| ≤ 255 * (1 + 1 / 2 ^ 52) := by
    rw [abs_mul, abs_of_nonneg hb0]
    exact mul_le_mul hbq hzb (abs_nonneg _) (by norm_num)
  obtain ⟨y, y1, y2⟩ := val_mul (F := f64) hi hc.1 (by
    rw [f64_u, f64_max]
    refine lt_of_le_of_lt (b := 2 ^ 10) ?_ (pow_lt_pow_right₀ (by norm_num) (by decide))
    have : (1:ℚ) / 2 ^ 200 ≤ 1 := by norm_num
    norm_num at *
    linarith)
  rw [f64_u] at y2
  have e2 : |(b:ℚ) * z - b * q| ≤ 255 * (1 / 2 ^ 52) := by
    rw [← mul_sub, abs_mul, abs_of_nonneg hb0]
    exact mul_le_mul hbq hz (abs_nonneg _) (by norm_num)
  have h3 : (1:ℚ) / 2 ^ 200 ≤ 1 / 2 ^ 54 := by norm_num
  have e3 : |y - b * q| ≤ 1 / 2 ^ 43 := by
    have e : y - b * q = (y - b * z) + (b * z - b * q) := by ring
    rw [e]
    refine le_trans (abs_add_le _ _) ?_
    norm_num at *
    linarith
  refine ⟨y, y1, e3, ?_⟩
  have h4 := abs_add_le (y - b * q) (b * q)
  rw [sub_add_cancel, abs_of_nonneg (mul_nonneg hb0 h0)] at h4
  have h5 : (b:ℚ) * q ≤ 255 * 1 := mul_le_mul hbq h1 h0 (by norm_num)
  norm_num at *
  linarith

theorem add64_err {a b : FV} {x y : ℚ} (ha : f64.Val a x) (hb : f64.Val b y) (h : |x + y| ≤ 1024) :
    ∃ z, f64.Val (f64.add a b) z ∧ |z - (x + y)| ≤ 1 / 2 ^ 43 := by
  obtain ⟨z, z1, z2⟩ := val_add ha hb (by
    rw [f64_u, f64_max]
    refine lt_of_le_of_lt (b := 2 ^ 11) ?_ (pow_lt_pow_right₀ (by norm_num) (by decide))
    norm_num at *
    linarith)
  rw [f64_u] at z2
  refine ⟨z, z1, le_trans z2 ?_⟩
  norm_num at *
  linarith

theorem luma_err {b g r : Nat} (hb : b ≤ 255) (hg : g ≤ 255) (hr : r ≤ 255) :
    ∃ z, f64.Val (otsuLuma b g r) z ∧ |z - (luma1000 b g r : ℚ) / 1000| ≤ 1 / 2 ^ 40 := by
  obtain ⟨c1, c1v, c1e⟩ := const64 (q := 114 / 1000) (by norm_num) (by norm_num)
  obtain ⟨c2, c2v, c2e⟩ := const64 (q := 587 / 1000) (by norm_num) (by norm_num)
  obtain ⟨c3, c3v, c3e⟩ := const64 (q := 299 / 1000) (by norm_num) (by norm_num)
  obtain ⟨p, p1, p2, p3⟩ := lumaTerm hb c1v c1e (by norm_num) (by norm_num)
  obtain ⟨q, q1, q2, q3⟩ := lumaTerm hg c2v c2e (by norm_num) (by norm_num)
  obtain ⟨s, s1, s2, s3⟩ := lumaTerm hr c3v c3e (by norm_num) (by norm_num)
  obtain ⟨u, u1, u2⟩ := add64_err p1 q1 (by
    have := abs_add_le p q
    linarith)
  obtain ⟨v, v1, v2⟩ := add64_err u1 s1 (by
    have h1 := abs_add_le u s
    have h2 := abs_add_le (u - (p + q)) (p + q)
    rw [sub_add_cancel] at h2
    have h3 := abs_add_le p q
    norm_num at *
    linarith)
  refine ⟨v, v1, ?_⟩
  have e : v - (luma1000 b g r : ℚ) / 1000 = (v - (u + s)) + (u - (p + q)) + (p - b * (114 / 1000)) + (q - g * (587 / 1000)) + (s - r * (299 / 1000)) := by
    unfold luma1000
    push_cast
    ring
  rw [e]
  have := abs_add_le (v - (u + s) + (u - (p + q)) + (p - b * (114 / 1000)) + (q - g * (587 / 1000))) (s - r * (299 / 1000))
  have := abs_add_le (v - (u + s) + (u - (p + q)) + (p - b * (114 / 1000))) (q - g * (587 / 1000))
  have := abs_add_le (v - (u + s) + (u - (p + q))) (p - b * (114 / 1000))
  have := abs_add_le (v - (u + s)) (u - (p + q))
  norm_num at *
  linarith

/-- the level that the program gives a pixel -/
def otsuLevel (b g r : Nat) : Nat :=
  match (otsuClamp (otsuLuma b g r)).trunc with
  | some n => n.toNat
  | none => 0

theorem clamp_fin (s : Bool) (z : ℚ) : otsuClamp (.fin s z) = if z < 0 then .fin false 0 else if 255 < z then .fin false 255 else .fin s z := by
  have l1 : (FV.fin s z).lt (.fin false 0) = decide (z < 0) := rfl
  have l2 : (FV.fin false 255).lt (.fin s z) = decide (255 < z) := rfl
  have l3 : (FV.fin false 255).lt (.fin false 0) = false := by decide +kernel
  unfold otsuClamp
  rw [l1]
  by_cases h1 : z < 0
  · simp only [h1, decide_true, if_true, l3]
    rfl
  · simp only [h1, decide_false, if_false]
    show (if (FV.fin false 255).lt (.fin s z) = true then _ else _) = _
    rw [l2]
    simp

theorem level_spec {b g r : Nat} (hb : b ≤ 255) (hg : g ≤ 255) (hr : r ≤ 255) :
    otsuIndex (otsuClamp (otsuLuma b g r)) = pure (otsuLevel b g r) ∧ otsuLevel b g r ≤ 255 ∧
      (otsuLevel b g r = luma1000 b g r / 1000 ∨ otsuLevel b g r + 1 = luma1000 b g r / 1000 ∧ luma1000 b g r % 1000 = 0) := by
  obtain ⟨z, ⟨⟨s, hz⟩, -⟩, h⟩ := luma_err hb hg hr
  have hL : luma1000 b g r ≤ 255000 := by unfold luma1000; omega
  generalize luma1000 b g r = L at *
  have hLq : (L:ℚ) ≤ 255000 := by exact_mod_cast hL
  have hL0 : (0:ℚ) ≤ L := by positivity
  -- the clamped value
  obtain ⟨c, t, hc, c0, c1, c2⟩ : ∃ c t, otsuClamp (otsuLuma b g r) = .fin t c ∧ 0 ≤ c ∧ c ≤ 255 ∧ |c - (L:ℚ) / 1000| ≤ 1 / 2 ^ 40 := by
    rw [hz, clamp_fin]
    by_cases h1 : z < 0
    · refine ⟨0, false, if_pos h1, le_rfl, by norm_num, ?_⟩
      have := (abs_le.1 h).1
      rw [zero_sub, abs_neg, abs_of_nonneg (by positivity)]
      linarith
    · rw [if_neg h1]
      by_cases h2 : 255 < z
      · refine ⟨255, false, if_pos h2, by norm_num, le_rfl, ?_⟩
        have := (abs_le.1 h).2
        rw [abs_of_nonneg (by rw [sub_nonneg, div_le_iff₀ (by norm_num)]; linarith)]
        linarith
      · exact ⟨z, s, if_neg h2, by linarith, by linarith, h⟩
  have f0 : 0 ≤ ⌊c⌋ := Int.floor_nonneg.2 c0
  have f1 : ⌊c⌋ ≤ 255 := by
    have : ⌊c⌋ ≤ ⌊(255:ℚ)⌋ := Int.floor_le_floor c1
    simpa using this
  have ht : (otsuClamp (otsuLuma b g r)).trunc = some ⌊c⌋ := by
    rw [hc]
    show (if -2147483648 ≤ (if 0 ≤ c then ⌊c⌋ else -⌊-c⌋) ∧ (if 0 ≤ c then ⌊c⌋ else -⌊-c⌋) ≤ 2147483647 then some (if 0 ≤ c then ⌊c⌋ else -⌊-c⌋) else none) = _
    rw [if_pos c0, if_pos (by omega)]
  have hlev : otsuLevel b g r = ⌊c⌋.toNat := by
    unfold otsuLevel
    rw [ht]
  refine ⟨?_, by omega, ?_⟩
  · unfold otsuIndex
    rw [ht, hlev]
    show (if 0 ≤ ⌊c⌋ ∧ ⌊c⌋ < 256 then _ else _) = _
    rw [if_pos (by omega)]
  · rw [hlev]
    have hdm := Nat.div_add_mod L 1000
    have hm := Nat.mod_lt L (show 1000 > 0 by decide)
    generalize L / 1000 = d at *
    generalize L % 1000 = e at *
    have hdq : (L:ℚ) / 1000 = d + e / 1000 := by
      rw [← hdm]; push_cast; ring
    rw [hdq] at c2
    obtain ⟨c3, c4⟩ := abs_le.1 c2
    have heq : (e:ℚ) ≤ 999 := by exact_mod_cast (show e ≤ 999 by omega)
    have he0 : (0:ℚ) ≤ e := by positivity
    have hup : c < d + 1 := by norm_num at c3 c4 ⊢; linarith
    have hfl : ⌊c⌋ < d + 1 := by
      rw [Int.floor_lt]; push_cast; exact hup
    by_cases hz : e = 0
    · subst hz
      have : (d:Int) - 1 ≤ ⌊c⌋ := by
        rw [Int.le_floor]; push_cast; norm_num at c3 c4 ⊢; linarith
      omega
    · have he1 : (1:ℚ) ≤ e := by exact_mod_cast (show 1 ≤ e by omega)
      have : (d:Int) ≤ ⌊c⌋ := by
        rw [Int.le_floor]; push_cast; norm_num at c3 c4 ⊢; linarith
      omega

/-! ### The histogram -/

theorem is_nat64' {n : Nat} (h : n ≤ 9007199254740992) : (f64.ofInt (n:Int)).Is (n:ℚ) := by
  have := is_ofInt (F := f64) (n := (n:Int)) (rep64_int (by rw [abs_of_nonneg (by omega)]; omega))
  simpa using this

/-- the levels of an image -/
def otsuLevels (px : Nat → Nat → Nat → UInt8) (i j : Nat) : Nat := otsuLevel (px i j 0).toNat (px i j 1).toNat (px i j 2).toNat

theorem eval_otsu {R C i j c : Nat} (hi : i < R) (hj : j < C) (hc : c < 3) (hN : 3 * (R * C) ≤ 2147483647) :
    (CI.lit (i:Int) * CI.lit ((C * 3 : Nat) : Int) + CI.lit (j:Int) * CI.lit 3 : CI) = CI.lit (((i * C + j) * 3 : Nat) : Int) ∧
      (i * C + j) * 3 + c < 2147483648 := by
  have h0 := img8_lt (ch := 3) hi hj hc
  have h : (i * C + j) * 3 + c < 2147483648 := by omega
  have e3 : (CI.lit 3 : CI) = CI.lit ((3 : Nat) : Int) := rfl
  have e : (i * C + j) * 3 = i * (C * 3) + j * 3 := by ring
  refine ⟨?_, h⟩
  rw [e3, e]
  rw [e] at h
  have h2 : i * (C * 3) + j * 3 < 2147483648 := by omega
  ci_down

theorem otsuHist_run {m : Mem} {R C sd : Nat} {si : Bool} {px : Nat → Nat → Nat → UInt8} (hN : 3 * (R * C) ≤ 2147483647)
    (hb : Holds m sd (R * C * 3) (imgBytes C 3 1 (fun i j c _ => px i j c))) (hR : 0 < R) :
    ∃ h, otsuHist ⟨R, C, 1, 3, 1, sd, si⟩ m = .ok (h, m) ∧ ∀ x, (h x).Is (pixelsAt R C (otsuLevels px) x : Nat) := by
  have hC3 : C * 3 < 2147483648 := by
    have : C ≤ R * C := Nat.le_mul_of_pos_left _ hR
    omega
  have e0 : (CI.lit (C:Int) * CI.lit 3 : CI) = CI.lit ((C * 3 : Nat) : Int) := by
    have e3 : (CI.lit 3 : CI) = CI.lit ((3 : Nat) : Int) := rfl
    rw [e3]
    ci_down
  have key : ∃ h : Nat → FV, forA 0 (R:Int) (fun _ : Nat => FV.fin false 0) (fun i (h : Nat → FV) => forA 0 (C:Int) h fun j (h : Nat → FV) => (do
      let a ← ev (CI.lit i * CI.lit ((C * 3 : Nat) : Int) + CI.lit j * CI.lit 3)
      let b ← load sd a
      let a ← ev (CI.lit i * CI.lit ((C * 3 : Nat) : Int) + CI.lit j * CI.lit 3 + CI.lit 1)
      let g ← load sd a
      let a ← ev (CI.lit i * CI.lit ((C * 3 : Nat) : Int) + CI.lit j * CI.lit 3 + CI.lit 2)
      let r ← load sd a
      let k ← otsuIndex (otsuClamp (otsuLuma (ival b) (ival g) (ival r)))
      pure fun x => if x = k then f64.add (h x) (f64.ofInt 1) else h x : M (Nat → FV))) m = .ok (h, m) ∧ ∀ x, (h x).Is (pixelsAt R C (otsuLevels px) x : Nat) := by
    refine forA_inv (n := R) (m := m) (fun k (h : Nat → FV) => ∀ x, (h x).Is ((pixelsAt k C (otsuLevels px) x : Nat) : ℚ)) (fun x => ⟨false, by simp [pixelsAt]⟩) ?_
    intro i h hi hh
    obtain ⟨h', r1, r2⟩ := forA_inv (n := C) (m := m) (s0 := h) (body := fun j (h : Nat → FV) => (do
        let a ← ev (CI.lit (i:Int) * CI.lit ((C * 3 : Nat) : Int) + CI.lit j * CI.lit 3)
        let b ← load sd a
        let a ← ev (CI.lit (i:Int) * CI.lit ((C * 3 : Nat) : Int) + CI.lit j * CI.lit 3 + CI.lit 1)
        let g ← load sd a
        let a ← ev (CI.lit (i:Int) * CI.lit ((C * 3 : Nat) : Int) + CI.lit j * CI.lit 3 + CI.lit 2)
        let r ← load sd a
        let k ← otsuIndex (otsuClamp (otsuLuma (ival b) (ival g) (ival r)))
        pure fun x => if x = k then f64.add (h x) (f64.ofInt 1) else h x : M (Nat → FV)))
      (fun k (h : Nat → FV) => ∀ x, (h x).Is ((pixelsAt i C (otsuLevels px) x + ∑ j ∈ range k, (if otsuLevels px i j = x then 1 else 0) : Nat) : ℚ)) (by simpa using hh) (by
      intro j h hj hh
      obtain ⟨e, hb0⟩ := eval_otsu hi hj (show 2 < 3 by decide) hN
      have l : ∀ c, c < 3 → load sd ((((i * C + j) * 3 + c : Nat) : Nat) : Int) m = .ok (px i j c, m) := by
        intro c hc
        rw [load_ok hb (img8_lt hi hj hc), imgBytes_at8 hj hc]
      obtain ⟨q1, q2, -⟩ := level_spec (b := (px i j 0).toNat) (g := (px i j 1).toNat) (r := (px i j 2).toNat)
        (by have := UInt8.toNat_lt (px i j 0); omega) (by have := UInt8.toNat_lt (px i j 1); omega) (by have := UInt8.toNat_lt (px i j 2); omega)
      have c1 : (((i * C + j) * 3 : Nat) : Int) + 1 = (((i * C + j) * 3 + 1 : Nat) : Int) := by omega
      have c2 : (((i * C + j) * 3 : Nat) : Int) + 2 = (((i * C + j) * 3 + 2 : Nat) : Int) := by omega
      refine ⟨fun x => if x = otsuLevels px i j then f64.add (h x) (f64.ofInt 1) else h x, ?_, ?_⟩
      · rw [e, CI.add_ok (by constructor <;> omega), CI.add_ok (by constructor <;> omega), c1, c2, ev_bind rfl, bind_ok (show load sd (((i * C + j) * 3 : Nat) : Int) m = _ from l 0 (by decide)), ev_bind rfl,
          bind_ok (l 1 (by decide)), ev_bind rfl, bind_ok (l 2 (by decide))]
        show (otsuIndex (otsuClamp (otsuLuma ((px i j 0).toNat : Int) ((px i j 1).toNat : Int) ((px i j 2).toNat : Int))) >>= _) m = _
        rw [q1]
        rfl
      · intro x
        have hx := hh x
        rw [sum_range_succ]
        dsimp only
        by_cases hk : x = otsuLevels px i j
        · rw [if_pos hk, if_pos hk.symm]
          have hle : pixelsAt i C (otsuLevels px) x ≤ i * C := by
            unfold pixelsAt
            calc ∑ i' ∈ range i, ∑ j ∈ range C, (if otsuLevels px i' j = x then 1 else 0) ≤ ∑ i' ∈ range i, ∑ j ∈ range C, 1 :=
                sum_le_sum fun _ _ => sum_le_sum fun _ _ => by split <;> omega
              _ = i * C := by simp
          have hle2 : ∑ j' ∈ range j, (if otsuLevels px i j' = x then 1 else 0) ≤ j := by
            calc ∑ j' ∈ range j, (if otsuLevels px i j' = x then 1 else 0) ≤ ∑ j' ∈ range j, 1 := sum_le_sum fun _ _ => by split <;> omega
              _ = j := by simp
          have hR1 : i * C + C ≤ R * C := by
            have := Nat.mul_le_mul_right C (show i + 1 ≤ R by omega)
            rwa [Nat.succ_mul] at this
          have hS := Nat.add_le_add hle hle2
          rw [← Nat.add_assoc]
          generalize pixelsAt i C (otsuLevels px) x + ∑ j' ∈ range j, (if otsuLevels px i j' = x then 1 else 0) = S at hx hS ⊢
          have hr := rep64_int (n := ((S + 1 : Nat) : Int)) (by rw [abs_of_nonneg (by omega)]; omega)
          have := is_add (F := f64) hx (is_nat64' (n := 1) (by decide)) (by push_cast at hr ⊢; exact hr)
          push_cast at this ⊢
          exact this
        · rw [if_neg hk, if_neg (fun h => hk h.symm)]
          exact hx)
    refine ⟨h', r1, fun x => ?_⟩
    have := r2 x
    unfold pixelsAt at this ⊢
    rw [sum_range_succ]
    exact this
  obtain ⟨h, k1, k2⟩ := key
  refine ⟨h, ?_, k2⟩
  unfold otsuHist
  show (ev (CI.lit (C:Int) * CI.lit 3) >>= _) m = _
  rw [ev_bind e0]
  exact k1

/-! ### The variance between the classes -/

theorem round64_err {q B : ℚ} (h : |q| ≤ B) (h1 : 1 ≤ B) (hB : B ≤ 2 ^ 20) : |f64.rv q - q| ≤ B / 2 ^ 52 ∧ |f64.rv q| < 2 ^ (2 ^ (f64.w - 1)) := by
  have b := rv_bound f64 q
  have he := f64_eta_small
  have h2 : (1:ℚ) / 2 ^ 200 ≤ 1 / 2 ^ 54 := by norm_num
  rw [f64_u] at b
  constructor
  · refine le_trans b ?_
    norm_num at h2 he ⊢
    linarith
  · refine rv_lt' ?_
    rw [f64_u, f64_max]
    refine lt_of_le_of_lt (b := 2 ^ 22) ?_ (pow_lt_pow_right₀ (by norm_num) (by decide))
    norm_num at h2 he hB ⊢
    linarith

theorem mul64_err {a b : FV} {x y B : ℚ} (ha : a.Is x) (hb : b.Is y) (h : |x * y| ≤ B) (h1 : 1 ≤ B) (hB : B ≤ 2 ^ 20) :
    ∃ z, (f64.mul a b).Is z ∧ |z - x * y| ≤ B / 2 ^ 52 :=
  ⟨_, rnd_mul ha hb (round64_err h h1 hB).2, (round64_err h h1 hB).1⟩

theorem div64_err {a b : FV} {x y B : ℚ} (ha : a.Is x) (hb : b.Is y) (hy : y ≠ 0) (h : |x / y| ≤ B) (h1 : 1 ≤ B) (hB : B ≤ 2 ^ 20) :
    ∃ z, (f64.div a b).Is z ∧ |z - x / y| ≤ B / 2 ^ 52 :=
  ⟨_, rnd_div ha hb hy (round64_err h h1 hB).2, (round64_err h h1 hB).1⟩

theorem sub64_err {a b : FV} {x y B : ℚ} (ha : a.Is x) (hb : b.Is y) (h : |x - y| ≤ B) (h1 : 1 ≤ B) (hB : B ≤ 2 ^ 20) :
    ∃ z, (f64.sub a b).Is z ∧ |z - (x - y)| ≤ B / 2 ^ 52 := by
  obtain ⟨s, rfl⟩ := hb
  rw [sub_eq_add_neg] at h ⊢
  exact ⟨_, rnd_add ha ⟨_, rfl⟩ (round64_err h h1 hB).2, (round64_err h h1 hB).1⟩

theorem otsu_prod {x y X Y A B e f : ℚ} (hx : |x - X| ≤ e) (hy : |y - Y| ≤ f) (hA : |x| ≤ A) (hB : |Y| ≤ B) : |x * y - X * Y| ≤ A * f + e * B := by
  have e1 : x * y - X * Y = x * (y - Y) + (x - X) * Y := by ring
  rw [e1]
  refine le_trans (abs_add_le _ _) ?_
  rw [abs_mul, abs_mul]
  have h0 : 0 ≤ A := le_trans (abs_nonneg _) hA
  have h1 : 0 ≤ e := le_trans (abs_nonneg _) hx
  exact add_le_add (mul_le_mul hA hy (abs_nonneg _) h0) (mul_le_mul hx hB (abs_nonneg _) h1)

theorem abs_of_err {x X e A : ℚ} (h : |x - X| ≤ e) (hX : |X| ≤ A) : |x| ≤ A + e := by
  have := abs_add_le (x - X) X
  rw [sub_add_cancel] at this
  linarith

theorem chain_err {z x X e f : ℚ} (h : |z - x| ≤ e) (h' : |x - X| ≤ f) : |z - X| ≤ e + f := by
  have := abs_add_le (z - x) (x - X)
  rw [sub_add_sub_cancel] at this
  linarith

/-- sums of levels are exact -/
theorem otsuSum_is {h : Nat → FV} {n : Nat → Nat} (hh : ∀ x, (h x).Is (n x : ℚ)) (lo : Nat) :
    ∀ k, lo + k ≤ 256 → (∑ x ∈ Ico lo (lo + k), x * n x) ≤ 9007199254740992 → (otsuSum h lo k).Is ((∑ x ∈ Ico lo (lo + k), x * n x : Nat) : ℚ)
  | 0, _, _ => ⟨false, by simp [otsuSum]⟩
  | k + 1, hl, hk => by
    rw [← Nat.add_assoc, sum_Ico_succ_top (by omega)] at hk ⊢
    have ih := otsuSum_is hh lo k (by omega) (by omega)
    have r1 := rep64_int (n := (((lo + k) * n (lo + k) : Nat) : Int)) (by rw [abs_of_nonneg (by positivity)]; omega)
    have r2 := rep64_int (n := ((∑ x ∈ Ico lo (lo + k), x * n x + (lo + k) * n (lo + k) : Nat) : Int)) (by rw [abs_of_nonneg (by positivity)]; omega)
    have m1 := is_mul (F := f64) (is_nat64' (n := lo + k) (by omega)) (hh (lo + k)) (by push_cast at r1 ⊢; exact r1)
    have := is_add (F := f64) ih m1 (by push_cast at r2 ⊢; exact r2)
    rw [otsuSum]
    push_cast at this ⊢
    exact this

theorem weighted_le {n : Nat → Nat} {s : Finset Nat} (h : ∀ x ∈ s, x ≤ 255) : ∑ x ∈ s, x * n x ≤ 255 * ∑ x ∈ s, n x := by
  rw [mul_sum]
  exact sum_le_sum fun x hx => Nat.mul_le_mul_right _ (h x hx)

theorem mean_abs {S N : Nat} (h : S ≤ 255 * N) : |(S:ℚ) / N| ≤ 255 := by
  rw [abs_of_nonneg (by positivity)]
  rcases Nat.eq_zero_or_pos N with rfl | hN
  · simp
  · rw [div_le_iff₀ (by exact_mod_cast hN)]
    exact_mod_cast h

theorem below_add_above {n : Nat → Nat} {t : Nat} (ht : t < 256) : below n t + above n t = ∑ x ∈ range 256, n x := by
  unfold below above
  rw [range_eq_Ico, range_eq_Ico, sum_Ico_consecutive _ (by omega) (by omega)]

theorem otsuG_err {h : Nat → FV} {n : Nat → Nat} {N i : Nat} {Nf N0f N1f : FV} (hh : ∀ x, (h x).Is (n x : ℚ)) (hN : ∑ x ∈ range 256, n x = N)
    (hb : N < 2147483648) (hi : i < 256) (hs : Separates n i) (fN : Nf.Is (N : ℚ)) (f0 : N0f.Is (below n i : ℚ)) (f1 : N1f.Is (above n i : ℚ)) :
    ∃ z, (otsuG h Nf N0f N1f i).Is z ∧ |z - between n N i| ≤ 1 / 2 ^ 30 := by
  have hba := below_add_above (n := n) hi
  rw [hN] at hba
  obtain ⟨s0, s1⟩ := hs
  have w0' : ∑ x ∈ Ico 0 (0 + (i + 1)), x * n x ≤ 255 * below n i := by
    rw [Nat.zero_add, ← range_eq_Ico]
    exact weighted_le fun x hx => by have := mem_range.1 hx; omega
  have w1' : ∑ x ∈ Ico (i + 1) (i + 1 + (255 - i)), x * n x ≤ 255 * above n i := by
    rw [show i + 1 + (255 - i) = 256 by omega]
    exact weighted_le fun x hx => by have := (mem_Ico.1 hx).2; omega
  have S0 := otsuSum_is hh 0 (i + 1) (by omega) (by omega)
  have S1 := otsuSum_is hh (i + 1) (255 - i) (by omega) (by omega)
  have mB : meanBelow n i = ((∑ x ∈ Ico 0 (0 + (i + 1)), x * n x : Nat) : ℚ) / below n i := by
    rw [Nat.zero_add, ← range_eq_Ico]; rfl
  have mA : meanAbove n i = ((∑ x ∈ Ico (i + 1) (i + 1 + (255 - i)), x * n x : Nat) : ℚ) / above n i := by
    rw [show i + 1 + (255 - i) = 256 by omega]; rfl
  have B0 := mean_abs w0'
  have B1 := mean_abs w1'
  rw [← mB] at B0
  rw [← mA] at B1
  have p0 : (0:ℚ) < below n i := by exact_mod_cast s0
  have p1 : (0:ℚ) < above n i := by exact_mod_cast s1
  have pq : (below n i : ℚ) + above n i = N := by exact_mod_cast hba
  have pN : (0:ℚ) < N := by linarith
  -- the weights
  have X0 : |(below n i : ℚ) / N| ≤ 1 := by
    rw [abs_of_nonneg (div_nonneg (Nat.cast_nonneg _) (Nat.cast_nonneg _)), div_le_one pN]; linarith
  have X1 : |(above n i : ℚ) / N| ≤ 1 := by
    rw [abs_of_nonneg (div_nonneg (Nat.cast_nonneg _) (Nat.cast_nonneg _)), div_le_one pN]; linarith
  have X01 : 1 - (below n i : ℚ) / N = above n i / N := by
    field_simp; linarith
  obtain ⟨w0, w0i, w0e⟩ := div64_err (B := 1) f0 fN pN.ne' X0 le_rfl (by norm_num)
  have w0a := abs_of_err w0e X0
  have w0a' : |w0| ≤ 2 := by norm_num at w0a ⊢; linarith
  have h1w : |1 - w0 - (above n i : ℚ) / N| ≤ 1 / 2 ^ 52 := by
    rw [← X01, abs_sub_comm]
    convert w0e using 2
    ring
  have h1a := abs_of_err h1w X1
  obtain ⟨w1, w1i, w1e⟩ := sub64_err (B := 2) (is_nat64' (n := 1) (by decide)) w0i (by push_cast; norm_num at h1a ⊢; linarith) (by norm_num) (by norm_num)
  have w1e' := chain_err w1e (by push_cast; exact h1w)
  have w1a := abs_of_err w1e' X1
  -- the means
  obtain ⟨u0, u0i, u0e⟩ := div64_err (B := 256) S0 f0 p0.ne' (by rw [← mB]; linarith) (by norm_num) (by norm_num)
  obtain ⟨u1, u1i, u1e⟩ := div64_err (B := 256) S1 f1 p1.ne' (by rw [← mA]; linarith) (by norm_num) (by norm_num)
  rw [← mB] at u0e
  rw [← mA] at u1e
  have ud : |u0 - u1 - (meanBelow n i - meanAbove n i)| ≤ 2 * (256 / 2 ^ 52) := by
    rw [show u0 - u1 - (meanBelow n i - meanAbove n i) = (u0 - meanBelow n i) + -(u1 - meanAbove n i) by ring]
    refine le_trans (abs_add_le _ _) ?_
    rw [abs_neg]
    linarith
  have D : |meanBelow n i - meanAbove n i| ≤ 255 := by
    have a0 : 0 ≤ meanBelow n i := by rw [mB]; exact div_nonneg (Nat.cast_nonneg _) (Nat.cast_nonneg _)
    have a1 : 0 ≤ meanAbove n i := by rw [mA]; exact div_nonneg (Nat.cast_nonneg _) (Nat.cast_nonneg _)
    rw [abs_of_nonneg a0] at B0
    rw [abs_of_nonneg a1] at B1
    rw [abs_le]
    constructor <;> linarith
  have uda := abs_of_err ud D
  obtain ⟨d, di, de⟩ := sub64_err (B := 512) u0i u1i (by norm_num at uda ⊢; linarith) (by norm_num) (by norm_num)
  have de' := chain_err de ud
  have da := abs_of_err de' D
  generalize hDD : meanBelow n i - meanAbove n i = D0 at *
  generalize hX0 : (below n i : ℚ) / N = x0 at *
  generalize hX1 : (above n i : ℚ) / N = x1 at *
  -- the products
  have pe := otsu_prod w0e w1e' w0a' X1
  have Pa : |x0 * x1| ≤ 1 := by
    rw [abs_mul]
    calc |x0| * |x1| ≤ 1 * 1 := mul_le_mul X0 X1 (abs_nonneg _) (by norm_num)
      _ = 1 := by norm_num
  have pa := abs_of_err pe Pa
  obtain ⟨p, pi, pe2⟩ := mul64_err (B := 4) w0i w1i (by norm_num at pa ⊢; linarith) (by norm_num) (by norm_num)
  have pe' := chain_err pe2 pe
  have pa' := abs_of_err pe' Pa
  have pa2 : |p| ≤ 2 := by norm_num at pa' ⊢; linarith
  have qe := otsu_prod pe' de' pa2 D
  have Qa : |x0 * x1 * D0| ≤ 255 := by
    rw [abs_mul]
    calc |x0 * x1| * |D0| ≤ 1 * 255 := mul_le_mul Pa D (abs_nonneg _) (by norm_num)
      _ = 255 := by norm_num
  have qa := abs_of_err qe Qa
  obtain ⟨q, qi, qe2⟩ := mul64_err (B := 512) pi di (by norm_num at qa ⊢; linarith) (by norm_num) (by norm_num)
  have qe' := chain_err qe2 qe
  have qa' := abs_of_err qe' Qa
  have qa2 : |q| ≤ 256 := by norm_num at qa' ⊢; linarith
  have re := otsu_prod qe' de' qa2 D
  have Ra : |x0 * x1 * D0 * D0| ≤ 65025 := by
    rw [abs_mul]
    calc |x0 * x1 * D0| * |D0| ≤ 255 * 255 := mul_le_mul Qa D (abs_nonneg _) (by norm_num)
      _ = 65025 := by norm_num
  have ra := abs_of_err re Ra
  obtain ⟨r, ri, re2⟩ := mul64_err (B := 65536) qi di (by norm_num at ra ⊢; linarith) (by norm_num) (by norm_num)
  have re' := chain_err re2 re
  refine ⟨r, ri, ?_⟩
  unfold between
  rw [hX0, hX1, hDD, pow_two, ← mul_assoc]
  refine le_trans re' ?_
  norm_num

/-! ### The search -/

theorem otsuG_nan {h : Nat → FV} {n : Nat → Nat} {i : Nat} {Nf N0f N1f : FV} (hh : ∀ x, (h x).Is (n x : ℚ)) (hi : i < 256) (h0 : below n i = 0)
    (f0 : N0f.Is (below n i : ℚ)) (x : FV) : x.lt (otsuG h Nf N0f N1f i) = false := by
  have z : ∑ x ∈ Ico 0 (0 + (i + 1)), x * n x = 0 := by
    rw [Nat.zero_add, ← range_eq_Ico]
    unfold below at h0
    rw [sum_eq_zero_iff] at h0 ⊢
    intro x hx
    rw [h0 x hx, Nat.mul_zero]
  have S0 := otsuSum_is hh 0 (i + 1) (by omega) (by omega)
  rw [z] at S0
  rw [h0] at f0
  have e : f64.div (otsuSum h 0 (i + 1)) N0f = .nan := by
    obtain ⟨s, hs⟩ := S0
    obtain ⟨s', hs'⟩ := f0
    rw [hs, hs']
    simp [Fmt.div]
  have e2 : otsuG h Nf N0f N1f i = .nan := by
    unfold otsuG
    dsimp only
    rw [e]
    have e3 : ∀ a, f64.sub .nan a = .nan := by intro a; cases a <;> rfl
    have e4 : ∀ a, f64.mul a .nan = .nan := by intro a; cases a <;> rfl
    rw [e3, e4]
  rw [e2]
  cases x <;> rfl

theorem between_nonneg (n : Nat → Nat) (N t : Nat) : 0 ≤ between n N t := by
  unfold between
  exact mul_nonneg (mul_nonneg (div_nonneg (Nat.cast_nonneg _) (Nat.cast_nonneg _)) (div_nonneg (Nat.cast_nonneg _) (Nat.cast_nonneg _))) (sq_nonneg _)

/-- the state of the search before level `i` -/
def OtsuInv (n : Nat → Nat) (N i : Nat) (tempg : FV) (T : Nat) : Prop :=
  (T = 0 ∧ tempg.Is (-1) ∧ ∀ s, s < i → ¬ Separates n s) ∨
  (T < 256 ∧ Separates n T ∧ ∃ z, tempg.Is z ∧ |z - between n N T| ≤ 1 / 2 ^ 30 ∧ ∀ s, s < i → Separates n s → between n N s ≤ z + 1 / 2 ^ 30)

/-- the level found separates the pixels best, up to rounding; it is 0 when no level separates them -/
def OtsuBest (n : Nat → Nat) (N t : Nat) : Prop :=
  (t = 0 ∧ ∀ s, s < 256 → ¬ Separates n s) ∨
  (t < 256 ∧ Separates n t ∧ ∀ s, s < 256 → Separates n s → between n N s ≤ between n N t + 1 / 2 ^ 29)

theorem otsuBest_of {n : Nat → Nat} {N i T : Nat} {tempg : FV} (h : OtsuInv n N i tempg T) (hi : ∀ s, i ≤ s → s < 256 → ¬ Separates n s) :
    OtsuBest n N T := by
  rcases h with ⟨h1, -, h3⟩ | ⟨h1, h2, z, -, h4, h5⟩
  · refine Or.inl ⟨h1, fun s hs => ?_⟩
    by_cases hc : s < i
    · exact h3 s hc
    · exact hi s (by omega) hs
  · refine Or.inr ⟨h1, h2, fun s hs hS => ?_⟩
    by_cases hc : s < i
    · have := h5 s hc hS
      rw [abs_le] at h4
      have := h4.2
      norm_num at *
      linarith
    · exact absurd hS (hi s (by omega) hs)

theorem above_anti {n : Nat → Nat} {i s : Nat} (h : i ≤ s) : above n s ≤ above n i := by
  unfold above
  refine sum_le_sum_of_subset (fun x hx => ?_)
  rw [mem_Ico] at hx ⊢
  omega

theorem otsuScan_best {h : Nat → FV} {n : Nat → Nat} {N : Nat} {Nf : FV} (hh : ∀ x, (h x).Is (n x : ℚ)) (hN : ∑ x ∈ range 256, n x = N)
    (hb : N < 2147483648) (fN : Nf.Is (N : ℚ)) :
    ∀ k i (N0f tempg : FV) (T : Nat), i + k = 256 → N0f.Is ((∑ x ∈ range i, n x : Nat) : ℚ) → OtsuInv n N i tempg T →
      OtsuBest n N (otsuScan h Nf k i N0f tempg T)
  | 0, i, N0f, tempg, T, hi, _, hI => otsuBest_of hI (fun s h1 h2 => by omega)
  | k + 1, i, N0f, tempg, T, hi, f0, hI => by
    have hba := below_add_above (n := n) (t := i) (by omega)
    rw [hN] at hba
    have eb : below n i = ∑ x ∈ range i, n x + n i := by
      unfold below; rw [sum_range_succ]
    have r1 := rep64_int (n := ((∑ x ∈ range i, n x + n i : Nat) : Int)) (by rw [abs_of_nonneg (Int.natCast_nonneg _)]; omega)
    have g0 : (f64.add N0f (h i)).Is (below n i : ℚ) := by
      have := is_add (F := f64) f0 (hh i) (by push_cast at r1 ⊢; exact r1)
      rw [eb]
      push_cast at this ⊢
      exact this
    have g1 : (f64.sub Nf (f64.add N0f (h i))).Is (above n i : ℚ) := by
      have e : (N:ℚ) - below n i = above n i := by
        rw [← hba]; push_cast; ring
      have r2 := rep64_int (n := ((above n i : Nat) : Int)) (by rw [abs_of_nonneg (Int.natCast_nonneg _)]; omega)
      rw [← e]
      obtain ⟨s, hs⟩ := g0
      rw [hs, sub_eq_add_neg]
      refine is_add (F := f64) fN ⟨_, rfl⟩ ?_
      rw [← sub_eq_add_neg, e]
      exact_mod_cast r2
    rw [otsuScan]
    dsimp only
    have hfeq : (FV.fin false 0).feq (f64.sub Nf (f64.add N0f (h i))) = decide ((0:ℚ) = above n i) := by
      obtain ⟨s, hs⟩ := g1
      rw [hs]; rfl
    rw [hfeq]
    by_cases ha : above n i = 0
    · rw [ha, Nat.cast_zero, decide_eq_true rfl, if_pos rfl]
      refine otsuBest_of hI (fun s hs _ hS => ?_)
      have := above_anti (n := n) hs
      have := hS.2
      omega
    · have ha' : ¬ ((0:ℚ) = above n i) := by
        intro hc; apply ha; exact_mod_cast hc.symm
      rw [decide_eq_false ha', if_neg (by decide)]
      rw [eb] at g0
      by_cases hbz : below n i = 0
      · rw [← eb] at g0
        rw [otsuG_nan hh (by omega) hbz g0, if_neg (by decide)]
        rw [eb, ← sum_range_succ] at g0
        refine otsuScan_best hh hN hb fN k (i + 1) _ _ _ (by omega) g0 ?_
        have nS : ¬ Separates n i := fun hS => by have := hS.1; omega
        rcases hI with ⟨h1, h2, h3⟩ | ⟨h1, h2, z, h4, h5, h6⟩
        · refine Or.inl ⟨h1, h2, fun s hs => ?_⟩
          rcases Nat.lt_succ_iff_lt_or_eq.1 hs with hc | rfl
          · exact h3 s hc
          · exact nS
        · refine Or.inr ⟨h1, h2, z, h4, h5, fun s hs hS => ?_⟩
          rcases Nat.lt_succ_iff_lt_or_eq.1 hs with hc | rfl
          · exact h6 s hc hS
          · exact absurd hS nS
      · have hS : Separates n i := ⟨by omega, by omega⟩
        rw [← eb] at g0
        obtain ⟨y, y1, y2⟩ := otsuG_err hh hN hb (by omega) hS fN g0 g1
        rw [eb, ← sum_range_succ] at g0
        have y0 := between_nonneg n N i
        have y2' := abs_le.1 y2
        rcases hI with ⟨h1, h2, h3⟩ | ⟨h1, h2, z, h4, h5, h6⟩
        · rw [lt_is h2 y1, decide_eq_true (by norm_num at y2' ⊢; linarith), if_pos rfl]
          refine otsuScan_best hh hN hb fN k (i + 1) _ _ _ (by omega) g0 (Or.inr ⟨by omega, hS, y, y1, y2, fun s hs hS' => ?_⟩)
          rcases Nat.lt_succ_iff_lt_or_eq.1 hs with hc | rfl
          · exact absurd hS' (h3 s hc)
          · linarith
        · rw [lt_is h4 y1]
          by_cases hc : z < y
          · rw [decide_eq_true hc, if_pos rfl]
            refine otsuScan_best hh hN hb fN k (i + 1) _ _ _ (by omega) g0 (Or.inr ⟨by omega, hS, y, y1, y2, fun s hs hS' => ?_⟩)
            rcases Nat.lt_succ_iff_lt_or_eq.1 hs with hc' | rfl
            · have := h6 s hc' hS'
              linarith
            · linarith
          · rw [decide_eq_false hc, if_neg (by decide)]
            refine otsuScan_best hh hN hb fN k (i + 1) _ _ _ (by omega) g0 (Or.inr ⟨h1, h2, z, h4, h5, fun s hs hS' => ?_⟩)
            rcases Nat.lt_succ_iff_lt_or_eq.1 hs with hc' | rfl
            · exact h6 s hc' hS'
            · linarith

/-! ### The whole function -/

theorem pixelsAt_sum {R C : Nat} {lev : Nat → Nat → Nat} (h : ∀ i j, i < R → j < C → lev i j < 256) : ∑ x ∈ range 256, pixelsAt R C lev x = R * C := by
  unfold pixelsAt
  rw [sum_comm]
  calc ∑ i ∈ range R, ∑ x ∈ range 256, ∑ j ∈ range C, (if lev i j = x then 1 else 0) = ∑ i ∈ range R, ∑ j ∈ range C, 1 := by
        refine sum_congr rfl fun i hi => ?_
        rw [sum_comm]
        refine sum_congr rfl fun j hj => ?_
        rw [sum_ite_eq, if_pos (mem_range.2 (h i j (mem_range.1 hi) (mem_range.1 hj)))]
    _ = R * C := by simp

theorem otsuLevels_lt (px : Nat → Nat → Nat → UInt8) (i j : Nat) : otsuLevels px i j < 256 := by
  have := (level_spec (b := (px i j 0).toNat) (g := (px i j 1).toNat) (r := (px i j 2).toNat)
    (by have := UInt8.toNat_lt (px i j 0); omega) (by have := UInt8.toNat_lt (px i j 1); omega) (by have := UInt8.toNat_lt (px i j 2); omega)).2.1
  unfold otsuLevels
  omega

theorem ci_cols_rows {R C : Nat} (hR : 0 < R) (hN : 3 * (R * C) ≤ 2147483647) : (CI.lit (C:Int) * CI.lit (R:Int) : CI) = CI.lit ((R * C : Nat) : Int) := by
  rw [Nat.mul_comm]
  have : C * R < 2147483648 := by rw [Nat.mul_comm]; omega
  ci_down

theorem otsuThreshold_run {m : Mem} {p R C : Nat} {px : Nat → Nat → Nat → UInt8} (h : IsImage8 m p R C 3 px) (hN : 3 * (R * C) ≤ 2147483647) :
    ∃ t : Nat, otsuThreshold (some p) m = .ok ((t:Int), m) ∧ OtsuBest (pixelsAt R C (otsuLevels px)) (R * C) t := by
  obtain ⟨sd, si, a1, a6⟩ := img8_lit h
  have hR := h.posR
  obtain ⟨hist, r1, r2⟩ := otsuHist_run (si := si) hN a6 hR
  refine ⟨otsuScan hist (f64.ofInt ((R * C : Nat) : Int)) 256 0 (.fin false 0) (.fin true (-1)) 0, ?_,
    otsuScan_best r2 (pixelsAt_sum fun i j _ _ => otsuLevels_lt px i j) (by omega) (is_nat64' (by omega)) 256 0 _ _ 0 (by omega) ⟨false, by simp⟩
      (Or.inl ⟨rfl, ⟨true, rfl⟩, fun s hs => absurd hs (by omega)⟩)⟩
  unfold otsuThreshold
  have e := ci_cols_rows hR hN
  show (getS p >>= _) m = _
  rw [bind_ok (getS_ok a1)]
  show (ev (CI.lit (C:Int) * CI.lit (R:Int)) >>= _) m = _
  rw [ev_bind e]
  show (otsuHist ⟨R, C, 1, 3, 1, sd, si⟩ >>= _) m = _
  rw [bind_ok r1]
  rfl

end HyperCV
