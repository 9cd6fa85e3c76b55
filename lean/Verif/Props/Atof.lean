/- Conversion of a text to a number: C89. -/
import Verif.Proof.AtofError
import Verif.Proof.Cluster

namespace HyperCV
open Spec Finset

/-! ### Auxiliary facts -/

/-- the final expression -/
theorem atofResult_err {I D : FV} {i d : ℚ} (hI : f32.Val I i) (hD : f32.Val D d) (s : Option Bool) {K : Nat} (hK : K ≤ 38) {g : Int}
    (hb : |i| * 10 ^ K + |d| ≤ 2 ^ 127) :
    ∃ v z, atofResult (signVal s) { int := I, dec := D, digits := g, exp := (K:Int) } = v ∧ v.Is z ∧
      |z - signVal s * (i * 10 ^ K + d)| ≤ 1 / 2 ^ 23 * (|i| * 10 ^ K + |d|) + 1 / 2 ^ 149 := by
  obtain ⟨p, p1, p2⟩ := pow10_val (k := K) (by omega)
  have hT : (0:ℚ) < 10 ^ K := by positivity
  have hI' : (f64.conv I).Is i := is_conv' hI.1 (f32_to_f64 hI.2)
  have hD' : f64.Val (f64.conv D) d := ⟨is_conv' hD.1 (f32_to_f64 hD.2), f32_to_f64 hD.2⟩
  have hi0 := abs_nonneg i
  have hd0 := abs_nonneg d
  have q1 : |i * p - i * 10 ^ K| ≤ 1 / 2 ^ 53 * (|i| * 10 ^ K) := by
    rw [← mul_sub, abs_mul]
    calc |i| * |p - 10 ^ K| ≤ |i| * (1 / 2 ^ 53 * 10 ^ K) := mul_le_mul_of_nonneg_left p2 hi0
      _ = _ := by ring
  have q0 : |i * 10 ^ K| = |i| * 10 ^ K := by rw [abs_mul, abs_of_pos hT]
  have hX0 : 0 ≤ |i| * 10 ^ K := by positivity
  have q2 : |i * p| ≤ (1 + 1 / 2 ^ 53) * (|i| * 10 ^ K) := by
    have := abs_add_le (i * p - i * 10 ^ K) (i * 10 ^ K)
    rw [sub_add_cancel, q0] at this
    linarith
  have heta := f64_eta_small
  have heta0 := eta_pos f64
  obtain ⟨y, y1, y2⟩ := val_mul (F := f64) hI' p1.1 (by
    refine f64_big ?_
    rw [f64_u]
    generalize |i| * 10 ^ K = X at *
    norm_num at hb q2 heta ⊢
    linarith)
  rw [f64_u] at y2
  have y3 : |y| ≤ |y - i * p| + |i * p| := by
    have := abs_add_le (y - i * p) (i * p)
    rwa [sub_add_cancel] at this
  have y4 := abs_add_le y d
  obtain ⟨w, w1, w2⟩ := val_add y1 hD' (by
    refine f64_big ?_
    rw [f64_u]
    generalize |i| * 10 ^ K = X at *
    norm_num at hb q2 heta y2 y3 y4 ⊢
    linarith)
  rw [f64_u] at w2
  have w3 : |w| ≤ |w - (y + d)| + |y + d| := by
    have := abs_add_le (w - (y + d)) (y + d)
    rwa [sub_add_cancel] at this
  have hs : ((signVal s : ℤ) : ℚ) = 1 ∨ ((signVal s : ℤ) : ℚ) = -1 := by
    rcases s with _ | _ | _ <;> simp [signVal]
  have hs1 : (f64.ofInt (signVal s)).Is ((signVal s : ℤ) : ℚ) := is_ofInt (rep64_int (by rcases s with _ | _ | _ <;> simp [signVal]))
  have u1 : (f64.mul (f64.ofInt (signVal s)) (f64.add (f64.mul (f64.conv I) (pow10 (K:Int))) (f64.conv D))).Is (signVal s * w) := by
    refine is_mul hs1 w1.1 ?_
    rcases hs with h | h
    · rw [h, one_mul]; exact w1.2
    · rw [h, neg_one_mul]; exact rep_neg' w1.2
  have habs : ∀ q : ℚ, |(signVal s : ℚ) * q| = |q| := by
    intro q
    rcases hs with h | h
    · rw [h, one_mul]
    · rw [h, neg_one_mul, abs_neg]
  obtain ⟨z, z1, z2⟩ := val_conv (F := f32) u1 (by
    rw [f32_u, f32_eta, f32_max, habs]
    generalize |i| * 10 ^ K = X at *
    norm_num at hb q2 heta y2 y3 y4 w2 w3 ⊢
    linarith)
  rw [f32_u, f32_eta, habs] at z2
  refine ⟨_, z, rfl, z1.1, ?_⟩
  have e1 : z - signVal s * (i * 10 ^ K + d) = (z - signVal s * w) + signVal s * ((w - (y + d)) + ((y - i * p) + (i * p - i * 10 ^ K))) := by ring
  rw [e1]
  refine le_trans (abs_add_le _ _) ?_
  rw [habs]
  have a1 := abs_add_le (w - (y + d)) ((y - i * p) + (i * p - i * 10 ^ K))
  have a2 := abs_add_le (y - i * p) (i * p - i * 10 ^ K)
  have heta' : f64.eta ≤ 1 / 2 ^ 160 := le_trans heta (by norm_num)
  clear heta heta0 hb e1
  refine le_trans (add_le_add (le_refl _) (a1.trans (add_le_add (le_refl _) a2))) ?_
  clear a1 a2
  generalize f64.eta = η at *
  generalize |i| * 10 ^ K = X at *
  norm_num at q1 q2 y2 y3 y4 w2 w3 z2 heta' ⊢
  linarith

/-- the variables before the final expression -/
theorem atof_numeral (n : Numeral) (h1 : n.fracDigits.length ≤ 1048576) (h2 : n.expVal ≤ 38) :
    ∃ (I D : FV) (g : Int), hypercv_atof n.text = .ok (atofResult (signVal n.sign) { int := I, dec := D, digits := g, exp := (n.expVal : Int) }) ∧
      ((n.exp = none ∨ n.frac = none) ∧ I = intFV n.int ∧ D = decFV n.fracDigits 1 (.fin false 0) ∧ (n.expVal = 0 ∨ n.frac = none) ∨
        I = f32.add (intFV n.int) (decFV n.fracDigits 1 (.fin false 0)) ∧ D = .fin false 0) := by
  obtain ⟨k, s, l, fr, ex⟩ := n
  simp only [Numeral.fracDigits, Numeral.expVal] at h1 h2 ⊢
  unfold Numeral.text
  simp only
  rw [atof_start k s l (by
    intro _
    rcases fr with _ | f
    · rcases ex with _ | e
      · exact .inl rfl
      · exact .inr ⟨'e', _, rfl, by decide, by decide, by decide⟩
    · exact .inr ⟨'.', _, rfl, by decide, by decide, by decide⟩)]
  rcases fr with _ | f
  · rcases ex with _ | e
    · exact ⟨_, _, 1, rfl, .inl ⟨.inl rfl, rfl, rfl, .inl rfl⟩⟩
    · simp only [List.nil_append]
      rw [atofInt, if_neg (by decide), if_neg (by decide), if_pos (.inl rfl)]
      simp only
      unfold atofFinish
      have := atofTail_exp e { int := intFV l, dec := .fin false 0, digits := 1, exp := 0 } [] rfl (by
        simp only [List.nil_append, Option.getD_some] at h2 ⊢
        omega) []
      rw [List.append_nil, List.nil_append] at this
      rw [this]
      exact ⟨_, _, 1, rfl, .inl ⟨by simp, rfl, rfl, by simp⟩⟩
  · rw [List.cons_append, atofInt, if_neg (by decide), if_pos rfl]
    simp only
    unfold atofFinish
    simp only [Option.getD_some] at h1
    rw [atofTail_digits f false _ 1 rfl (by omega)]
    rcases ex with _ | e
    · exact ⟨_, _, _, rfl, .inl ⟨.inl rfl, rfl, rfl, .inl rfl⟩⟩
    · simp only
      rw [atofTail, if_neg (by simp [show isDigitC 'e' = false by decide]), if_pos ⟨rfl, .inl rfl⟩]
      simp only [and_self, if_true]
      have := atofRest_digits e [] (by
        simp only [List.nil_append, Option.getD_some] at h2 ⊢
        omega)
      rw [List.nil_append] at this
      rw [show ((0:Int)) = ((natOf [] : Nat) : Int) from rfl, this]
      exact ⟨_, _, _, rfl, .inr ⟨rfl, rfl⟩⟩

theorem atof_tail {I D : FV} {i d : ℚ} (hI : f32.Val I i) (hD : f32.Val D d) (s : Option Bool) {K : Nat} (hK : K ≤ 38) {g : Int} {V L m : ℚ}
    (hV0 : 0 ≤ V) (hL : 0 ≤ L) (hm : 0 ≤ m) (hVb : V ≤ 2 ^ 123)
    (h1 : |i| * 10 ^ K + |d| ≤ 5 / 4 * V + 1 / 2 ^ 129 * 10 ^ K)
    (h2 : |i * 10 ^ K + d - V| ≤ (L + 1) / 2 ^ 21 * V + m / 2 ^ 148 * 10 ^ K + 1 / 2 ^ 150 * 10 ^ K) :
    ∃ v z, (Except.ok (atofResult (signVal s) { int := I, dec := D, digits := g, exp := (K:Int) }) : Except Err FV) = .ok v ∧ v.Is z ∧
      |z - signVal s * V| ≤ (L + 2) / 2 ^ 20 * V + (m + 1) * 10 ^ K / 2 ^ 145 := by
  have hT1 : (1:ℚ) ≤ 10 ^ K := one_le_pow₀ (by norm_num)
  have hT2 : (10:ℚ) ^ K ≤ 10 ^ 38 := pow_le_pow_right₀ (by norm_num) hK
  obtain ⟨v, z, e, z1, z2⟩ := atofResult_err hI hD s hK (g := g) (by
    norm_num at hVb hT2 h1 ⊢
    linarith)
  refine ⟨v, z, by rw [e], z1, ?_⟩
  have hs : |((signVal s : ℤ) : ℚ)| = 1 := by
    rcases s with _ | _ | _ <;> simp [signVal]
  have e1 : z - signVal s * V = (z - signVal s * (i * 10 ^ K + d)) + signVal s * (i * 10 ^ K + d - V) := by ring
  rw [e1]
  refine le_trans (abs_add_le _ _) ?_
  rw [abs_mul, hs, one_mul]
  have hLV : 0 ≤ L * V := mul_nonneg hL hV0
  have e2 : (L + 1) / 2 ^ 21 * V = 1 / 2 ^ 21 * (L * V) + 1 / 2 ^ 21 * V := by ring
  have e3 : (L + 2) / 2 ^ 20 * V = 1 / 2 ^ 20 * (L * V) + 2 / 2 ^ 20 * V := by ring
  have e4 : m / 2 ^ 148 * 10 ^ K = 1 / 2 ^ 148 * (m * 10 ^ K) := by ring
  have e5 : (m + 1) * 10 ^ K / 2 ^ 145 = 1 / 2 ^ 145 * (m * 10 ^ K) + 1 / 2 ^ 145 * 10 ^ K := by ring
  have hmT : 0 ≤ m * 10 ^ K := by positivity
  rw [e2, e4] at h2
  rw [e3, e5]
  refine le_trans (add_le_add z2 h2) ?_
  clear z2 h2 e1 e2 e3 e4 e5 e
  generalize |i| * 10 ^ K + |d| = P at *
  generalize m * 10 ^ K = mT at *
  generalize (10:ℚ) ^ K = T at *
  generalize L * V = LV at *
  norm_num at h1 ⊢
  linarith

/-! ### C89 -/

/-- **C89** (accuracy): a decimal numeral, with or without decimals and an exponent without sign, is converted to a `float` near its
value.  The relative error is at most (number of digits + 2) · 2⁻²⁰; decimals below the range of `float` are lost. -/
theorem C89_numeral_partial (n : Numeral) (hl : n.int.length + n.fracDigits.length ≤ 262144) (hK : n.expVal ≤ 38) (hb : n.abs ≤ 2 ^ 123) :
    ∃ v z, hypercv_atof n.text = .ok v ∧ v.Is z ∧
      |z - n.value| ≤ (n.int.length + n.fracDigits.length + 2) / 2 ^ 20 * n.abs + (n.fracDigits.length + 1) * 10 ^ n.expVal / 2 ^ 145 := by
  have hA : (n.int.length : ℚ) ≤ 262144 := by exact_mod_cast (show n.int.length ≤ 262144 by omega)
  have hM : (n.fracDigits.length : ℚ) ≤ 262144 := by exact_mod_cast (show n.fracDigits.length ≤ 262144 by omega)
  have hT1 : (1:ℚ) ≤ 10 ^ n.expVal := one_le_pow₀ (by norm_num)
  have hT2 : (10:ℚ) ^ n.expVal ≤ 10 ^ 38 := pow_le_pow_right₀ (by norm_num) hK
  have hN0 : (0:ℚ) ≤ natOf n.int := by positivity
  have hF0 : (0:ℚ) ≤ natOf n.fracDigits / 10 ^ n.fracDigits.length := by positivity
  unfold Numeral.value
  have hab : n.abs = ((natOf n.int : ℚ) + natOf n.fracDigits / 10 ^ n.fracDigits.length) * 10 ^ n.expVal := rfl
  have hNb : (natOf n.int : ℚ) ≤ 2 ^ 124 := by
    rw [hab] at hb
    nlinarith
  obtain ⟨i, i1, -, i3⟩ := intFV_err n.int (by linarith) hNb
  obtain ⟨d, d1, d2⟩ := decFV_err n.fracDigits (by linarith)
  have i4 : |i - natOf n.int| ≤ n.int.length / 2 ^ 21 * natOf n.int := by
    refine le_trans i3 (mul_le_mul_of_nonneg_right ?_ hN0)
    have := pow_le (k := n.int.length) (e := 1 / 2 ^ 22) (by norm_num) (by norm_num; linarith)
    norm_num at this ⊢
    linarith
  obtain ⟨I, D, g, e1, e2⟩ := atof_numeral n (by omega) hK
  rw [e1]
  generalize hN : (natOf n.int : ℚ) = N at *
  generalize hF : (natOf n.fracDigits : ℚ) / 10 ^ n.fracDigits.length = F at *
  have hL : (n.int.length : ℚ) + n.fracDigits.length ≤ 262144 := by exact_mod_cast hl
  have ha0 : (0:ℚ) ≤ n.int.length := by positivity
  have hm0 : (0:ℚ) ≤ n.fracDigits.length := by positivity
  generalize (n.int.length : ℚ) = a at *
  generalize hm : (n.fracDigits.length : ℚ) = m at *
  have ib : |i| ≤ (1 + 1 / 8) * N := by
    have := abs_add_le (i - N) N
    rw [sub_add_cancel, abs_of_nonneg hN0] at this
    have h2 : a / 2 ^ 21 * N ≤ 1 / 8 * N := mul_le_mul_of_nonneg_right (by norm_num; linarith) hN0
    linarith
  have db : |d| ≤ (1 + 1 / 8) * F + 1 / 2 ^ 130 := by
    have := abs_add_le (d - F) F
    rw [sub_add_cancel, abs_of_nonneg hF0] at this
    have h2 : m / 2 ^ 21 * F ≤ 1 / 8 * F := mul_le_mul_of_nonneg_right (by norm_num; linarith) hF0
    have h3 : m / 2 ^ 148 ≤ 1 / 2 ^ 130 := by norm_num; linarith
    linarith
  have hV : |i - N| + |d - F| ≤ (a + m) / 2 ^ 21 * (N + F) + m / 2 ^ 148 := by
    have h1 : a / 2 ^ 21 * N ≤ (a + m) / 2 ^ 21 * N := mul_le_mul_of_nonneg_right (by norm_num; linarith) hN0
    have h2 : m / 2 ^ 21 * F ≤ (a + m) / 2 ^ 21 * F := mul_le_mul_of_nonneg_right (by norm_num; linarith) hF0
    rw [mul_add]
    linarith
  rcases e2 with ⟨-, rfl, rfl, e3⟩ | ⟨rfl, rfl⟩
  · have hcase : n.expVal = 0 ∨ (F = 0 ∧ d = 0) := by
      rcases e3 with e3 | e3
      · exact .inl e3
      · have hf : n.fracDigits = [] := by simp [Numeral.fracDigits, e3]
        rw [hf] at d1 hF hm
        have hF0' : F = 0 := by rw [← hF]; simp [natOf]
        have hm0' : m = 0 := by rw [← hm]; simp
        refine .inr ⟨hF0', ?_⟩
        rw [hF0', hm0'] at d2
        simp only [sub_zero, zero_div, zero_mul, mul_zero, add_zero] at d2
        exact abs_nonpos_iff.1 d2
    have hT : (10:ℚ) ^ n.expVal = 1 ∨ (F = 0 ∧ d = 0) := hcase.imp_left fun h => by rw [h, pow_zero]
    have hV0 : 0 ≤ n.abs := by rw [hab]; positivity
    exact atof_tail i1 d1 n.sign hK hV0 (L := a + m) (by positivity) hm0 hb (by
      rw [hab]
      clear hT2 hT hcase
      generalize (10:ℚ) ^ n.expVal = T at *
      have h1 : |d| ≤ |d| * T := by nlinarith [abs_nonneg d]
      have h2 : (|i| + |d|) * T ≤ (9 / 8 * (N + F) + 1 / 2 ^ 130) * T := mul_le_mul_of_nonneg_right (by linarith) (by linarith)
      have h3 : 0 ≤ (N + F) * T := mul_nonneg (by linarith) (by linarith)
      norm_num at h2 ⊢
      linarith) (by
      rw [hab]
      clear hT2
      generalize (10:ℚ) ^ n.expVal = T at *
      have e : i * T + d - (N + F) * T = ((i - N) + (d - F)) * T := by
        rcases hT with h | ⟨h, h'⟩
        · rw [h]; ring
        · rw [h, h']; ring
      rw [e, abs_mul, abs_of_nonneg (a := T) (by linarith)]
      have h1 : |i - N + (d - F)| * T ≤ ((a + m) / 2 ^ 21 * (N + F) + m / 2 ^ 148) * T :=
        mul_le_mul_of_nonneg_right ((abs_add_le _ _).trans hV) (by linarith)
      have h3 : 0 ≤ (N + F) * T := mul_nonneg (by linarith) (by linarith)
      refine le_trans h1 ?_
      have e1 : ((a + m) / 2 ^ 21 * (N + F) + m / 2 ^ 148) * T = (a + m) / 2 ^ 21 * ((N + F) * T) + m / 2 ^ 148 * T := by ring
      have e2 : (a + m + 1) / 2 ^ 21 * ((N + F) * T) = (a + m) / 2 ^ 21 * ((N + F) * T) + 1 / 2 ^ 21 * ((N + F) * T) := by ring
      rw [e1, e2]
      have h4 : (0:ℚ) ≤ 1 / 2 ^ 21 * ((N + F) * T) := by positivity
      have h5 : (0:ℚ) ≤ 1 / 2 ^ 150 * T := mul_nonneg (by norm_num) (by linarith)
      linarith)
  · have hs1 := abs_add_le i d
    obtain ⟨c, c1, c2⟩ := val_add i1 d1 (by
      rw [f32_u, f32_max]
      have hF1 : F ≤ 1 := by
        rw [← hF, div_le_one (by positivity)]
        exact_mod_cast (natOf_lt _).le
      norm_num at hNb ib db ⊢
      linarith)
    rw [f32_u] at c2
    have hV0 : 0 ≤ n.abs := by rw [hab]; positivity
    have c3 : |c| ≤ (1 + 1 / 2 ^ 24) * (|i| + |d|) := by
      have := abs_add_le (c - (i + d)) (i + d)
      rw [sub_add_cancel] at this
      norm_num at c2 ⊢
      linarith
    exact atof_tail c1 (val_zero f32) n.sign hK hV0 (L := a + m) (by positivity) hm0 hb (by
      rw [hab, abs_zero, add_zero]
      clear hT2
      generalize (10:ℚ) ^ n.expVal = T at *
      have h2 : |c| * T ≤ (5 / 4 * (N + F) + 1 / 2 ^ 129) * T := mul_le_mul_of_nonneg_right (by norm_num at c3 db ⊢; linarith) (by linarith)
      refine le_trans h2 (le_of_eq (by ring))) (by
      rw [hab, add_zero]
      clear hT2
      generalize (10:ℚ) ^ n.expVal = T at *
      have e : c * T - (N + F) * T = ((c - (i + d)) + ((i - N) + (d - F))) * T := by ring
      rw [e, abs_mul, abs_of_nonneg (a := T) (by linarith)]
      have h0 : |(c - (i + d)) + ((i - N) + (d - F))| ≤ 1 / 2 ^ 22 * (N + F) + 1 / 2 ^ 150 + ((a + m) / 2 ^ 21 * (N + F) + m / 2 ^ 148) := by
        refine (abs_add_le _ _).trans (add_le_add ?_ ((abs_add_le _ _).trans hV))
        refine le_trans c2 ?_
        norm_num at ib db ⊢
        linarith
      have h1 := mul_le_mul_of_nonneg_right h0 (show 0 ≤ T by linarith)
      have h3 : 0 ≤ (N + F) * T := mul_nonneg (by linarith) (by linarith)
      refine le_trans h1 ?_
      have e1 : (1 / 2 ^ 22 * (N + F) + 1 / 2 ^ 150 + ((a + m) / 2 ^ 21 * (N + F) + m / 2 ^ 148)) * T =
          (a + m) / 2 ^ 21 * ((N + F) * T) + m / 2 ^ 148 * T + 1 / 2 ^ 22 * ((N + F) * T) + 1 / 2 ^ 150 * T := by ring
      have e2 : (a + m + 1) / 2 ^ 21 * ((N + F) * T) = (a + m) / 2 ^ 21 * ((N + F) * T) + 1 / 2 ^ 21 * ((N + F) * T) := by ring
      rw [e1, e2]
      have h4 : 1 / 2 ^ 22 * ((N + F) * T) ≤ 1 / 2 ^ 21 * ((N + F) * T) := mul_le_mul_of_nonneg_right (by norm_num) h3
      linarith)

/-- non-vacuity: `" -12.5e3"` -/
example : ∃ n : Numeral, n.text = " -12.5e3".toList ∧ n.value = -12500 ∧ n.int.length + n.fracDigits.length ≤ 262144 ∧ n.expVal ≤ 38 ∧ n.abs ≤ 2 ^ 123 :=
  ⟨⟨1, some true, [1, 2], some [5], some [3]⟩, by decide, by
    norm_num [Numeral.value, Numeral.abs, Numeral.fracDigits, Numeral.expVal, natOf, signVal], by decide, by decide, by
    norm_num [Numeral.abs, Numeral.fracDigits, Numeral.expVal, natOf]⟩

theorem isDigitC_eq : isDigitC = Char.isDigit := by
  funext c
  rfl

theorem intFV_exact (l : List (Fin 10)) (h : natOf l ≤ 16777168) : f32.Val (intFV l) (natOf l) := by
  induction l using List.reverseRecOn with
  | nil =>
    have : ((natOf [] : ℕ) : ℚ) = 0 := by simp [natOf]
    rw [this]; exact val_zero f32
  | append_singleton l d ih =>
    rw [natOf_snoc] at h ⊢
    rw [intFV_snoc]
    exact atofDigit_exact (ih (by omega)) d h

/-- **C89** (integers): an integer up to 16777168 is converted exactly, with spaces, sign and any number of leading zeros -/
theorem C89_integer (k : Nat) (s : Option Bool) (l : List (Fin 10)) (h : natOf l ≤ 16777168) :
    ∃ v, hypercv_atof (List.replicate k ' ' ++ (signText s ++ digits l)) = .ok v ∧ v.Is ((signVal s * natOf l : ℤ) : ℚ) := by
  have e := atof_start k s l (r := []) (fun _ => .inl rfl)
  rw [List.append_nil] at e
  rw [e]
  refine ⟨_, rfl, ?_⟩
  have hr : ∀ z : ℤ, |z| ≤ 16777168 → f32.Rep z ∧ f64.Rep z := fun z hz => ⟨rep32_int (by omega), rep64_int (by omega)⟩
  have hN := hr (natOf l) (by rw [abs_of_nonneg (by omega)]; omega)
  have hsN := hr (signVal s * natOf l) (by
    rcases s with _ | _ | _ <;> simp only [signVal, one_mul, neg_one_mul, abs_neg] <;> rw [abs_of_nonneg (by omega)] <;> omega)
  have i1 : (intFV l).Is ((natOf l : ℤ) : ℚ) := by rw [Int.cast_natCast]; exact (intFV_exact l h).1
  have p1 : (pow10 0).Is ((1:ℤ) : ℚ) := by
    have : pow10 0 = f64.ofInt 1 := by unfold pow10 Fmt.ofInt; norm_num
    rw [this]; exact is_ofInt (rep64_int (by norm_num))
  have z1 : (f64.conv (.fin false 0)).Is 0 := is_conv' ⟨false, rfl⟩ (rep_zero f64)
  have m1 : (f64.mul (f64.conv (intFV l)) (pow10 0)).Is ((natOf l : ℤ) : ℚ) := by
    have := is_mul (F := f64) (is_conv' i1 hN.2) p1 (by rw [Int.cast_one, mul_one]; exact hN.2)
    rwa [Int.cast_one, mul_one] at this
  have a1 : (f64.add (f64.mul (f64.conv (intFV l)) (pow10 0)) (f64.conv (.fin false 0))).Is ((natOf l : ℤ) : ℚ) := by
    have := is_add (F := f64) m1 z1 (by rw [add_zero]; exact hN.2)
    rwa [add_zero] at this
  have s1 : (f64.ofInt (signVal s)).Is ((signVal s : ℤ) : ℚ) := is_ofInt (rep64_int (by rcases s with _ | _ | _ <;> simp [signVal]))
  have m2 := is_mul (F := f64) s1 a1 (by have := hsN.2; push_cast at this ⊢; exact this)
  have := is_conv' (F := f32) m2 (by have := hsN.1; push_cast at this ⊢; exact this)
  push_cast at this ⊢
  exact this

/-- non-vacuity: `"  -0016777168"` -/
example : natOf [0, 0, 1, 6, 7, 7, 7, 1, 6, 8] ≤ 16777168 ∧
    List.replicate 2 ' ' ++ (signText (some true) ++ digits [0, 0, 1, 6, 7, 7, 7, 1, 6, 8]) = "  -0016777168".toList := by decide

/-- **refutation** (exactness): `16777215` is a `float`, and is not what the text `16777215` gives -/
theorem C89_not_exact : hypercv_atof "16777215".toList = .ok (.fin false 16777216) ∧ f32.Rep 16777215 := by
  refine ⟨by decide +kernel, ?_⟩
  have := rep32_int (n := 16777215) (by norm_num)
  norm_num at this
  exact this

/-- **refutation** (sign): the sign of an integer is lost if anything but a point or an exponent follows it -- a line end, a comma, a
space -/
theorem C89_sign_lost (k : Nat) (l : List (Fin 10)) (hl : l ≠ []) (h0 : 0 < natOf l) (h : natOf l ≤ 16777168) {c : Char} (r : List Char)
    (hc : c.isDigit = false ∧ c ≠ '.' ∧ c ≠ 'e' ∧ c ≠ 'E') :
    ∃ v, hypercv_atof (List.replicate k ' ' ++ ('-' :: (digits l ++ c :: r))) = .ok v ∧ v.Is (natOf l) ∧ ¬ v.Is (-(natOf l : ℚ)) := by
  have e := atof_start k (some true) l (r := c :: r) (fun h => absurd h hl)
  have hd : isDigitC c = false := by rw [isDigitC_eq]; exact hc.1
  rw [atofInt, if_neg (by rw [hd]; simp), if_neg hc.2.1, if_neg (by simp [hc.2.2.1, hc.2.2.2])] at e
  refine ⟨intFV l, e, (intFV_exact l h).1, ?_⟩
  rintro ⟨b, hb⟩
  obtain ⟨b', hb'⟩ := (intFV_exact l h).1
  rw [hb] at hb'
  have h1 := (FV.fin.inj hb').2
  have : (0:ℚ) < natOf l := by exact_mod_cast h0
  linarith

/-- non-vacuity: `"-5, 3"` is read as 5 -/
example : hypercv_atof "-5, 3".toList = .ok (.fin false 5) := by decide +kernel

/-- what follows the `e` of a number with a point is read as its digits -/
theorem C89_exponent_chars (k : Nat) (s : Option Bool) (l f : List (Fin 10)) (hf : f.length ≤ 2147483646) (r : List Char) :
    hypercv_atof (List.replicate k ' ' ++ (signText s ++ (digits l ++ '.' :: (digits f ++ 'e' :: r)))) =
      hypercv_atof (List.replicate k ' ' ++ (signText s ++ (digits l ++ '.' :: (digits f ++ 'e' :: r.filter Char.isDigit)))) := by
  rw [← isDigitC_eq]
  have key : ∀ r : List Char, hypercv_atof (List.replicate k ' ' ++ (signText s ++ (digits l ++ '.' :: (digits f ++ 'e' :: r)))) =
      match atofRest 0 r with
      | .error x => .error x
      | .ok x => .ok (atofResult (signVal s) ⟨f32.add (intFV l) (decFV f 1 (.fin false 0)), .fin false 0, ((1 + f.length : Nat) : Int), x⟩) := by
    intro r
    rw [atof_start k s l (fun _ => .inr ⟨'.', _, rfl, by decide, by decide, by decide⟩), atofInt, if_neg (by decide), if_pos rfl]
    simp only
    unfold atofFinish
    rw [atofTail_digits f false _ 1 rfl (by omega), atofTail, if_neg (by simp [show isDigitC 'e' = false by decide]), if_pos ⟨rfl, .inl rfl⟩]
    simp only [and_self, if_true]
    cases atofRest 0 r <;> rfl
  rw [key, key, atofRest_filter]

/-- **refutation** (negative exponents): the sign of the exponent of a number with a point is ignored, so that `1.5e-3` is read as
`1.5e3` -/
theorem C89_exponent_sign (k : Nat) (s : Option Bool) (l f : List (Fin 10)) (hf : f.length ≤ 2147483646) (r : List Char) :
    hypercv_atof (List.replicate k ' ' ++ (signText s ++ (digits l ++ '.' :: (digits f ++ 'e' :: '-' :: r)))) =
      hypercv_atof (List.replicate k ' ' ++ (signText s ++ (digits l ++ '.' :: (digits f ++ 'e' :: r)))) := by
  rw [C89_exponent_chars k s l f hf, C89_exponent_chars k s l f hf r]
  rw [List.filter_cons_of_neg (by decide)]

/-- **refutation** (negative exponents): the exponent of a number without a point is ignored if it has a sign -/
theorem C89_exponent_ignored (k : Nat) (s : Option Bool) (l : List (Fin 10)) (r : List Char) {c : Char} (hc : c.isDigit = false) :
    hypercv_atof (List.replicate k ' ' ++ (signText s ++ (digits l ++ 'e' :: c :: r))) =
      hypercv_atof (List.replicate k ' ' ++ (signText s ++ digits l)) := by
  have e := atof_start k s l (r := []) (fun _ => .inl rfl)
  rw [List.append_nil] at e
  have hd : isDigitC c = false := by rw [isDigitC_eq]; exact hc
  rw [e, atof_start k s l (r := 'e' :: c :: r) (fun _ => .inr ⟨'e', _, rfl, by decide, by decide, by decide⟩)]
  have h1 : atofInt (intFV l) ('e' :: c :: r) = (intFV l, .exp (c :: r)) := by
    rw [atofInt, if_neg (by decide), if_neg (by decide), if_pos (.inl rfl)]
  rw [h1]
  show atofFinish _ _ _ _ _ = atofFinish _ _ _ _ _
  have h2 : atofTail false true { int := intFV l, dec := .fin false 0, digits := 1, exp := 0 } (c :: r) =
      .ok ({ int := intFV l, dec := .fin false 0, digits := 1, exp := 0 }, true, c :: r) := by
    rw [atofTail, if_neg (by simp), if_neg (by simp), if_neg (by simp [hd])]
  unfold atofFinish
  rw [h2]
  rfl

/-- the texts of numbers below 1 with an exponent, and a second number behind the first -/
example : hypercv_atof "1e-2".toList = .ok (.fin false 1) ∧ hypercv_atof "1.0e-2".toList = .ok (.fin false 100) ∧
    hypercv_atof "1.0e1 2".toList = .ok (.fin false 999999995904) := by decide +kernel

theorem atofExp_cases {ex : Nat} (h : ex ≤ 2147483647) (d : Fin 10) :
    (atofExp (ex:Int) (digit d) = .ok ((10 * ex + d.val : Nat) : Int) ∧ 10 * ex + d.val ≤ 2147483647) ∨ atofExp (ex:Int) (digit d) = .error (.ub .overflow) := by
  by_cases hb : 10 * ex + 57 ≤ 2147483647
  · exact .inl ⟨atofExp_ok d hb, by omega⟩
  · unfold atofExp
    rw [(digit_facts d).2.1]
    by_cases h1 : CI.InR (10 * (ex:Int))
    · rw [CI.mul_ok h1]
      by_cases h2 : CI.InR (10 * (ex:Int) + ((48 + d.val : Nat) : Int))
      · rw [CI.add_ok h2, CI.sub_ok (by obtain ⟨a, b⟩ := h2; constructor <;> push_cast at * <;> omega)]
        refine .inl ⟨?_, by obtain ⟨a, b⟩ := h2; push_cast at *; omega⟩
        show Except.ok _ = _
        congr 1
        push_cast
        ring
      · refine .inr ?_
        have e : (CI.lit (10 * (ex:Int)) + CI.lit ((48 + d.val : Nat) : Int) : CI) = CI.err (.ub .overflow) := by
          show CI.ck _ = _
          unfold CI.ck
          rw [if_neg h2]
        rw [e]; rfl
    · refine .inr ?_
      have e : (CI.lit 10 * CI.lit (ex:Int) : CI) = CI.err (.ub .overflow) := by
        show CI.ck _ = _
        unfold CI.ck
        rw [if_neg h1]
      rw [e]; rfl

theorem atofRest_over (l l0 : List (Fin 10)) (h0 : natOf l0 ≤ 2147483647) (h : 2147483647 < natOf (l0 ++ l)) :
    atofRest (natOf l0 : Nat) (digits l) = .error (.ub .overflow) := by
  induction l generalizing l0 with
  | nil => rw [List.append_nil] at h; omega
  | cons d l ih =>
    show atofRest _ (digit d :: digits l) = _
    rw [atofRest, if_pos (digit_facts d).1]
    rcases atofExp_cases h0 d with ⟨e, hb⟩ | e
    · rw [e]
      show atofRest _ (digits l) = _
      rw [← natOf_snoc]
      exact ih (l0 ++ [d]) (by rw [natOf_snoc]; exact hb) (by simpa using h)
    · rw [e]

theorem atofTail_over (l : List (Fin 10)) (s : AtofState) (l0 : List (Fin 10)) (hs : s.exp = (natOf l0 : Nat)) (h0 : natOf l0 ≤ 2147483647)
    (h : 2147483647 < natOf (l0 ++ l)) : atofTail false true s (digits l) = .error (.ub .overflow) := by
  induction l generalizing s l0 with
  | nil => rw [List.append_nil] at h; omega
  | cons d l ih =>
    show atofTail false true s (digit d :: digits l) = _
    rw [atofTail, if_neg (by simp), if_neg (by simp), if_pos ⟨rfl, (digit_facts d).1⟩, hs]
    rcases atofExp_cases h0 d with ⟨e, hb⟩ | e
    · rw [e]
      exact ih _ (l0 ++ [d]) (by rw [natOf_snoc]) (by rw [natOf_snoc]; exact hb) (by simpa using h)
    · rw [e]

/-- **refutation** (definedness): an exponent that is not an `int` is undefined behaviour -/
theorem C89_exponent_overflow (n : Numeral) (hf : n.fracDigits.length ≤ 2147483646) (h : 2147483647 < n.expVal) :
    hypercv_atof n.text = .error (.ub .overflow) := by
  obtain ⟨k, s, l, fr, ex⟩ := n
  simp only [Numeral.fracDigits, Numeral.expVal] at h hf
  unfold Numeral.text
  simp only
  rcases ex with _ | e
  · simp [natOf] at h
  simp only [Option.getD_some] at h
  rcases fr with _ | f
  · simp only [List.nil_append]
    rw [atof_start k s l (fun _ => .inr ⟨'e', _, rfl, by decide, by decide, by decide⟩), atofInt, if_neg (by decide), if_neg (by decide),
      if_pos (.inl rfl)]
    simp only
    unfold atofFinish
    rw [atofTail_over e _ [] rfl (by simp [natOf]) (by simpa using h)]
  · rw [List.cons_append, atof_start k s l (fun _ => .inr ⟨'.', _, rfl, by decide, by decide, by decide⟩), atofInt, if_neg (by decide), if_pos rfl]
    simp only
    unfold atofFinish
    simp only [Option.getD_some] at hf
    rw [atofTail_digits f false _ 1 rfl (by omega), atofTail, if_neg (by simp [show isDigitC 'e' = false by decide]), if_pos ⟨rfl, .inl rfl⟩]
    simp only [and_self, if_true]
    rw [show ((0:Int)) = ((natOf [] : Nat) : Int) from rfl, atofRest_over e [] (by simp [natOf]) (by simpa using h)]

/-- non-vacuity: `1e9999999999` -/
example : hypercv_atof "1e9999999999".toList = .error (.ub .overflow) := by decide +kernel

end HyperCV
