/- C76, C77: radiometric corrections. -/
import Verif.Proof.Radiometric
import Verif.Props.Cube

namespace HyperCV
open Spec

variable {m : Mem} {p c S L B : Nat} {dt : Int} {lay : Layout} {a : Nat → Nat → Nat → Nat} {w : Nat → UInt8} {co : Nat → Nat}

theorem newCube_flat {m : Mem} {S L B : Nat} {lay : Layout} {r : Nat → Nat} (hS : 0 < S) (hL : 0 < L) (hB : 0 < B)
    (hr : ∀ e, e < S * L * B → r e < 256 ^ 4) :
    IsCubeN (m.newCube S L B 4 (S * L * B * 4) lay.tag (encN 4 r) (fun _ => 0)) (m.next + 2) lay S L B 4 4
      (fun i j k => r (lay.pos S L B i j k)) (fun _ => 0) := by
  have e : m.newCube S L B 4 (S * L * B * 4) lay.tag (encN 4 r) (fun _ => 0)
      = m.newCube S L B 4 (S * L * B * 4) lay.tag (cubeBytes lay S L B 4 fun i j k t => leByte (r (lay.pos S L B i j k)) t) (fun _ => 0) := by
    apply newCube_congr
    · intro x hx
      obtain ⟨i, j, k, hi, hj, hk, b1, b2⟩ := byte_cover lay hx
      obtain ⟨t, rfl⟩ := Nat.exists_eq_add_of_le b1
      have ht : t < 4 := by omega
      rw [encN_at _ ht, cubeBytes_at lay hi hj hk ht]
    · intro _ _; rfl
  rw [e]
  exact ⟨newCube_isCube lay hS hL hB rfl, fun i j k hi hj hk => hr _ (pos_lt lay hi hj hk)⟩

/-! ### C76 -/

/-- **C76**: for a cube of `float` in bip order and one coefficient per band, `absolute_radiometric_correction` returns a new cube of the same
geometry and order in which every element is the correctly rounded product of the element and the coefficient of its band; nothing that
existed before changes -/
theorem C76_absolute (hm : m.WF) (hc : IsCubeN m p .bip S L B 4 4 a w) (hco : IsArray m c 4 B co) (hN : S * L * B * 4 ≤ 2147483647) :
    ∃ q m' b w', absolute_radiometric_correction (some p) c m = .ok (some q, m') ∧ IsCubeN m' q .bip S L B 4 4 b w' ∧
      (∀ i j k, i < L → j < S → k < B → f32.decode (b i j k) = f32.mul (f32.decode (a i j k)) (f32.decode (co k))) ∧
      FreshCube m m' q ∧ Frame m m' ∧ m'.WF := by
  refine ⟨_, _, _, _, absolute_run hm hc (isArray_iff.1 hco) hN, newCube_flat hc.1.posS hc.1.posL hc.1.posB
    (fun e _ => f32_encode_lt (good_mul _ _ _)), ?_, newCube_fresh m, newCube_frame m, newCube_WF hm⟩
  intro i j k hi hj hk
  have e1 : Layout.bip.pos S L B i j k % B = k := by
    show ((i * S + j) * B + k) % B = k
    exact mix_mod hk
  show f32.decode (f32.encode _) = _
  rw [f32_dec_enc (good_mul _ _ _), flatA_pos .bip a hi hj hk, e1]

/-- exact products -/
theorem C76_exact_partial (hm : m.WF) (hc : IsCubeN m p .bip S L B 4 4 a w) (hco : IsArray m c 4 B co) (hN : S * L * B * 4 ≤ 2147483647)
    (x : Nat → Nat → Nat → ℚ) (y : Nat → ℚ) (hx : ∀ i j k, i < L → j < S → k < B → FloatIs f32 (a i j k) (x i j k))
    (hy : ∀ k, k < B → FloatIs f32 (co k) (y k)) (hr : ∀ i j k, i < L → j < S → k < B → f32.Rep (x i j k * y k)) :
    ∃ q m' b w', absolute_radiometric_correction (some p) c m = .ok (some q, m') ∧ IsCubeN m' q .bip S L B 4 4 b w' ∧
      ∀ i j k, i < L → j < S → k < B → FloatIs f32 (b i j k) (x i j k * y k) := by
  obtain ⟨q, m', b, w', h1, h2, h3, _⟩ := C76_absolute hm hc hco hN
  refine ⟨q, m', b, w', h1, h2, ?_⟩
  intro i j k hi hj hk
  obtain ⟨s, e⟩ := is_mul (hx i j k hi hj hk) (hy k hk) (hr i j k hi hj hk)
  exact ⟨s, by rw [h3 i j k hi hj hk, e]⟩

/-- **C76 refuted** for the wavelengths: those of the result are all zero, whatever those of the argument are -/
theorem C76_refuted_wavelengths (hm : m.WF) (hc : IsCubeN m p lay S L B 4 4 a w) (hco : IsArray m c 4 B co) (hN : S * L * B * 4 ≤ 2147483647) :
    ∃ q m' b, absolute_radiometric_correction (some p) c m = .ok (some q, m') ∧ IsCubeN m' q lay S L B 4 4 b (fun _ => 0) :=
  ⟨_, _, _, absolute_run hm hc (isArray_iff.1 hco) hN, newCube_flat hc.1.posS hc.1.posL hc.1.posB
    (fun e _ => f32_encode_lt (good_mul _ _ _))⟩

/-- **C76 refuted** for the order: the order of the cube is not looked at, the element at position `e` of the storage is always multiplied
by the coefficient number `e % B` -/
theorem C76_refuted_order (hm : m.WF) (hc : IsCubeN m p lay S L B 4 4 a w) (hco : IsArray m c 4 B co) (hN : S * L * B * 4 ≤ 2147483647) :
    ∃ q m' b w', absolute_radiometric_correction (some p) c m = .ok (some q, m') ∧ IsCubeN m' q lay S L B 4 4 b w' ∧
      ∀ i j k, i < L → j < S → k < B →
        f32.decode (b i j k) = f32.mul (f32.decode (a i j k)) (f32.decode (co (lay.pos S L B i j k % B))) := by
  refine ⟨_, _, _, _, absolute_run hm hc (isArray_iff.1 hco) hN, newCube_flat hc.1.posS hc.1.posL hc.1.posB
    (fun e _ => f32_encode_lt (good_mul _ _ _)), ?_⟩
  intro i j k hi hj hk
  show f32.decode (f32.encode _) = _
  rw [f32_dec_enc (good_mul _ _ _), flatA_pos lay a hi hj hk]

/-- so in a bsq cube of 2 samples, 1 line and 2 bands the second sample of the first band gets the coefficient of the second band -/
example : Layout.bsq.pos 2 1 2 0 1 0 % 2 = 1 := rfl

/-! ### C77 -/

/-- **C77**, only for cubes with as many samples as bands: with a table of coefficients for every band and sample, stored band by band, every
element of the result is the product of the element and its coefficient.  Missing: all other cubes, for which the claim is false. -/
theorem C77_relative_partial (hm : m.WF) (hc : IsCubeN m p .bip S L B 12 2 a w) (hco : IsArray m c 4 (B * S) co)
    (hN : S * L * B * 4 ≤ 2147483647) (hSB : S = B) :
    ∃ q m' b w', relative_radiometric_correction (some p) c m = .ok (some q, m') ∧ IsCubeN m' q .bip S L B 4 4 b w' ∧
      (∀ i j k, i < L → j < S → k < B → f32.decode (b i j k) = f32.mul (.fin false (a i j k)) (f32.decode (co (k * S + j)))) ∧
      FreshCube m m' q ∧ Frame m m' ∧ m'.WF := by
  subst hSB
  refine ⟨_, _, _, _, relative_run hm hc (isArray_iff.1 hco) hN (le_refl _), newCube_flat hc.1.posS hc.1.posL hc.1.posB
    (fun e _ => f32_encode_lt (good_mul _ _ _)), ?_, newCube_fresh m, newCube_frame m, newCube_WF hm⟩
  intro i j k hi hj hk
  have e1 : Layout.bip.pos S L S i j k % S = k := by
    show ((i * S + j) * S + k) % S = k
    exact mix_mod hk
  have e2 : Layout.bip.pos S L S i j k / S % S = j := by
    show ((i * S + j) * S + k) / S % S = j
    rw [mix_div hk, mix_mod hj]
  have hlt := hc.2 i j k hi hj hk
  have hlt' : a i j k ≤ 16777216 := by
    have : (256:Nat) ^ 2 = 65536 := rfl
    omega
  show f32.decode (f32.encode _) = _
  rw [f32_dec_enc (good_mul _ _ _), flatA_pos .bip a hi hj hk, e1, e2]
  congr 1
  show f32.round false (((a i j k : Nat) : ℤ) : ℚ) = _
  rw [Int.cast_natCast]
  exact round_rep_nat (f32_rep_nat hlt')

/-- **C77 refuted**: with more bands than samples the function reads beyond the end of the table of coefficients, whatever the cube contains -/
theorem C77_refuted_bounds (hm : m.WF) (hc : IsCubeN m p .bip S L B 12 2 a w) (hco : IsArray m c 4 (B * S) co)
    (hN : S * L * B * 4 ≤ 2147483647) (hSB : S < B) :
    relative_radiometric_correction (some p) c m = .error (.ub .oob) :=
  relative_oob hm hc (by rw [Nat.mul_comm] at hco; exact isArray_iff.1 hco) hN hSB

/-- **C77 refuted**: with more samples than bands the element of band `k` and sample `j` is multiplied by the entry number `k * B + j` of the
table instead of `k * S + j` -/
theorem C77_refuted_entry (hm : m.WF) (hc : IsCubeN m p .bip S L B 12 2 a w) (hco : IsArray m c 4 (B * S) co)
    (hN : S * L * B * 4 ≤ 2147483647) (hSB : B < S) :
    ∃ q m' b w', relative_radiometric_correction (some p) c m = .ok (some q, m') ∧ IsCubeN m' q .bip S L B 4 4 b w' ∧
      ∀ i j k, i < L → j < S → k < B → f32.decode (b i j k) = f32.mul (.fin false (a i j k)) (f32.decode (co (k * B + j))) := by
  refine ⟨_, _, _, _, relative_run hm hc (by rw [Nat.mul_comm] at hco; exact isArray_iff.1 hco) hN (by omega),
    newCube_flat hc.1.posS hc.1.posL hc.1.posB (fun e _ => f32_encode_lt (good_mul _ _ _)), ?_⟩
  intro i j k hi hj hk
  have e1 : Layout.bip.pos S L B i j k % B = k := by
    show ((i * S + j) * B + k) % B = k
    exact mix_mod hk
  have e2 : Layout.bip.pos S L B i j k / B % S = j := by
    show ((i * S + j) * B + k) / B % S = j
    rw [mix_div hk, mix_mod hj]
  have hlt := hc.2 i j k hi hj hk
  have hlt' : a i j k ≤ 16777216 := by
    have : (256:Nat) ^ 2 = 65536 := rfl
    omega
  show f32.decode (f32.encode _) = _
  rw [f32_dec_enc (good_mul _ _ _), flatA_pos .bip a hi hj hk, e1, e2]
  congr 1
  show f32.round false (((a i j k : Nat) : ℤ) : ℚ) = _
  rw [Int.cast_natCast]
  exact round_rep_nat (f32_rep_nat hlt')

/-! ### The hypotheses can be met -/

theorem array_beside {lay : Layout} {S L B E w n : Nat} {dt : Int} {a : Nat → Nat → Nat → Nat} {co : Nat → Nat} (hS : 0 < S) (hL : 0 < L) (hB : 0 < B)
    (hE : elemBytes dt = some E) (ha : ∀ i j k, i < L → j < S → k < B → a i j k < 256 ^ E) (hco : ∀ e, e < n → co e < 256 ^ w) :
    ∃ m c, m.WF ∧ IsCubeN m 2 lay S L B dt E a (fun _ => 0) ∧ IsArray m c w n co := by
  let m1 := cubeHeap lay S L B dt E a
  have hm1 : m1.WF := cubeHeap_WF
  refine ⟨m1.grow (n * w) (encN w co), _, grow_WF hm1 _ _, ⟨?_, ha⟩, isArray_iff.2 ⟨grow_holds _ _ _, hco⟩⟩
  exact isCube_frame hm1 (cubeHeap_cube hS hL hB hE ha).1 (fun h hh => ⟨grow_blk_ne _ _ _ (by omega), rfl, rfl⟩)

/-- float cubes with coefficients, for C76: the elements are 3 and the coefficients 1/2 and 2 -/
example : ∃ m c, m.WF ∧ IsCubeN m 2 .bip 2 3 2 4 4 (fun _ _ _ => f32.encode (.fin false 3)) (fun _ => 0) ∧
    IsArray m c 4 2 (fun k => if k = 0 then f32.encode (.fin false (1/2)) else f32.encode (.fin false 2)) ∧
    f32.mul (.fin false 3) (.fin false (1/2)) = .fin false (3/2) := by
  obtain ⟨m, c, h1, h2, h3⟩ := array_beside (lay := .bip) (S := 2) (L := 3) (B := 2) (dt := 4) (E := 4) (w := 4) (n := 2)
    (a := fun _ _ _ => f32.encode (.fin false 3)) (co := fun k => if k = 0 then f32.encode (.fin false (1/2)) else f32.encode (.fin false 2))
    (by decide) (by decide) (by decide) rfl (fun _ _ _ _ _ _ => (by decide +kernel : f32.encode (.fin false 3) < 256 ^ 4)) (by
      intro e he
      split
      · exact (by decide +kernel : f32.encode (.fin false (1/2)) < 256 ^ 4)
      · exact (by decide +kernel : f32.encode (.fin false 2) < 256 ^ 4))
  exact ⟨m, c, h1, h2, h3, by decide +kernel⟩

/-- cubes of every shape with a table of coefficients, for C77 -/
example (S L B : Nat) (hS : 0 < S) (hL : 0 < L) (hB : 0 < B) : ∃ m c, m.WF ∧ IsCubeN m 2 .bip S L B 12 2 (fun i j k => (i + 2 * j + 3 * k) % 65536) (fun _ => 0) ∧
    IsArray m c 4 (B * S) (fun _ => f32.encode (.fin false (1/2))) :=
  array_beside hS hL hB rfl (fun i j k _ _ _ => (by
    have : (256:Nat) ^ 2 = 65536 := rfl
    rw [this]; exact Nat.mod_lt _ (by decide))) (fun _ _ => (by decide +kernel : f32.encode (.fin false (1/2)) < 256 ^ 4))

end HyperCV
