/- Properties of the linear stretch of cubes. -/
import Verif.Proof.LinearTension

namespace HyperCV
open Spec

variable {m m' : Mem} {p q S L B : Nat} {a : Nat → Nat → Nat → Nat} {x : Nat → Nat → Nat → ℚ} {old : Nat → Nat → Nat → Nat → UInt8}
  {w w' : Nat → UInt8}

namespace Spec

/-- a cube of `float` in bsq order with the finite values `x`, and a byte cube of the same geometry in other storage -/
structure StretchArgs (m : Mem) (p q S L B : Nat) (a : Nat → Nat → Nat → Nat) (x : Nat → Nat → Nat → ℚ) (w : Nat → UInt8)
    (old : Nat → Nat → Nat → Nat → UInt8) (w' : Nat → UInt8) : Prop where
  src : IsCubeN m p .bsq S L B 4 4 a w
  val : ∀ i j k, i < L → j < S → k < B → FloatIs f32 (a i j k) (x i j k)
  dst : IsCube m q .bsq S L B 1 1 old w'
  size : S * L * B ≤ 2147483647
  sep : Separate m p q

/-- `mn` and `mx` are the smallest and the largest value of band `k` -/
def Extremes (S L : Nat) (x : Nat → Nat → Nat → ℚ) (k : Nat) (mn mx : ℚ) : Prop :=
  (∀ i j, i < L → j < S → mn ≤ x i j k ∧ x i j k ≤ mx) ∧ (∃ i j, i < L ∧ j < S ∧ x i j k = mn) ∧ ∃ i j, i < L ∧ j < S ∧ x i j k = mx

/-- after the call the destination holds the bytes `y`, and nothing but its data has changed -/
def Stretched (m m' : Mem) (q S L B : Nat) (w' : Nat → UInt8) (y : Nat → Nat → Nat → UInt8) : Prop :=
  IsCube m' q .bsq S L B 1 1 (fun i j k _ => y i j k) w' ∧ ∃ hdr, m.hm q = some hdr ∧ OnlyBlock m m' hdr.data

end Spec

/-- the outcomes of the call -/
theorem stretch_outcome (h : StretchArgs m p q S L B a x w old w') :
    (∃ y m', hyper_mat_linear_tension (some p) (some q) m = .ok ((), m') ∧ Stretched m m' q S L B w' y ∧
      ∀ i j k, i < L → j < S → k < B → linOut S L a i j k = some (y i j k)) ∨
    hyper_mat_linear_tension (some p) (some q) m = .error (.ub .fpConv) := by
  by_cases hd : ∃ i j k, i < L ∧ j < S ∧ k < B ∧ linOut S L a i j k = none
  · obtain ⟨i, j, k, hi, hj, hk, e⟩ := hd
    exact Or.inr (linear_fail h.src h.dst h.size h.sep hi hj hk e)
  · left
    have hy : ∀ i j k, i < L → j < S → k < B → linOut S L a i j k = some ((linOut S L a i j k).getD 0) := by
      intro i j k hi hj hk
      cases e : linOut S L a i j k with
      | none => exact absurd ⟨i, j, k, hi, hj, hk, e⟩ hd
      | some v => rfl
    obtain ⟨hdr, h1, h2⟩ := linear_run h.src h.dst h.size h.sep hy
    refine ⟨_, _, h2, ⟨cube_put h.dst h1, hdr, h1, rfl, rfl, rfl, ?_⟩, hy⟩
    intro z hz
    exact put_blk_ne m _ _ hz

/-- **C78**, order: if `hyper_mat_linear_tension` returns, then in every band larger values never get smaller bytes, except
possibly the value zero compared with negative ones -/
theorem C78_monotone_partial (h : StretchArgs m p q S L B a x w old w') (hr : hyper_mat_linear_tension (some p) (some q) m = .ok ((), m')) :
    ∃ y, Stretched m m' q S L B w' y ∧ ∀ i j i' j' k, i < L → j < S → i' < L → j' < S → k < B → x i j k ≤ x i' j' k →
      (x i' j' k ≠ 0 ∨ x i j k = 0) → y i j k ≤ y i' j' k := by
  rcases stretch_outcome h with ⟨y, m'', h1, h2, h3⟩ | h1
  · rw [hr] at h1
    injection h1 with h1
    injection h1 with _ h1
    subst h1
    refine ⟨y, h2, ?_⟩
    intro i j i' j' k hi hj hi' hj' hk hx hz
    exact linOut_mono (x := fun i j => x i j k) h.src.1.posS (fun i j hi hj => h.val i j k hi hj hk) hi hj hi' hj'
      (h3 i j k hi hj hk) (h3 i' j' k hi' hj' hk) hx hz
  · rw [hr] at h1; cases h1

/-- **C78**, the fill value: a byte is zero only if the value was zero -/
theorem C78_zero (h : StretchArgs m p q S L B a x w old w') (hr : hyper_mat_linear_tension (some p) (some q) m = .ok ((), m')) :
    ∃ y, Stretched m m' q S L B w' y ∧ ∀ i j k, i < L → j < S → k < B → y i j k = 0 → x i j k = 0 := by
  rcases stretch_outcome h with ⟨y, m'', h1, h2, h3⟩ | h1
  · rw [hr] at h1
    injection h1 with h1
    injection h1 with _ h1
    subst h1
    refine ⟨y, h2, ?_⟩
    intro i j k hi hj hk hy
    exact linOut_zero (h.val i j k hi hj hk) ((h3 i j k hi hj hk).trans (by rw [hy]))
  · rw [hr] at h1; cases h1

/-- the extremes of a band of values between 0 and 1000000000 -/
theorem extremes_eq {k : Nat} (h : StretchArgs m p q S L B a x w old w') (hk : k < B) {mn mx : ℚ} (he : Extremes S L x k mn mx)
    (h0 : 0 ≤ mn) (h1 : mx ≤ 1000000000) : (bandX S L a k).1.Is mx ∧ (bandX S L a k).2.Is mn := by
  obtain ⟨mx', mn', a1, a2, ⟨b1, b2, b3⟩, ⟨c1, c2, c3⟩⟩ := bandX_spec (L := L) (a := a) (k := k) (x := fun i j => x i j k) h.src.1.posS
    (fun i j hi hj => h.val i j k hi hj hk)
  obtain ⟨e1, ⟨i, j, hi, hj, e2⟩, ⟨i', j', hi', hj', e3⟩⟩ := he
  have k1 : mx' = mx := by
    have := b2 i' j' hi' hj'
    rw [e3] at this
    rcases b3 with b3 | ⟨u, v, hu, hv, b3⟩
    · have := (e1 i j hi hj).2
      rw [e2] at this
      linarith
    · have := (e1 u v hu hv).2
      rw [← b3] at this
      linarith
  have k2 : mn' = mn := by
    have := c2 i j hi hj
    rw [e2] at this
    rcases c3 with c3 | ⟨u, v, hu, hv, c3⟩
    · have := (e1 i j hi hj).2
      rw [e2] at this
      linarith
    · have := (e1 u v hu hv).1
      rw [← c3] at this
      linarith
  rw [← k1, ← k2]
  exact ⟨a1, a2⟩

/-- **C78**, definedness: the call returns if all values lie between 0 and 8000000 and the extremes of every band differ by at least one -/
theorem C78_defined_partial (h : StretchArgs m p q S L B a x w old w')
    (hv : ∀ k, k < B → ∃ mn mx, Extremes S L x k mn mx ∧ 0 ≤ mn ∧ mx ≤ 8000000 ∧ mn + 1 ≤ mx) :
    ∃ y m', hyper_mat_linear_tension (some p) (some q) m = .ok ((), m') ∧ Stretched m m' q S L B w' y := by
  have hy : ∀ i j k, i < L → j < S → k < B → linOut S L a i j k = some ((linOut S L a i j k).getD 0) := by
    intro i j k hi hj hk
    obtain ⟨mn, mx, he, h0, h1, h2⟩ := hv k hk
    obtain ⟨g1, g2⟩ := extremes_eq h hk he h0 (by linarith)
    obtain ⟨D, μ, c, ν, _, _, _, _, _, e⟩ := lin_values g1 g2 h0 h1 h2 (h.val i j k hi hj hk) (he.1 i j hi hj).1 (he.1 i j hi hj).2
    unfold linOut
    rw [e]; rfl
  rcases stretch_outcome h with ⟨y, m'', h1, h2, h3⟩ | h1
  · exact ⟨y, m'', h1, h2⟩
  · obtain ⟨hdr, g1, g2⟩ := linear_run h.src h.dst h.size h.sep hy
    rw [g2] at h1; cases h1

/-- **C78**, the linear map: for values between 0 and 4095 (sensors of 12 bits) with extremes that differ by at least one, every byte differs
by at most 1.4 from the exact stretch of the band to 0..255 -/
theorem C78_linear_partial (h : StretchArgs m p q S L B a x w old w') {mn mx : Nat → ℚ}
    (hv : ∀ k, k < B → Extremes S L x k (mn k) (mx k) ∧ 0 ≤ mn k ∧ mx k ≤ 4095 ∧ mn k + 1 ≤ mx k) :
    ∃ y m', hyper_mat_linear_tension (some p) (some q) m = .ok ((), m') ∧ Stretched m m' q S L B w' y ∧
      ∀ i j k, i < L → j < S → k < B → |((y i j k).toNat : ℚ) - 255 * (x i j k - mn k) / (mx k - mn k)| ≤ 7 / 5 := by
  rcases stretch_outcome h with ⟨y, m'', h1, h2, h3⟩ | h1
  · refine ⟨y, m'', h1, h2, ?_⟩
    intro i j k hi hj hk
    obtain ⟨he, h4, h5, h6⟩ := hv k hk
    obtain ⟨g1, g2⟩ := extremes_eq h hk he h4 (by linarith)
    have b1 := (he.1 i j hi hj).1
    have b2 := (he.1 i j hi hj).2
    obtain ⟨D, μ, c, ν, e1, e2, e3, e4, e5, e⟩ := lin_values g1 g2 h4 (by linarith) h6 (h.val i j k hi hj hk) b1 b2
    have := h3 i j k hi hj hk
    unfold linOut at this
    rw [e] at this
    rw [← Option.some.inj this]
    refine linPick_close (lin_accuracy h4 h5 h6 b1 b2 e1 e2 e3 e4 e5) ?_ ?_
    · exact div_nonneg (by linarith) (by linarith)
    · rw [div_le_iff₀ (by linarith)]; linarith
  · obtain ⟨y, m', g1, g2⟩ := C78_defined_partial h fun k hk => ⟨mn k, mx k, (hv k hk).1, (hv k hk).2.1, by linarith [(hv k hk).2.2.1], (hv k hk).2.2.2⟩
    rw [g1] at h1; cases h1

/-- … so the largest value of a band becomes 254 or 255 and the smallest 0 or 1 -/
theorem C78_range_partial (h : StretchArgs m p q S L B a x w old w') {mn mx : Nat → ℚ}
    (hv : ∀ k, k < B → Extremes S L x k (mn k) (mx k) ∧ 0 ≤ mn k ∧ mx k ≤ 4095 ∧ mn k + 1 ≤ mx k) :
    ∃ y m', hyper_mat_linear_tension (some p) (some q) m = .ok ((), m') ∧ Stretched m m' q S L B w' y ∧
      ∀ i j k, i < L → j < S → k < B → (x i j k = mx k → 254 ≤ (y i j k).toNat) ∧ (x i j k = mn k → (y i j k).toNat ≤ 1) := by
  obtain ⟨y, m', h1, h2, h3⟩ := C78_linear_partial h hv
  refine ⟨y, m', h1, h2, ?_⟩
  intro i j k hi hj hk
  have hd := (hv k hk).2.2.2
  have := h3 i j k hi hj hk
  rw [abs_le] at this
  constructor
  · intro e
    rw [e, mul_div_assoc, div_self (by linarith)] at this
    have h4 : (253:ℚ) < ((y i j k).toNat : ℚ) := by linarith [this.1]
    have : 253 < (y i j k).toNat := by exact_mod_cast h4
    omega
  · intro e
    rw [e, sub_self, mul_zero, zero_div] at this
    have h4 : ((y i j k).toNat : ℚ) < 2 := by linarith [this.2]
    have : (y i j k).toNat < 2 := by exact_mod_cast h4
    omega

/-- **C78 refuted**: a cube with a band in which all values are equal (to any number between 0 and 1000000000) makes the call undefined: the
spread is zero and the quotient cannot be converted to an integer -/
theorem C78_refuted_constant (h : StretchArgs m p q S L B a x w old w') {k : Nat} (hk : k < B) {c : ℚ} (h0 : 0 ≤ c) (h1 : c ≤ 1000000000)
    (hc : ∀ i j, i < L → j < S → x i j k = c) : hyper_mat_linear_tension (some p) (some q) m = .error (.ub .fpConv) := by
  refine linear_fail h.src h.dst h.size h.sep h.src.1.posL h.src.1.posS hk (linOut_constant h.src.1.posL h.src.1.posS h0 h1 ?_)
  intro i j hi hj
  rw [← hc i j hi hj]
  exact h.val i j k hi hj hk

/-- a cube of one line and one band -/
theorem stretch_line (h : StretchArgs m p q S 1 1 a x w old w') {l : List Nat} (hl : l.length = S) (ha : ∀ j, j < S → a 0 j 0 = l.getD j 0)
    {y : List UInt8} (hy : ∀ j, j < S → linByte (linM ((l.map f32.decode).foldl linStep (.fin false 0, .fin false 1000000000)))
      (linN ((l.map f32.decode).foldl linStep (.fin false 0, .fin false 1000000000))) (f32.decode (l.getD j 0)) = some (y.getD j 0)) :
    ∃ m', hyper_mat_linear_tension (some p) (some q) m = .ok ((), m') ∧ Stretched m m' q S 1 1 w' (fun _ j _ => y.getD j 0) := by
  have hb : bandX S 1 a 0 = (l.map f32.decode).foldl linStep (.fin false 0, .fin false 1000000000) := by
    unfold bandX
    rw [Nat.one_mul]
    have : ∀ n, n ≤ S → scanV (bandV S a 0) n = ((l.take n).map f32.decode).foldl linStep (.fin false 0, .fin false 1000000000) := by
      intro n
      induction n with
      | zero => intro _; rfl
      | succ n ih =>
        intro hn
        have hn' : n < l.length := by omega
        rw [scanV, ih (by omega), List.take_add_one, List.getElem?_eq_getElem hn', Option.toList_some, List.map_append, List.foldl_append]
        have : bandV S a 0 n = f32.decode l[n] := by
          unfold bandV
          rw [Nat.div_eq_of_lt (by omega), Nat.mod_eq_of_lt (by omega), ha n (by omega), List.getD_eq_getElem?_getD, List.getElem?_eq_getElem hn', Option.getD_some]
        rw [this]; rfl
    rw [this S (le_refl _), List.take_of_length_le (by omega)]
  have hr : ∀ i j k, i < 1 → j < S → k < 1 → linOut S 1 a i j k = some (y.getD j 0) := by
    intro i j k hi hj hk
    obtain rfl : i = 0 := by omega
    obtain rfl : k = 0 := by omega
    unfold linOut
    rw [hb, ha j hj]
    exact hy j hj
  obtain ⟨hdr, h1, h2⟩ := linear_run h.src h.dst h.size h.sep hr
  exact ⟨_, h2, cube_put h.dst h1, hdr, h1, rfl, rfl, rfl, fun z hz => put_blk_ne m _ _ hz⟩

/-- **C78 refuted**, the range: of the two values 10000000 and 10000003 the larger one becomes 192 -/
theorem C78_refuted_max (h : StretchArgs m p q 2 1 1 a x w old w') (h0 : a 0 0 0 = 1259902592) (h1 : a 0 1 0 = 1259902595) :
    f32.decode 1259902592 = .fin false 10000000 ∧ f32.decode 1259902595 = .fin false 10000003 ∧
    ∃ m' y, hyper_mat_linear_tension (some p) (some q) m = .ok ((), m') ∧ Stretched m m' q 2 1 1 w' y ∧ y 0 1 0 = 192 := by
  refine ⟨by decide +kernel, by decide +kernel, ?_⟩
  obtain ⟨m', e1, e2⟩ := stretch_line h (l := [1259902592, 1259902595]) (y := [1, 192]) rfl (by
    intro j hj
    rcases (show j = 0 ∨ j = 1 by omega) with rfl | rfl
    · exact h0
    · exact h1) (by decide +kernel)
  exact ⟨m', _, e1, e2, rfl⟩

/-- **C78 refuted**, the order with negative values: of the values -1, 0 and 1000 the first becomes 1 and the second 0 -/
theorem C78_refuted_negative (h : StretchArgs m p q 3 1 1 a x w old w') (h0 : a 0 0 0 = 3212836864) (h1 : a 0 1 0 = 0) (h2 : a 0 2 0 = 1148846080) :
    f32.decode 3212836864 = .fin true (-1) ∧ f32.decode 0 = .fin false 0 ∧ f32.decode 1148846080 = .fin false 1000 ∧
    ∃ m' y, hyper_mat_linear_tension (some p) (some q) m = .ok ((), m') ∧ Stretched m m' q 3 1 1 w' y ∧ y 0 0 0 = 1 ∧ y 0 1 0 = 0 := by
  refine ⟨by decide +kernel, by decide +kernel, by decide +kernel, ?_⟩
  obtain ⟨m', e1, e2⟩ := stretch_line h (l := [3212836864, 0, 1148846080]) (y := [1, 0, 254]) rfl (by
    intro j hj
    rcases (show j = 0 ∨ j = 1 ∨ j = 2 by omega) with rfl | rfl | rfl
    · exact h0
    · exact h1
    · exact h2) (by decide +kernel)
  exact ⟨m', _, e1, e2, rfl, rfl⟩

/-- every float cube can stand beside a byte cube: the hypotheses are met for all geometries and contents -/
theorem stretch_exists (hS : 0 < S) (hL : 0 < L) (hB : 0 < B) (hN : S * L * B ≤ 2147483647)
    (ha : ∀ i j k, i < L → j < S → k < B → a i j k < 256 ^ 4) (hx : ∀ i j k, i < L → j < S → k < B → FloatIs f32 (a i j k) (x i j k)) :
    StretchArgs (convMem (cubeHeap .bsq S L B 4 4 a) .bsq S L B 1 1 old w') 2 5 S L B a x (fun _ => 0) old w' := by
  refine ⟨⟨isCube_frame cubeHeap_WF (cubeHeap_cube hS hL hB rfl ha).1 (convMem_frame _ _), ha⟩, hx, ?_, hN, ?_⟩
  · show IsCube _ ((cubeHeap .bsq S L B 4 4 a).next + 2) _ _ _ _ _ _ _ _
    exact newCube_isCube .bsq hS hL hB rfl
  · rintro h ⟨o1, o2⟩
    have f2 := convMem_fresh (S := S) (L := L) (B := B) (dt := 1) (E := 1) (v := old) (w := w') (cubeHeap .bsq S L B 4 4 a) .bsq h o2
    have hn : (cubeHeap .bsq S L B 4 4 a).next = 3 := rfl
    rcases o1 with rfl | ⟨hdr, e1, e2⟩
    · omega
    · have : (convMem (cubeHeap .bsq S L B 4 4 a) .bsq S L B 1 1 old w').hm 2 = some (newHdr Mem.empty S L B 4 Layout.bsq.tag) := rfl
      rw [this] at e1
      have e1 := Option.some.inj e1
      subst e1
      rcases e2 with rfl | e2
      · simp [newHdr, Mem.empty] at f2; omega
      · simp [newHdr, Mem.empty] at e2; omega

/-- a cube of 2 × 2 × 2 with the values 0, 1, 2 … 7 meets the hypotheses of `C78_linear_partial`: its bands range over 0 … 6 and 1 … 7 -/
example : ∃ m a, StretchArgs m 2 5 2 2 2 a (fun i j k => ((4 * i + 2 * j + k : Nat) : ℚ)) (fun _ => 0) (fun _ _ _ _ => 0) (fun _ => 0) ∧
    ∀ k, k < 2 → Extremes 2 2 (fun i j k => ((4 * i + 2 * j + k : Nat) : ℚ)) k k ((6 + k : Nat) : ℚ) ∧ (0:ℚ) ≤ k ∧ ((6 + k : Nat) : ℚ) ≤ 4095 ∧
      (k:ℚ) + 1 ≤ ((6 + k : Nat) : ℚ) := by
  refine ⟨_, fun i j k => f32.encode (f32.ofInt ((4 * i + 2 * j + k : Nat) : Int)), stretch_exists (by decide) (by decide) (by decide) (by decide) ?_ ?_, ?_⟩
  · intro i j k _ _ _
    exact f32_encode_lt (good_ofInt _ _)
  · intro i j k hi hj hk
    show ∃ s, _ = _
    rw [f32_dec_enc (good_ofInt _ _)]
    have := is_ofInt (n := ((4 * i + 2 * j + k : Nat) : Int)) (rep32_int (by rw [abs_le]; omega))
    exact this
  · intro k hk
    refine ⟨⟨?_, ⟨0, 0, by decide, by decide, by push_cast; ring⟩, ⟨1, 1, by decide, by decide, by push_cast; ring⟩⟩, Nat.cast_nonneg _, ?_, ?_⟩
    · intro i j hi hj
      constructor
      · beta_reduce; exact_mod_cast (by omega : k ≤ 4 * i + 2 * j + k)
      · beta_reduce; exact_mod_cast (by omega : 4 * i + 2 * j + k ≤ 6 + k)
    · exact_mod_cast (by omega : 6 + k ≤ 4095)
    · exact_mod_cast (by omega : k + 1 ≤ 6 + k)

/-- the cubes of the refutations -/
example : ∃ m, StretchArgs m 2 5 2 1 1 (fun _ j _ => if j = 0 then 1259902592 else 1259902595) (fun _ j _ => if j = 0 then 10000000 else 10000003)
    (fun _ => 0) (fun _ _ _ _ => 0) (fun _ => 0) := by
  refine ⟨_, stretch_exists (by decide) (by decide) (by decide) (by decide) ?_ ?_⟩
  · intro i j k _ _ _; split <;> decide
  · intro i j k hi hj hk
    split
    · exact ⟨false, by decide +kernel⟩
    · exact ⟨false, by decide +kernel⟩

example : ∃ m, StretchArgs m 2 5 3 1 1 (fun _ j _ => if j = 0 then 3212836864 else if j = 1 then 0 else 1148846080)
    (fun _ j _ => if j = 0 then -1 else if j = 1 then 0 else 1000) (fun _ => 0) (fun _ _ _ _ => 0) (fun _ => 0) := by
  refine ⟨_, stretch_exists (by decide) (by decide) (by decide) (by decide) ?_ ?_⟩
  · intro i j k _ _ _; split
    · decide
    · split <;> decide
  · intro i j k hi hj hk
    split
    · exact ⟨true, by decide +kernel⟩
    · split
      · exact ⟨false, by decide +kernel⟩
      · exact ⟨false, by decide +kernel⟩

example : ∃ m, StretchArgs m 2 5 3 2 1 (fun _ _ _ => 1148846080) (fun _ _ _ => 1000) (fun _ => 0) (fun _ _ _ _ => 0) (fun _ => 0) :=
  ⟨_, stretch_exists (by decide) (by decide) (by decide) (by decide) (fun _ _ _ _ _ _ => by decide)
    (fun _ _ _ _ _ _ => ⟨false, (by decide +kernel : f32.decode 1148846080 = .fin false 1000)⟩)⟩

end HyperCV
