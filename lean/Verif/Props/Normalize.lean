/- Properties of the normalisations. -/
import Verif.Proof.Normalize
import Verif.Props.Statistics

namespace HyperCV
open Spec

variable {m m' : Mem} {p q R C E : Nat} {dt : Int} {a b : Nat → Nat → Nat → Nat} {x : Nat → Nat → ℚ} {alpha beta : FV} {α β : ℚ}

namespace Spec

/-- two images of one channel and equal size, both of `unsigned char` (data type 1) or both of `float` (4); the pixels of the first have the finite
values `x`.  The two may be the same image. -/
structure NormArgs (m : Mem) (p q R C : Nat) (dt : Int) (E : Nat) (a b : Nat → Nat → Nat → Nat) (x : Nat → Nat → ℚ) : Prop where
  kind : dt = 1 ∨ dt = 4
  src : IsImageN m p R C dt 1 E a
  dst : IsImageN m q R C dt 1 E b
  val : ∀ i j, i < R → j < C → value dt (a i j 0) = some (x i j)
  size : R * C ≤ 2147483647

/-- the image `q` now has the values `y`, whole numbers between 0 and 255, and nothing but its pixels has changed -/
def Normalised (m m' : Mem) (q R C : Nat) (dt : Int) (E : Nat) (y : Nat → Nat → UInt8) : Prop :=
  (∃ b', IsImageN m' q R C dt 1 E b' ∧ ∀ i j, i < R → j < C → value dt (b' i j 0) = some ((y i j).toNat : ℚ)) ∧ OnlyPixels m m' q

/-- `mn` and `mx` are the smallest and the largest value of an image -/
def Extremes2 (R C : Nat) (x : Nat → Nat → ℚ) (mn mx : ℚ) : Prop :=
  (∀ i j, i < R → j < C → mn ≤ x i j ∧ x i j ≤ mx) ∧ (∃ i j, i < R ∧ j < C ∧ x i j = mn) ∧ ∃ i j, i < R ∧ j < C ∧ x i j = mx

end Spec

theorem norm_size (h : NormArgs m p q R C dt E a b x) : (E = 1 ∨ E = 4) ∧ (dt = 1 ∧ E = 1 ∨ dt = 4 ∧ E = 4) := by
  have := h.src.1.size
  rcases h.kind with rfl | rfl
  · have : E = 1 := (Option.some.inj this).symm
    exact ⟨Or.inl this, Or.inl ⟨rfl, this⟩⟩
  · have : E = 4 := (Option.some.inj this).symm
    exact ⟨Or.inr this, Or.inr ⟨rfl, this⟩⟩

theorem value_normVal {b : Nat} {v : ℚ} (hk : dt = 1 ∧ E = 1 ∨ dt = 4 ∧ E = 4) (hb : b < 256 ^ E) (h : value dt b = some v) : (normVal E b).Is v := by
  rcases hk with ⟨rfl, rfl⟩ | ⟨rfl, rfl⟩
  · have h : some (b:ℚ) = some v := h
    rw [← Option.some.inj h]
    exact_mod_cast is_ofInt (n := (b : Int)) (rep32_int (by rw [abs_le]; omega))
  · unfold value at h
    simp only at h
    unfold normVal
    rw [if_neg (by decide)]
    cases e : f32.decode b with
    | nan => rw [e] at h; simp at h
    | inf s => rw [e] at h; simp at h
    | fin s q => rw [e] at h; simp at h; exact ⟨s, by rw [h]⟩

theorem normBits_value {r : UInt8} (hk : dt = 1 ∧ E = 1 ∨ dt = 4 ∧ E = 4) : value dt (normBits E r) = some (r.toNat : ℚ) := by
  rcases hk with ⟨rfl, rfl⟩ | ⟨rfl, rfl⟩
  · rfl
  · obtain ⟨s, h⟩ := normBits_val (w := 4) r
    unfold normVal at h
    rw [if_neg (by decide)] at h
    unfold value
    simp only
    rw [h]

theorem holdsN_unique {h w N : Nat} {A B : Nat → Nat} (h1 : HoldsN m h w N A) (h2 : HoldsN m h w N B) : ∀ i, i < N → A i = B i := by
  intro i hi
  have e := h1.load hi
  rw [h2.load hi] at e
  injection e with e
  injection e with e _
  exact e.symm

/-- the outcome of the call: the values are given by the function `normG` -/
theorem norm_outcome (h : NormArgs m p q R C dt E a b x) (t : Int) :
    match normG E (R * C) (pxF C 1 a) alpha beta t with
    | none => hypercv_normalize (some p) (some q) alpha beta t m = .ok ((), m)
    | some g => ∃ m', hypercv_normalize (some p) (some q) alpha beta t m = .ok ((), m') ∧
        Normalised m m' q R C dt E (fun i j => saturate_cast_float2uchar (g (normVal E (a i j 0)))) := by
  obtain ⟨hw, hk⟩ := norm_size h
  obtain ⟨sd, si, s1, hs⟩ := imgN_open h.src
  obtain ⟨dd, di, d1, hd⟩ := imgN_open h.dst
  have e1 : hypercv_normalize (some p) (some q) alpha beta t m = normalizeT E (some p) (some q) alpha beta t m := by
    unfold hypercv_normalize
    have g1 : derefS (some p) m = .ok (_, m) := getS_ok s1
    have g2 : derefS (some q) m = .ok (_, m) := getS_ok d1
    rw [cassert_bind (by simp), bind_ok g1, bind_ok g2, cassert_bind (by simp)]
    rcases hk with ⟨rfl, rfl⟩ | ⟨rfl, rfl⟩ <;> rfl
  have hab : sd = dd → ∀ i, i < R * C → pxF C 1 a i = pxF C 1 b i := by
    rintro rfl i hi
    exact holdsN_unique hs hd i (by omega)
  have run := normalizeT_run (alpha := alpha) (beta := beta) (t := t) hw s1 d1 hs hd (by omega) (by omega) h.size hab
  rw [e1, run]
  cases e : normG E (R * C) (pxF C 1 a) alpha beta t with
  | none => rfl
  | some g =>
    refine ⟨_, rfl, ?_⟩
    have hp : m.putN dd E (R * C * 1) (normNew (R * C) (fun i => normBits E (saturate_cast_float2uchar (g (normVal E (pxF C 1 a i))))) (pxF C 1 b)) =
        m.putP dd E R C 1 (fun i j _ => normBits E (saturate_cast_float2uchar (g (normVal E (a i j 0))))) := by
      apply putN_congr
      intro k hk
      unfold normNew
      rw [if_pos (by omega)]
      unfold pxF
      beta_reduce
      rw [Nat.mod_one]
    rw [hp]
    have fits : FitsP E R C 1 (fun i j _ => normBits E (saturate_cast_float2uchar (g (normVal E (a i j 0))))) :=
      fun i j c _ _ _ => normBits_lt hw _
    have := imgN_put h.dst d1 fits
    exact ⟨⟨_, this.1, fun i j hi hj => normBits_value hk⟩, this.2⟩

/-- **C79**, totality: with the norms 1 (INF), 2 (L1), 4 (L2) and 32 (MINMAX) the call always returns, and whatever the limits are the result
consists of whole numbers between 0 and 255; other kinds of norm do nothing -/
theorem C79_returns (h : NormArgs m p q R C dt E a b x) (alpha beta : FV) (t : Int) :
    ((t = 1 ∨ t = 2 ∨ t = 4 ∨ t = 32) → ∃ y m', hypercv_normalize (some p) (some q) alpha beta t m = .ok ((), m') ∧ Normalised m m' q R C dt E y) ∧
    (t ≠ 1 → t ≠ 2 → t ≠ 4 → t ≠ 32 → hypercv_normalize (some p) (some q) alpha beta t m = .ok ((), m)) := by
  have := norm_outcome (alpha := alpha) (beta := beta) h t
  constructor
  · intro ht
    unfold normG at this
    rcases ht with rfl | rfl | rfl | rfl
    all_goals
      obtain ⟨m', h1, h2⟩ := this
      exact ⟨_, m', h1, h2⟩
  · intro t1 t2 t4 t32
    unfold normG at this
    rw [if_neg t2, if_neg t4, if_neg t1, if_neg t32] at this
    exact this

theorem norm_case {g : FV → FV} (h : NormArgs m p q R C dt E a b x) {t : Int} (hg : normG E (R * C) (pxF C 1 a) alpha beta t = some g) :
    ∃ m', hypercv_normalize (some p) (some q) alpha beta t m = .ok ((), m') ∧
        Normalised m m' q R C dt E (fun i j => saturate_cast_float2uchar (g (normVal E (a i j 0)))) := by
  have := norm_outcome (alpha := alpha) (beta := beta) h t
  rw [hg] at this
  exact this

/-- the values in storage order -/
theorem norm_vals (h : NormArgs m p q R C dt E a b x) : ∀ e, e < R * C → (normVal E (pxF C 1 a e)).Is (x (e / C) (e % C)) := by
  intro e he
  obtain ⟨h1, h2, h3⟩ := flat_split he
  unfold pxF
  rw [Nat.mod_one, Nat.div_one]
  exact value_normVal (norm_size h).2 (h.src.2 _ _ _ h1 h2 (by decide)) (h.val _ _ h1 h2)

theorem norm_px (h : NormArgs m p q R C dt E a b x) {i j : Nat} (hi : i < R) (hj : j < C) : (normVal E (a i j 0)).Is (x i j) :=
  value_normVal (norm_size h).2 (h.src.2 _ _ _ hi hj (by decide)) (h.val _ _ hi hj)

theorem norm_ext {mn mx : ℚ} (h : NormArgs m p q R C dt E a b x) (he : Extremes2 R C x mn mx) (l0 : -1000000 ≤ mn) (l1 : mx ≤ 1000000) :
    (scanS (fun s k => mmStep s (normVal E (pxF C 1 a k))) (.fin true (-1000000), .fin false 1000000) (R * C)).1.Is mx ∧
    (scanS (fun s k => mmStep s (normVal E (pxF C 1 a k))) (.fin true (-1000000), .fin false 1000000) (R * C)).2.Is mn := by
  obtain ⟨mx', mn', a1, a2, ⟨b1, b2, b3⟩, ⟨c1, c2, c3⟩⟩ := mm_spec (R * C) (norm_vals h)
  obtain ⟨e1, ⟨i, j, hi, hj, e2⟩, ⟨i', j', hi', hj', e3⟩⟩ := he
  have mnmx : mn ≤ mx := by have := (e1 i j hi hj).2; rw [e2] at this; exact this
  have at1 := b2 (i' * C + j') (mix_lt hi' hj')
  have at2 := c2 (i * C + j) (mix_lt hi hj)
  rw [mix_div hj', mix_mod hj', e3] at at1
  rw [mix_div hj, mix_mod hj, e2] at at2
  have k1 : mx' = mx := by
    rcases b3 with b3 | ⟨e, he, b3⟩
    · linarith
    · obtain ⟨h1, h2, h3⟩ := flat_split he
      have := (e1 _ _ h1 h2).2
      rw [← b3] at this
      linarith
  have k2 : mn' = mn := by
    rcases c3 with c3 | ⟨e, he, c3⟩
    · linarith
    · obtain ⟨h1, h2, h3⟩ := flat_split he
      have := (e1 _ _ h1 h2).1
      rw [← c3] at this
      linarith
  rw [← k1, ← k2]
  exact ⟨a1, a2⟩

/-- **C79**: normalisation by the extremes maps the values linearly onto the range between the limits, rounded to whole numbers, and keeps their order.
The limits lie between 0 and 255, the values between -1000000 and 1000000. -/
theorem C79_minmax_partial {mn mx : ℚ} (h : NormArgs m p q R C dt E a b x) (hα : alpha.Is α) (hβ : beta.Is β) (a0 : 0 ≤ α) (a1 : α ≤ 255) (b0 : 0 ≤ β)
    (b1 : β ≤ 255) (he : Extremes2 R C x mn mx) (l0 : -1000000 ≤ mn) (l1 : mx ≤ 1000000) (hd : 1 / 2 ^ 60 ≤ mx - mn) :
    ∃ y m', hypercv_normalize (some p) (some q) alpha beta 32 m = .ok ((), m') ∧ Normalised m m' q R C dt E y ∧
      (∀ i j, i < R → j < C → |((y i j).toNat : ℚ) - (min α β + (x i j - mn) * (max α β - min α β) / (mx - mn))| ≤ 1 / 2 + 1 / 1000) ∧
      ∀ i j i' j', i < R → j < C → i' < R → j' < C → x i j ≤ x i' j' → y i j ≤ y i' j' := by
  obtain ⟨m', h1, h2⟩ := norm_case (alpha := alpha) (beta := beta) (t := 32) h rfl
  obtain ⟨g1, g2⟩ := norm_ext h he l0 l1
  refine ⟨_, m', h1, h2, ?_, ?_⟩
  · intro i j hi hj
    have hx := he.1 i j hi hj
    obtain ⟨s1, s2⟩ := stretch_is hα hβ (norm_px h hi hj) g1 g2 a0 a1 b0 b1 hx.1 hx.2 l0 l1 hd
    have lo0 : 0 ≤ min α β := le_min a0 b0
    have hi1 : max α β ≤ 255 := max_le a1 b1
    have lohi : min α β ≤ max α β := le_trans (min_le_left _ _) (le_max_left _ _)
    have dpos : 0 < mx - mn := lt_of_lt_of_le (by norm_num) hd
    have t0 : 0 ≤ (x i j - mn) * (max α β - min α β) / (mx - mn) := div_nonneg (mul_nonneg (by linarith) (by linarith)) dpos.le
    have t1 : (x i j - mn) * (max α β - min α β) / (mx - mn) ≤ max α β - min α β := by
      rw [div_le_iff₀ dpos, mul_comm]
      exact mul_le_mul_of_nonneg_left (by linarith) (by linarith)
    exact sat_close s1 s2 (by linarith) (by linarith)
  · intro i j i' j' hi hj hi' hj' hx
    have hx1 := he.1 i j hi hj
    have hx2 := he.1 i' j' hi' hj'
    obtain ⟨s1, _⟩ := stretch_is hα hβ (norm_px h hi hj) g1 g2 a0 a1 b0 b1 hx1.1 hx1.2 l0 l1 hd
    obtain ⟨s2, _⟩ := stretch_is hα hβ (norm_px h hi' hj') g1 g2 a0 a1 b0 b1 hx2.1 hx2.2 l0 l1 hd
    exact sat_mono s1 s2 (stretchR_mono (le_trans (min_le_left _ _) (le_max_left _ _)) (by linarith [hx1.1, hx1.2]) hx)

/-- … in a byte image with at least two values, normalised to the whole numbers `lo` and `hi`, the smallest value becomes `lo` and the largest `hi` -/
theorem C79_ends {lo hi : Nat} {mn mx : ℚ} (h : NormArgs m p q R C 1 1 a b x) (hα : alpha.Is lo) (hβ : beta.Is hi) (hl : lo ≤ hi) (hh : hi ≤ 255)
    (he : Extremes2 R C x mn mx) (hne : mn < mx) :
    ∃ y m', hypercv_normalize (some p) (some q) alpha beta 32 m = .ok ((), m') ∧ Normalised m m' q R C 1 1 y ∧
      ∀ i j, i < R → j < C → lo ≤ (y i j).toNat ∧ (y i j).toNat ≤ hi ∧ (x i j = mn → (y i j).toNat = lo) ∧ (x i j = mx → (y i j).toNat = hi) := by
  have byte : ∀ i j, i < R → j < C → ∃ n : Nat, n < 256 ∧ x i j = n := by
    intro i j hi hj
    have := h.src.2 i j 0 hi hj (by decide)
    have hv : some ((a i j 0 : ℕ) : ℚ) = some (x i j) := h.val i j hi hj
    exact ⟨_, this, (Option.some.inj hv).symm⟩
  obtain ⟨e1, ⟨i0, j0, hi0, hj0, e2⟩, ⟨i1, j1, hi1, hj1, e3⟩⟩ := he
  obtain ⟨u, hu, eu⟩ := byte i0 j0 hi0 hj0
  obtain ⟨v, hv, ev⟩ := byte i1 j1 hi1 hj1
  have hmn : mn = u := by rw [← e2, eu]
  have hmx : mx = v := by rw [← e3, ev]
  have huv : u + 1 ≤ v := by
    have : (u:ℚ) < v := by rw [← hmn, ← hmx]; exact hne
    have : u < v := by exact_mod_cast this
    omega
  have huv' : (u:ℚ) + 1 ≤ v := by exact_mod_cast huv
  have hv' : (v:ℚ) ≤ 255 := by exact_mod_cast (by omega : v ≤ 255)
  have hu0 : (0:ℚ) ≤ u := Nat.cast_nonneg u
  have lh : (lo:ℚ) ≤ hi := by exact_mod_cast hl
  have h255 : (hi:ℚ) ≤ 255 := by exact_mod_cast hh
  obtain ⟨y, m', h1, h2, h3, _⟩ := C79_minmax_partial h hα hβ (Nat.cast_nonneg _) (by linarith) (Nat.cast_nonneg _) h255
    ⟨e1, ⟨i0, j0, hi0, hj0, e2⟩, ⟨i1, j1, hi1, hj1, e3⟩⟩ (by rw [hmn]; linarith) (by rw [hmx]; linarith) (by
      rw [hmn, hmx]
      refine le_trans (by norm_num) (by linarith : (1:ℚ) ≤ v - u))
  rw [min_eq_left lh, max_eq_right lh] at h3
  refine ⟨y, m', h1, h2, ?_⟩
  intro i j hi' hj'
  have hb := h3 i j hi' hj'
  have hx := e1 i j hi' hj'
  have dpos : (0:ℚ) < mx - mn := by linarith
  have t0 : 0 ≤ (x i j - mn) * ((hi:ℚ) - lo) / (mx - mn) := div_nonneg (mul_nonneg (by linarith) (by linarith)) dpos.le
  have t1 : (x i j - mn) * ((hi:ℚ) - lo) / (mx - mn) ≤ hi - lo := by
    rw [div_le_iff₀ dpos, mul_comm]
    exact mul_le_mul_of_nonneg_left (by linarith) (by linarith)
  rw [abs_le] at hb
  refine ⟨?_, ?_, ?_, ?_⟩
  · have : (lo:ℚ) < (y i j).toNat + 1 := by linarith [hb.1]
    have : lo < (y i j).toNat + 1 := by exact_mod_cast this
    omega
  · have : ((y i j).toNat : ℚ) < hi + 1 := by linarith [hb.2]
    have : (y i j).toNat < hi + 1 := by exact_mod_cast this
    omega
  · intro e
    rw [e, sub_self, zero_mul, zero_div, add_zero] at hb
    have k1 : (lo:ℚ) < (y i j).toNat + 1 := by linarith [hb.1]
    have k2 : ((y i j).toNat : ℚ) < lo + 1 := by linarith [hb.2]
    have k1 : lo < (y i j).toNat + 1 := by exact_mod_cast k1
    have k2 : (y i j).toNat < lo + 1 := by exact_mod_cast k2
    omega
  · intro e
    have : (mx - mn) * ((hi:ℚ) - lo) / (mx - mn) = hi - lo := by field_simp
    rw [e, this] at hb
    have k1 : (hi:ℚ) < (y i j).toNat + 1 := by linarith [hb.1]
    have k2 : ((y i j).toNat : ℚ) < hi + 1 := by linarith [hb.2]
    have k1 : hi < (y i j).toNat + 1 := by exact_mod_cast k1
    have k2 : (y i j).toNat < hi + 1 := by exact_mod_cast k2
    omega

/-- zero times anything divided by zero is not a number -/
theorem zero_quot (z z' : Bool) (D : FV) : f32.div (f32.mul (.fin z 0) D) (.fin z' 0) = .nan := by
  cases D with
  | nan => rfl
  | inf s => unfold Fmt.mul; simp only [if_pos]; rfl
  | fin s q =>
    unfold Fmt.mul
    simp only [zero_mul]
    rw [round_zero]
    unfold Fmt.div
    simp

/-- **C79 refuted**, constant images: if all values are equal (to any number between -1000000 and 1000000) the result is zero everywhere,
whatever the limits are -/
theorem C79_refuted_constant {c : ℚ} (h : NormArgs m p q R C dt E a b x) (l0 : -1000000 ≤ c) (l1 : c ≤ 1000000)
    (hc : ∀ i j, i < R → j < C → x i j = c) (alpha beta : FV) :
    ∃ y m', hypercv_normalize (some p) (some q) alpha beta 32 m = .ok ((), m') ∧ Normalised m m' q R C dt E y ∧
      ∀ i j, i < R → j < C → y i j = 0 := by
  obtain ⟨m', h1, h2⟩ := norm_case (alpha := alpha) (beta := beta) (t := 32) h rfl
  have he : Extremes2 R C x c c := ⟨fun i j hi hj => by rw [hc i j hi hj]; exact ⟨le_refl _, le_refl _⟩,
    ⟨0, 0, h.src.1.posR, h.src.1.posC, hc 0 0 h.src.1.posR h.src.1.posC⟩, ⟨0, 0, h.src.1.posR, h.src.1.posC, hc 0 0 h.src.1.posR h.src.1.posC⟩⟩
  obtain ⟨⟨s1, g1⟩, ⟨s2, g2⟩⟩ := norm_ext h he l0 l1
  refine ⟨_, m', h1, h2, ?_⟩
  intro i j hi hj
  obtain ⟨s3, g3⟩ := norm_px h hi hj
  rw [hc i j hi hj] at g3
  have z1 : ∀ s s' : Bool, ∃ z, f32.sub (.fin s c) (.fin s' c) = .fin z 0 := by
    intro s s'
    unfold Fmt.sub FV.neg Fmt.add
    simp only [add_neg_cancel]
    exact ⟨_, round_zero⟩
  show saturate_cast_float2uchar (normStretch alpha beta _ _) = 0
  unfold normStretch
  dsimp only
  rw [g1, g2, g3]
  obtain ⟨z2, e2⟩ := z1 s3 s2
  obtain ⟨z3, e3⟩ := z1 s1 s2
  rw [e2, e3, zero_quot]
  exact sat_nan

/-- **C79 refuted**, large values: in a float image with values from 2000000 to 3000000 the smallest one does not become the lower limit 0 but 100,
because the search for the minimum starts at 1000000 -/
theorem C79_refuted_large (h : NormArgs m p q R C 4 4 a b x) (he : Extremes2 R C x 2000000 3000000) :
    ∃ y m', hypercv_normalize (some p) (some q) (.fin false 0) (.fin false 200) 32 m = .ok ((), m') ∧ Normalised m m' q R C 4 4 y ∧
      ∀ i j, i < R → j < C → x i j = 2000000 → (y i j).toNat = 100 := by
  obtain ⟨m', h1, h2⟩ := norm_case (alpha := .fin false 0) (beta := .fin false 200) (t := 32) h rfl
  refine ⟨_, m', h1, h2, ?_⟩
  obtain ⟨mx', mn', a1, a2, ⟨b1, b2, b3⟩, ⟨c1, c2, c3⟩⟩ := mm_spec (R * C) (norm_vals h)
  obtain ⟨e1, ⟨i0, j0, hi0, hj0, e2⟩, ⟨i', j', hi', hj', e3⟩⟩ := he
  have at1 := b2 (i' * C + j') (mix_lt hi' hj')
  rw [mix_div hj', mix_mod hj', e3] at at1
  have k1 : mx' = 3000000 := by
    rcases b3 with b3 | ⟨e, he, b3⟩
    · linarith
    · obtain ⟨h1, h2, h3⟩ := flat_split he
      have := (e1 _ _ h1 h2).2
      rw [← b3] at this
      linarith
  have k2 : mn' = 1000000 := by
    rcases c3 with c3 | ⟨e, he, c3⟩
    · exact c3
    · obtain ⟨h1, h2, h3⟩ := flat_split he
      have := (e1 _ _ h1 h2).1
      rw [← c3] at this
      linarith
  rw [k1] at a1
  rw [k2] at a2
  intro i j hi hj hx
  have hv := norm_px h hi hj
  rw [hx] at hv
  show (saturate_cast_float2uchar (normStretch _ _ _ _)).toNat = 100
  have e0 : FV.lt (.fin false 200) (.fin false 0) = false := by decide
  unfold normStretch
  dsimp only
  rw [e0]
  have i1 := is_sub (F := f32) hv a2 (by
    have := rep32_int (n := 1000000) (by decide); norm_num at this ⊢; exact this)
  have i2 := is_sub (F := f32) a1 a2 (by
    have := rep32_int (n := 2000000) (by decide); norm_num at this ⊢; exact this)
  have i3 : f32.sub (.fin false 200) (.fin false 0) = .fin false 200 := by decide +kernel
  simp only [Bool.false_eq_true, if_false]
  rw [i3]
  have i4 := is_mul (F := f32) i1 (⟨false, rfl⟩ : (FV.fin false 200).Is 200) (by
    refine ⟨12500000, 4, by norm_num, by decide, by decide, by norm_num [f32]⟩)
  have i5 := is_div (F := f32) i4 i2 (by norm_num) (by
    have := rep32_int (n := 100) (by decide); norm_num at this ⊢; exact this)
  have i6 := is_add (F := f32) i5 (⟨false, rfl⟩ : (FV.fin false 0).Is 0) (by
    have := rep32_int (n := 100) (by decide); norm_num at this ⊢; exact this)
  have := saturate_fin i6
  have hr : rne ((2000000 - 1000000) * 200 / (3000000 - 1000000) + 0 : ℚ) = 100 := by
    have := rne_int 100
    norm_num at this ⊢
    exact this
  rw [hr] at this
  have h3 : clamp 0 255 100 = 100 := by decide
  rw [h3] at this
  exact_mod_cast this

/-- **C79 refuted**, several channels: of a destination with two or more channels only the first `rows*cols` elements in storage order are written; in
particular the last element keeps its old value, whatever the source and the limits are -/
theorem C79_refuted_channels {ch : Nat} (hk : dt = 1 ∨ dt = 4) (hs : IsImageN m p R C dt ch E a) (hd : IsImageN m q R C dt ch E b) (hc : 2 ≤ ch)
    (hN : R * C ≤ 2147483647) (alpha beta : FV) (t : Int) :
    ∃ m' b', hypercv_normalize (some p) (some q) alpha beta t m = .ok ((), m') ∧ IsImageN m' q R C dt ch E b' ∧
      b' (R - 1) (C - 1) (ch - 1) = b (R - 1) (C - 1) (ch - 1) := by
  have hw : (E = 1 ∨ E = 4) ∧ (dt = 1 ∧ E = 1 ∨ dt = 4 ∧ E = 4) := by
    have := hs.1.size
    rcases hk with rfl | rfl
    · have : E = 1 := (Option.some.inj this).symm
      exact ⟨Or.inl this, Or.inl ⟨rfl, this⟩⟩
    · have : E = 4 := (Option.some.inj this).symm
      exact ⟨Or.inr this, Or.inr ⟨rfl, this⟩⟩
  obtain ⟨hw, hk⟩ := hw
  obtain ⟨sd, si, s1, hs'⟩ := imgN_open hs
  obtain ⟨dd, di, d1, hd'⟩ := imgN_open hd
  have e1 : hypercv_normalize (some p) (some q) alpha beta t m = normalizeT E (some p) (some q) alpha beta t m := by
    unfold hypercv_normalize
    have g1 : derefS (some p) m = .ok (_, m) := getS_ok s1
    have g2 : derefS (some q) m = .ok (_, m) := getS_ok d1
    rw [cassert_bind (by simp), bind_ok g1, bind_ok g2, cassert_bind (by simp)]
    rcases hk with ⟨rfl, rfl⟩ | ⟨rfl, rfl⟩ <;> rfl
  have le : R * C ≤ R * C * ch := Nat.le_mul_of_pos_right _ (by omega)
  have hab : sd = dd → ∀ i, i < R * C → pxF C ch a i = pxF C ch b i := by
    rintro rfl i hi
    exact holdsN_unique hs' hd' i (by omega)
  rw [e1, normalizeT_run hw s1 d1 hs' hd' le le hN hab]
  cases e : normG E (R * C) (pxF C ch a) alpha beta t with
  | none => exact ⟨_, _, rfl, hd, rfl⟩
  | some g =>
    set new := normNew (R * C) (fun i => normBits E (saturate_cast_float2uchar (g (normVal E (pxF C ch a i))))) (pxF C ch b) with hnew
    have hp : m.putN dd E (R * C * ch) new = m.putP dd E R C ch (fun i j c => new ((i * C + j) * ch + c)) := by
      apply putN_congr
      intro k hk
      obtain ⟨i, j, c, hi, hj, hc, rfl⟩ := img8_cover hk
      rw [pxF_at _ hj hc]
    have fits : FitsP E R C ch (fun i j c => new ((i * C + j) * ch + c)) := by
      intro i j c hi hj hc
      rw [hnew]
      unfold normNew
      dsimp only
      split
      · exact normBits_lt hw _
      · exact hd'.2 _ (img8_lt hi hj hc)
    refine ⟨m.putN dd E (R * C * ch) new, fun i j c => new ((i * C + j) * ch + c), rfl, ?_, ?_⟩
    · rw [hp]
      exact (imgN_put hd d1 fits).1
    · have hR := hs.1.posR
      have hC := hs.1.posC
      have hl : R * C ≤ ((R - 1) * C + (C - 1)) * ch + (ch - 1) := by
        have h1 : (R - 1) * C + (C - 1) = R * C - 1 := by
          obtain ⟨r, rfl⟩ : ∃ r, R = r + 1 := ⟨R - 1, by omega⟩
          rw [Nat.succ_mul]
          simp
          omega
        rw [h1]
        have : 1 ≤ R * C := Nat.mul_pos hR hC
        have h2 : (R * C - 1) * 2 ≤ (R * C - 1) * ch := Nat.mul_le_mul_left _ hc
        omega
      rw [hnew]
      unfold normNew
      dsimp only
      rw [if_neg (by omega), pxF_at _ (by omega) (by omega)]

/-! ### C80 -/

/-- **C80**, the largest value: with the INF norm every value of a non-negative image is multiplied by `alpha` and divided by the largest value, rounded to a
whole number -/
theorem C80_inf_partial {mx : ℚ} (h : NormArgs m p q R C dt E a b x) (hα : alpha.Is α) (a0 : 0 ≤ α) (a1 : α ≤ 255) (beta : FV)
    (hx0 : ∀ i j, i < R → j < C → 0 ≤ x i j ∧ x i j ≤ mx) (hx1 : ∃ i j, i < R ∧ j < C ∧ x i j = mx) (s0 : 1 / 2 ^ 60 ≤ mx) (s1 : mx ≤ 2 ^ 100) :
    ∃ y m', hypercv_normalize (some p) (some q) alpha beta 1 m = .ok ((), m') ∧ Normalised m m' q R C dt E y ∧
      ∀ i j, i < R → j < C → |((y i j).toNat : ℚ) - x i j * α / mx| ≤ 1 / 2 + 1 / 1000 := by
  obtain ⟨m', h1, h2⟩ := norm_case (alpha := alpha) (beta := beta) (t := 1) h rfl
  refine ⟨_, m', h1, h2, ?_⟩
  obtain ⟨mx', c1, c2, c3, c4⟩ := inf_spec (R * C) (norm_vals h)
  have e : mx' = mx := by
    obtain ⟨i, j, hi, hj, hx1⟩ := hx1
    have := c3 (i * C + j) (mix_lt hi hj)
    rw [mix_div hj, mix_mod hj, hx1] at this
    rcases c4 with c4 | ⟨e, he, c4⟩
    · have : (0:ℚ) < 1 / 2 ^ 60 := by norm_num
      linarith
    · obtain ⟨h1, h2, h3⟩ := flat_split he
      have := (hx0 _ _ h1 h2).2
      rw [← c4] at this
      linarith
  rw [e] at c1
  intro i j hi hj
  obtain ⟨u0, u1⟩ := hx0 i j hi hj
  obtain ⟨g1, g2⟩ := normDiv_is hα (norm_px h hi hj) c1 a0 a1 u0 u1 s0 s1
  have mpos : 0 < mx := lt_of_lt_of_le (by norm_num) s0
  refine sat_close g1 g2 (div_nonneg (mul_nonneg u0 a0) mpos.le) ?_
  rw [div_le_iff₀ mpos, mul_comm]
  exact mul_le_mul a1 u1 u0 (by norm_num)

/-- the sum of the pixels -/
def pixelSum (R C : Nat) (n : Nat → Nat → Nat) : Nat := ∑ i ∈ Finset.range R, ∑ j ∈ Finset.range C, n i j

theorem le_pixelSum {n : Nat → Nat → Nat} {i j : Nat} (hi : i < R) (hj : j < C) : n i j ≤ pixelSum R C n := by
  refine le_trans ?_ (Finset.single_le_sum (f := fun i => ∑ j ∈ Finset.range C, n i j) (fun _ _ => Nat.zero_le _) (Finset.mem_range.2 hi))
  exact Finset.single_le_sum (f := fun j => n i j) (fun _ _ => Nat.zero_le _) (Finset.mem_range.2 hj)

theorem flat_pixelSum {n : Nat → Nat → Nat} : ∑ e ∈ Finset.range (R * C), n (e / C) (e % C) = pixelSum R C n := by
  rw [sum_flat]
  refine Finset.sum_congr rfl fun i _ => Finset.sum_congr rfl fun j hj => ?_
  rw [mix_div (Finset.mem_range.1 hj), mix_mod (Finset.mem_range.1 hj)]

/-- **C80**, the sum: with the L1 norm every value is multiplied by `alpha` and divided by the sum of all values, rounded to a whole number; the values are
whole numbers and their sum is at most 2^24 (always so for byte images of up to 65793 pixels) -/
theorem C80_l1_partial {n : Nat → Nat → Nat} (h : NormArgs m p q R C dt E a b (fun i j => (n i j : ℚ))) (hα : alpha.Is α) (a0 : 0 ≤ α) (a1 : α ≤ 255)
    (beta : FV) (s0 : 0 < pixelSum R C n) (s1 : pixelSum R C n ≤ 16777216) :
    ∃ y m', hypercv_normalize (some p) (some q) alpha beta 2 m = .ok ((), m') ∧ Normalised m m' q R C dt E y ∧
      ∀ i j, i < R → j < C → |((y i j).toNat : ℚ) - n i j * α / pixelSum R C n| ≤ 1 / 2 + 1 / 1000 := by
  obtain ⟨m', h1, h2⟩ := norm_case (alpha := alpha) (beta := beta) (t := 2) h rfl
  refine ⟨_, m', h1, h2, ?_⟩
  have hs := sum_spec (v := fun k => normAbs (normVal E (pxF C 1 a k))) (y := fun e => n (e / C) (e % C)) (R * C)
    (fun e he => abs_is (norm_vals h e he) (Nat.cast_nonneg _)) (by rw [flat_pixelSum]; exact s1)
  rw [flat_pixelSum] at hs
  have t0 : (1:ℚ) ≤ (pixelSum R C n : ℕ) := by exact_mod_cast s0
  have t1 : ((pixelSum R C n : ℕ) : ℚ) ≤ 16777216 := by exact_mod_cast s1
  intro i j hi hj
  have hle : ((n i j : ℕ) : ℚ) ≤ (pixelSum R C n : ℕ) := by exact_mod_cast le_pixelSum hi hj
  have u0 : (0:ℚ) ≤ (n i j : ℕ) := Nat.cast_nonneg _
  obtain ⟨g1, g2⟩ := normDiv_is hα (norm_px h hi hj) hs a0 a1 u0 hle (le_trans (by norm_num) t0) (le_trans t1 (by norm_num))
  have mpos : (0:ℚ) < (pixelSum R C n : ℕ) := by linarith
  refine sat_close g1 g2 (div_nonneg (mul_nonneg u0 a0) mpos.le) ?_
  rw [div_le_iff₀ mpos, mul_comm]
  exact mul_le_mul a1 hle u0 (by norm_num)

/-- **C80**, the Euclidean norm: with the L2 norm every value is multiplied by `alpha` and divided by the square root of the sum of the squares, rounded to a
whole number; the values are whole numbers and the sum of their squares is at most 2^24 -/
theorem C80_l2_partial {n : Nat → Nat → Nat} (h : NormArgs m p q R C dt E a b (fun i j => (n i j : ℚ))) (hα : alpha.Is α) (a0 : 0 ≤ α) (a1 : α ≤ 255)
    (beta : FV) (s0 : 0 < pixelSum R C fun i j => n i j * n i j) (s1 : (pixelSum R C fun i j => n i j * n i j) ≤ 16777216) :
    ∃ y m', hypercv_normalize (some p) (some q) alpha beta 4 m = .ok ((), m') ∧ Normalised m m' q R C dt E y ∧
      ∀ i j, i < R → j < C → |((y i j).toNat : ℝ) - n i j * α / Real.sqrt (pixelSum R C fun i j => n i j * n i j)| ≤ 1 / 2 + 1 / 1000 := by
  obtain ⟨m', h1, h2⟩ := norm_case (alpha := alpha) (beta := beta) (t := 4) h rfl
  refine ⟨_, m', h1, h2, ?_⟩
  have sqle : ∀ i j, i < R → j < C → n i j * n i j ≤ pixelSum R C fun i j => n i j * n i j :=
    fun i j hi hj => le_pixelSum (n := fun i j => n i j * n i j) hi hj
  have hs := sum_spec (v := fun k => normSq E (pxF C 1 a k)) (y := fun e => n (e / C) (e % C) * n (e / C) (e % C)) (R * C)
    (fun e he => by
      obtain ⟨k1, k2, k3⟩ := flat_split he
      exact sq_is (FitsP.pxF h.src.2 e (by omega)) (norm_vals h e he) (le_trans (sqle _ _ k1 k2) s1))
    (by rw [flat_pixelSum (n := fun i j => n i j * n i j)]; exact s1)
  rw [flat_pixelSum (n := fun i j => n i j * n i j)] at hs
  intro i j hi hj
  have hle := sqle i j hi hj
  generalize (pixelSum R C fun i j => n i j * n i j) = S at *
  have t0 : (1:ℚ) ≤ (S : ℕ) := by exact_mod_cast s0
  have t1 : ((S : ℕ) : ℚ) ≤ 16777216 := by exact_mod_cast s1
  have u0 : (0:ℚ) ≤ (n i j : ℕ) := Nat.cast_nonneg _
  obtain ⟨r, g1, g2⟩ := normDivSqrt_is hα (norm_px h hi hj) hs a0 a1 u0 (by exact_mod_cast hle) t0 (le_trans t1 (by norm_num)) (by
    have := grep_int (n := (S : Int)) (by rw [abs_le]; omega)
    exact_mod_cast this)
  push_cast at g2
  have hS : (1:ℝ) ≤ (S : ℕ) := by exact_mod_cast s0
  have hq : (1:ℝ) ≤ Real.sqrt (S : ℕ) := by rw [Real.one_le_sqrt]; exact hS
  have hα0 : (0:ℝ) ≤ α := by exact_mod_cast a0
  have hα1 : (α:ℝ) ≤ 255 := by exact_mod_cast a1
  have hn0 : (0:ℝ) ≤ (n i j : ℕ) := Nat.cast_nonneg _
  have hnq : ((n i j : ℕ) : ℝ) ≤ Real.sqrt (S : ℕ) := by
    apply Real.le_sqrt_of_sq_le
    rw [sq]
    exact_mod_cast hle
  refine sat_close_real g1 g2 (div_nonneg (mul_nonneg hn0 hα0) (by linarith)) ?_
  rw [div_le_iff₀ (by linarith), mul_comm]
  exact mul_le_mul hα1 hnq hn0 (by norm_num)

/-- **C80 refuted**, negative values: the INF norm is the largest value, not the largest magnitude.  In a float image with values from -10 to 5 normalised
to `alpha` = 100 the value 5 becomes 100, not 50 -/
theorem C80_refuted_negative (h : NormArgs m p q R C 4 4 a b x) (he : Extremes2 R C x (-10) 5) (beta : FV) :
    ∃ y m', hypercv_normalize (some p) (some q) (.fin false 100) beta 1 m = .ok ((), m') ∧ Normalised m m' q R C 4 4 y ∧
      ∀ i j, i < R → j < C → x i j = 5 → (y i j).toNat = 100 := by
  obtain ⟨m', h1, h2⟩ := norm_case (alpha := .fin false 100) (beta := beta) (t := 1) h rfl
  refine ⟨_, m', h1, h2, ?_⟩
  obtain ⟨mx', c1, c2, c3, c4⟩ := inf_spec (R * C) (norm_vals h)
  obtain ⟨e1, -, ⟨i', j', hi', hj', e3⟩⟩ := he
  have e : mx' = 5 := by
    have := c3 (i' * C + j') (mix_lt hi' hj')
    rw [mix_div hj', mix_mod hj', e3] at this
    rcases c4 with c4 | ⟨e, he, c4⟩
    · linarith
    · obtain ⟨h1, h2, h3⟩ := flat_split he
      have := (e1 _ _ h1 h2).2
      rw [← c4] at this
      linarith
  rw [e] at c1
  intro i j hi hj hx
  have hv := norm_px h hi hj
  rw [hx] at hv
  obtain ⟨g1, g2⟩ := normDiv_is (α := 100) ⟨false, rfl⟩ hv c1 (by norm_num) (by norm_num) (by norm_num) (le_refl _) (by norm_num) (by norm_num)
  have := sat_close g1 g2 (by norm_num) (by norm_num)
  rw [abs_le] at this
  beta_reduce
  revert this
  generalize (saturate_cast_float2uchar _).toNat = z
  rintro ⟨l1, l2⟩
  have k1 : (99:ℚ) < z := by linarith
  have k2 : (z:ℚ) < 101 := by linarith
  have k1 : 99 < z := by exact_mod_cast k1
  have k2 : z < 101 := by exact_mod_cast k2
  omega

/-! ### C81 -/

/-- **C81 refuted**, fractions: normalising a float image with values from 0 to 1 to the range from 0 to 1 sends every value below 0.499 to 0 and every
value above 0.501 to 1 -/
theorem C81_refuted_fraction (h : NormArgs m p q R C 4 4 a b x) (he : Extremes2 R C x 0 1) :
    ∃ y m', hypercv_normalize (some p) (some q) (.fin false 0) (.fin false 1) 32 m = .ok ((), m') ∧ Normalised m m' q R C 4 4 y ∧
      ∀ i j, i < R → j < C → (x i j < 499 / 1000 → (y i j).toNat = 0) ∧ (501 / 1000 < x i j → (y i j).toNat = 1) := by
  obtain ⟨y, m', h1, h2, h3, _⟩ := C79_minmax_partial h (alpha := .fin false 0) (beta := .fin false 1) (α := 0) (β := 1) ⟨false, rfl⟩ ⟨false, rfl⟩
    (by norm_num) (by norm_num) (by norm_num) (by norm_num) he (by norm_num) (by norm_num) (by norm_num)
  refine ⟨y, m', h1, h2, ?_⟩
  intro i j hi hj
  have hb := h3 i j hi hj
  have hx := he.1 i j hi hj
  have e : min (0:ℚ) 1 + (x i j - 0) * (max 0 1 - min 0 1) / (1 - 0) = x i j := by norm_num
  rw [e, abs_le] at hb
  constructor
  · intro hl
    have : ((y i j).toNat : ℚ) < 1 := by linarith [hb.2]
    have : (y i j).toNat < 1 := by exact_mod_cast this
    omega
  · intro hl
    have k1 : (0:ℚ) < (y i j).toNat := by linarith [hb.1]
    have k2 : ((y i j).toNat : ℚ) < 2 := by linarith [hb.2]
    have k1 : 0 < (y i j).toNat := by exact_mod_cast k1
    have k2 : (y i j).toNat < 2 := by exact_mod_cast k2
    omega

/-- writing bytes at an offset either stays inside the block or is undefined -/
theorem storeBytes_out {d N : Nat} : ∀ (w off v : Nat) (g : Nat → UInt8),
    (off + w ≤ N → ∃ g', storeBytes d v w (off:Int) (m.put d N g) = .ok ((), m.put d N g')) ∧
    (0 < w → N < off + w → storeBytes d v w (off:Int) (m.put d N g) = .error (.ub .oob))
  | 0, off, v, g => ⟨fun _ => ⟨g, rfl⟩, fun h => absurd h (by omega)⟩
  | w+1, off, v, g => by
    unfold storeBytes
    by_cases hi : off < N
    · obtain ⟨h1, h2⟩ := storeBytes_out w (off + 1) (v / 256) (fun p => if p = off then UInt8.ofNat v else g p)
      push_cast at h1 h2
      rw [bind_ok (store_put hi)]
      exact ⟨fun h => h1 (by omega), fun _ h => h2 (by omega) (by omega)⟩
    · refine ⟨fun h => by omega, fun _ _ => bind_err (store_oob (holds_put m d N g) (by omega))⟩

/-- **C81 refuted**, types: the types of the two images are not compared.  With a float source and a byte destination of the same size the call always
writes beyond the destination -/
theorem C81_refuted_type {px : Nat → Nat → Nat → UInt8} (hs : IsImageN m p R C 4 1 4 a) (hd : IsImage8 m q R C 1 px) (hN : R * C ≤ 2147483647)
    (hsep : SepPixels m p q) (alpha beta : FV) {t : Int} (ht : t = 1 ∨ t = 2 ∨ t = 4 ∨ t = 32) :
    hypercv_normalize (some p) (some q) alpha beta t m = .error (.ub .oob) := by
  obtain ⟨sd, si, s1, hs'⟩ := imgN_open hs
  obtain ⟨dd, di, d1, hd'⟩ := img_lit hd
  have hne : sd ≠ dd := fun e => hsep sd ⟨⟨_, s1, rfl⟩, ⟨_, d1, e⟩⟩
  have fail : ∀ g : FV → FV, normApply 4 sd dd ((R * C : Nat) : Int) g m = .error (.ub .oob) := by
    intro g
    have pos : 0 < R * C := Nat.mul_pos hs.1.posR hs.1.posC
    unfold normApply
    have ld : ∀ i f, i < R * C → loadN 4 sd (i:Int) (m.put dd (R * C * 1 * 1) f) = .ok (pxF C 1 a i, m.put dd (R * C * 1 * 1) f) :=
      fun i f hi => HoldsN.load (hs'.put_ne hne) (by omega)
    refine forI_stop (k := R * C / 4) (fun m' => ∃ f, m' = m.put dd (R * C * 1 * 1) f) ?_ (by omega) ?_ ⟨_, hd'.put_self.symm⟩
    · rintro i hi _ ⟨f, rfl⟩
      beta_reduce
      rw [bind_ok (ld i f (by omega))]
      unfold storeN
      have e : (i : Int) * ((4 : Nat) : Int) = ((i * 4 : Nat) : Int) := by push_cast; rfl
      rw [e]
      obtain ⟨g', h⟩ := (storeBytes_out (m := m) (d := dd) (N := R * C * 1 * 1) 4 (i * 4) _ f).1 (by omega)
      exact ⟨_, h, g', rfl⟩
    · rintro _ ⟨f, rfl⟩
      beta_reduce
      rw [bind_ok (ld _ f (by omega))]
      unfold storeN
      have e : ((R * C / 4 : Nat) : Int) * ((4 : Nat) : Int) = ((R * C / 4 * 4 : Nat) : Int) := by push_cast; rfl
      rw [e]
      exact (storeBytes_out (m := m) (d := dd) (N := R * C * 1 * 1) 4 _ _ f).2 (by omega) (by omega)
  unfold hypercv_normalize
  have g1 : derefS (some p) m = .ok (_, m) := getS_ok s1
  have g2 : derefS (some q) m = .ok (_, m) := getS_ok d1
  have x0 := size2_eval hN
  rw [cassert_bind (by simp), bind_ok g1, bind_ok g2, cassert_bind (by simp)]
  show normalizeT 4 (some p) (some q) alpha beta t m = _
  unfold normalizeT
  rw [cassert_bind (by simp), bind_ok g1, bind_ok g2, cassert_bind (by simp)]
  dsimp only
  have hle : R * C ≤ R * C * 1 := by omega
  rcases ht with rfl | rfl | rfl | rfl
  · rw [if_neg (by decide), if_neg (by decide), if_pos rfl, bind_ok (ev_ok x0 _),
      bind_ok (show normInf 4 sd _ m = _ from scan_run hs' hle (fun s b => if FV.lt s (normVal 4 b) then normVal 4 b else s) _)]
    exact fail _
  · rw [if_pos rfl, bind_ok (ev_ok x0 _), bind_ok (show normL1 4 sd _ m = _ from scan_run hs' hle (fun s b => f32.add s (normAbs (normVal 4 b))) _)]
    exact fail _
  · rw [if_neg (by decide), if_pos rfl, bind_ok (ev_ok x0 _), bind_ok (show normL2 4 sd _ m = _ from scan_run hs' hle (fun s b => f32.add s (normSq 4 b)) _)]
    exact fail _
  · rw [if_neg (by decide), if_neg (by decide), if_neg (by decide), if_pos rfl, bind_ok (ev_ok x0 _),
      bind_ok (show normMM 4 sd _ m = _ from scan_run hs' hle (fun s b => mmStep s (normVal 4 b)) _)]
    exact fail _

/-! ### The hypotheses are met -/

/-- two images in one memory, of any two types -/
theorem two_images {dt' : Int} {E' : Nat} (hE : elemBytes dt = some E) (hE' : elemBytes dt' = some E') (hR : 0 < R) (hC : 0 < C)
    (ha : ∀ i j c, i < R → j < C → c < 1 → a i j c < 256 ^ E) (hb : ∀ i j c, i < R → j < C → c < 1 → b i j c < 256 ^ E') :
    ∃ m, IsImageN m 1 R C dt 1 E a ∧ IsImageN m 3 R C dt' 1 E' b ∧ SepPixels m 1 3 := by
  let m0 := Mem.empty.newImage R C dt 1 E (imgBytes C 1 E fun i j c t => leByte (a i j c) t)
  let m1 := m0.newImage R C dt' 1 E' (imgBytes C 1 E' fun i j c t => leByte (b i j c) t)
  have h0 : m0.WF := newImage_WF empty_WF
  have hn : m0.next = 2 := rfl
  refine ⟨m1, ⟨img_frame h0 (demoImageN hE hR hC ha).1 (newImage_frame _), ha⟩, ⟨newImage_isImage (m := m0) hE' hR hC (by decide), hb⟩, ?_⟩
  rintro h ⟨⟨d1, e1, e2⟩, ⟨d2, e3, e4⟩⟩
  have k1 : m1.sm 1 = some (newSHdr Mem.empty R C dt 1 E) := by
    rw [show m1.sm 1 = m0.sm 1 from newImage_sm_old m0 (by rw [hn]; decide)]
    exact newImage_sm Mem.empty R C dt 1 E _
  have k2 : m1.sm 3 = some (newSHdr m0 R C dt' 1 E') := newImage_sm m0 R C dt' 1 E' _
  rw [k1] at e1
  rw [k2] at e3
  have e1 := Option.some.inj e1
  have e3 := Option.some.inj e3
  subst e1 e3
  have : (0:Nat) = m0.next := e2.symm.trans e4
  rw [hn] at this
  omega

/-- a byte image with the values 0, 1, 2 … 5 and the image it is normalised into -/
example : ∃ m a b, NormArgs m 1 3 2 3 1 1 a b (fun i j => ((3 * i + j : Nat) : ℚ)) ∧ Extremes2 2 3 (fun i j => ((3 * i + j : Nat) : ℚ)) 0 5 := by
  obtain ⟨m, h1, h2, h3⟩ := two_images (R := 2) (C := 3) (dt := 1) (E := 1) (dt' := 1) (E' := 1) (a := fun i j _ => 3 * i + j) (b := fun _ _ _ => 0)
    rfl rfl (by decide) (by decide) (by intros; show _ < 256; omega) (by intros; decide)
  refine ⟨m, _, _, ⟨Or.inl rfl, h1, h2, fun i j hi hj => rfl, by decide⟩, ?_, ⟨0, 0, by decide, by decide, by norm_num⟩, ⟨1, 2, by decide, by decide, by norm_num⟩⟩
  intro i j hi hj
  refine ⟨Nat.cast_nonneg _, ?_⟩
  beta_reduce
  exact_mod_cast (by omega : 3 * i + j ≤ 5)

/-- the same image normalised in place; its sums meet the hypotheses of the norms -/
example : ∃ m a, NormArgs m 1 1 2 3 1 1 a a (fun i j => ((3 * i + j : Nat) : ℚ)) ∧ pixelSum 2 3 (fun i j => 3 * i + j) = 15 ∧
    (pixelSum 2 3 fun i j => (3 * i + j) * (3 * i + j)) = 55 := by
  have h1 := demoImageN (R := 2) (C := 3) (dt := 1) (E := 1) (a := fun i j _ => 3 * i + j) rfl (by decide) (by decide) (by intros; show _ < 256; omega)
  exact ⟨_, _, ⟨Or.inl rfl, h1, h1, fun i j hi hj => rfl, by decide⟩, by decide, by decide⟩

/-- float images with given values -/
theorem float_pair (hR : 0 < R) (hC : 0 < C) (hN : R * C ≤ 2147483647) (hr : ∀ i j, i < R → j < C → f32.Rep (x i j)) :
    ∃ m a, NormArgs m 1 3 R C 4 4 a (fun _ _ _ => 0) x := by
  have good : ∀ i j, i < R → j < C → f32.Good (.fin (decide (x i j < 0)) (x i j)) := fun i j hi hj => ⟨hr i j hi hj, fun _ => rfl⟩
  obtain ⟨m, h1, h2, h3⟩ := two_images (R := R) (C := C) (dt := 4) (E := 4) (dt' := 4) (E' := 4)
    (a := fun i j _ => f32.encode (.fin (decide (x i j < 0)) (x i j))) (b := fun _ _ _ => 0) rfl rfl hR hC
    (fun i j _ hi hj _ => f32_encode_lt (good i j hi hj)) (by intros; decide)
  refine ⟨m, _, Or.inr rfl, h1, h2, fun i j hi hj => ?_, hN⟩
  unfold value
  simp only
  rw [f32_dec_enc (good i j hi hj)]

/-- float images meeting the hypotheses of the refutations: values from 2000000 to 3000000, from -10 to 5, and from 0 over 1/4 to 1 -/
example : (∃ m a b x, NormArgs m 1 3 1 2 4 4 a b x ∧ Extremes2 1 2 x 2000000 3000000) ∧ (∃ m a b x, NormArgs m 1 3 1 2 4 4 a b x ∧ Extremes2 1 2 x (-10) 5) ∧
    ∃ m a b x, NormArgs m 1 3 1 3 4 4 a b x ∧ Extremes2 1 3 x 0 1 ∧ x 0 1 = 1 / 4 := by
  refine ⟨?_, ?_, ?_⟩
  · obtain ⟨m, a, h⟩ := float_pair (R := 1) (C := 2) (x := fun _ j => if j = 0 then 2000000 else 3000000) (by decide) (by decide) (by decide) (by
      intro i j _ _
      beta_reduce
      split
      · have := rep32_int (n := 2000000) (by decide); norm_num at this ⊢; exact this
      · have := rep32_int (n := 3000000) (by decide); norm_num at this ⊢; exact this)
    refine ⟨m, a, _, _, h, ?_, ⟨0, 0, by decide, by decide, rfl⟩, ⟨0, 1, by decide, by decide, rfl⟩⟩
    intro i j _ _
    beta_reduce
    split <;> norm_num
  · obtain ⟨m, a, h⟩ := float_pair (R := 1) (C := 2) (x := fun _ j => if j = 0 then -10 else 5) (by decide) (by decide) (by decide) (by
      intro i j _ _
      beta_reduce
      split
      · have := rep32_int (n := -10) (by decide); norm_num at this ⊢; exact this
      · have := rep32_int (n := 5) (by decide); norm_num at this ⊢; exact this)
    refine ⟨m, a, _, _, h, ?_, ⟨0, 0, by decide, by decide, rfl⟩, ⟨0, 1, by decide, by decide, rfl⟩⟩
    intro i j _ _
    beta_reduce
    split <;> norm_num
  · obtain ⟨m, a, h⟩ := float_pair (R := 1) (C := 3) (x := fun _ j => if j = 0 then 0 else if j = 1 then 1 / 4 else 1) (by decide) (by decide) (by decide) (by
      intro i j _ _
      beta_reduce
      split
      · have := rep32_int (n := 0) (by decide); norm_num at this ⊢; exact this
      · split
        · exact ⟨1, -2, by norm_num, by decide, by decide, by norm_num [f32]⟩
        · have := rep32_int (n := 1) (by decide); norm_num at this ⊢; exact this)
    refine ⟨m, a, _, _, h, ⟨?_, ⟨0, 0, by decide, by decide, rfl⟩, ⟨0, 2, by decide, by decide, rfl⟩⟩, rfl⟩
    intro i j _ _
    beta_reduce
    split
    · norm_num
    · split <;> norm_num

/-- a float image beside a byte image -/
example : ∃ m a px, IsImageN m 1 2 2 4 1 4 a ∧ IsImage8 m 3 2 2 1 px ∧ SepPixels m 1 3 := by
  obtain ⟨m, h1, h2, h3⟩ := two_images (R := 2) (C := 2) (dt := 4) (E := 4) (dt' := 1) (E' := 1) (a := fun _ _ _ => 0) (b := fun _ _ _ => 7)
    rfl rfl (by decide) (by decide) (by intros; decide) (by intros; decide)
  refine ⟨m, _, fun _ _ _ => 7, h1, ?_, h3⟩
  refine img_congr h2.1 ?_
  intro i j c t _ _ _ ht
  obtain rfl : t = 0 := by omega
  show leByte 7 0 = 7
  decide

end HyperCV
