/- Image pyramids. -/
import Verif.Model.Pyramid
import Verif.Props.Separable
import Verif.Props.Padding
import Verif.Proof.Bmp

namespace HyperCV
open Spec

namespace Spec
/-- the weights used for enlarging, each twice the weight of the built-in kernel of five taps -/
def upWeight (b : Nat) : ℚ := ([1/8, 1/2, 3/4, 1/2, 1/8] : List ℚ).getD b 0

/-- the image with gaps: pixel (`2 i`, `2 j`) is pixel (`i`, `j`) of `px`, all others are zero -/
def spread (px : Nat → Nat → Nat → UInt8) (i j c : Nat) : UInt8 := if i % 2 = 1 ∨ j % 2 = 1 then 0 else px (i / 2) (j / 2) c

/-- the horizontal sum in the image with gaps (`C` columns, continued by its last pixels), limited to 255 -/
def upRow (C : Nat) (px : Nat → Nat → Nat → UInt8) (i j c : Nat) : ℚ :=
  min 255 (∑ b ∈ Finset.range 5, upWeight b * (spread px i (Extension.replicate.index ((j:Int) + b - 2) C).toNat c).toNat)

/-- the vertical sum of the horizontal sums, limited to 255 -/
def upValue (R C : Nat) (px : Nat → Nat → Nat → UInt8) (i j c : Nat) : ℚ :=
  min 255 (∑ a ∈ Finset.range 5, upWeight a * upRow C px (Extension.replicate.index ((i:Int) + a - 2) R).toNat j c)
end Spec

/-- the weights in units of 1/8 -/
def upN (b : Nat) : Nat := [1, 4, 6, 4, 1].getD b 0

theorem upWeight_eq (b : Nat) : upWeight b = (upN b : ℚ) / 8 := by
  unfold upWeight upN
  have : ([1/8, 1/2, 3/4, 1/2, 1/8] : List ℚ) = ([1, 4, 6, 4, 1] : List Nat).map (fun n : Nat => (n:ℚ) / 8) := by norm_num
  rw [this]
  simp only [List.getD_eq_getElem?_getD, List.getElem?_map]
  cases ([1, 4, 6, 4, 1] : List Nat)[b]? <;> simp

/-- a sum of products of dyadic numbers is exact -/
theorem sumFloat_exact {k : Nat → Nat} {kn n : Nat → Nat} {x : Nat → FV} {s : Nat} (hs : s ≤ 50) : ∀ w,
    (∀ b, b < w → f32.decode (k b) = .fin false ((kn b : ℚ) / 8)) → (∀ b, b < w → (x b).Is ((n b : ℚ) / 2 ^ s)) →
    (∑ b ∈ Finset.range w, kn b * n b) ≤ 2 ^ 24 →
    (sumFloat w k x).Is (((∑ b ∈ Finset.range w, kn b * n b : Nat) : ℚ) / 2 ^ (s + 3))
  | 0, _, _, _ => ⟨false, by simp [sumFloat]⟩
  | w+1, hk, hx, hb => by
    rw [Finset.sum_range_succ] at hb
    have ih := sumFloat_exact hs w (fun b hb' => hk b (by omega)) (fun b hb' => hx b (by omega)) (by omega)
    rw [sumFloat_succ, Finset.sum_range_succ, hk w (by omega)]
    have e : ((kn w : ℚ) / 8) * ((n w : ℚ) / 2 ^ s) = ((kn w * n w : Nat) : ℚ) / 2 ^ (s + 3) := by
      rw [pow_add]; push_cast; field_simp; ring
    have h1 := is_mul (F := f32) (a := .fin false ((kn w : ℚ) / 8)) ⟨false, rfl⟩ (hx w (by omega)) (by
      rw [e]; exact rep_nat_div _ (by omega) (by omega))
    rw [e] at h1
    have e2 : ((∑ b ∈ Finset.range w, kn b * n b : Nat) : ℚ) / 2 ^ (s + 3) + ((kn w * n w : Nat) : ℚ) / 2 ^ (s + 3)
        = ((∑ b ∈ Finset.range w, kn b * n b + kn w * n w : Nat) : ℚ) / 2 ^ (s + 3) := by push_cast; ring
    have h2 := is_add (F := f32) ih h1 (by rw [e2]; exact rep_nat_div _ (by omega) (by omega))
    rw [e2] at h2
    exact h2

theorem clampByte_is {v : FV} {q : ℚ} (h : v.Is q) (h0 : 0 ≤ q) : (clampByte v).Is (min 255 q) := by
  obtain ⟨s, rfl⟩ := h
  unfold clampByte
  dsimp only
  rw [if_neg (by linarith)]
  by_cases hq : 255 < q
  · rw [if_pos hq, min_eq_left (by linarith)]; exact ⟨_, rfl⟩
  · rw [if_neg hq, min_eq_right (by linarith)]; exact ⟨_, rfl⟩

/-- numerators of the horizontal sums, in units of 1/8 -/
def upRowN (C : Nat) (px : Nat → Nat → Nat → UInt8) (i j c : Nat) : Nat :=
  min 2040 (∑ b ∈ Finset.range 5, upN b * (spread px i (Extension.replicate.index ((j:Int) + b - 2) C).toNat c).toNat)

theorem min_div {a b : Nat} (d : ℚ) (hd : 0 < d) : (min ((a:ℚ) / d) ((b:ℚ) / d)) = ((min a b : Nat) : ℚ) / d := by
  rcases Nat.le_total a b with h | h
  · rw [min_eq_left h, min_eq_left]
    exact div_le_div_of_nonneg_right (by exact_mod_cast h) hd.le
  · rw [min_eq_right h, min_eq_right]
    exact div_le_div_of_nonneg_right (by exact_mod_cast h) hd.le

theorem upRow_eq (C : Nat) (px : Nat → Nat → Nat → UInt8) (i j c : Nat) : upRow C px i j c = (upRowN C px i j c : ℚ) / 8 := by
  unfold upRow upRowN
  rw [← min_div 8 (by norm_num)]
  congr 1
  · norm_num
  · push_cast
    rw [Finset.sum_div]
    refine Finset.sum_congr rfl fun b _ => ?_
    rw [upWeight_eq]; ring

theorem upSum_le {f : Nat → Nat} {B : Nat} (h : ∀ b, f b ≤ B) : ∑ b ∈ Finset.range 5, upN b * f b ≤ 16 * B := by
  have : ∑ b ∈ Finset.range 5, upN b * f b ≤ ∑ b ∈ Finset.range 5, upN b * B :=
    Finset.sum_le_sum fun b _ => Nat.mul_le_mul_left _ (h b)
  rw [← Finset.sum_mul] at this
  exact this.trans (le_of_eq (by congr 1))

/-- with the doubled kernel the filter computes `upValue` exactly -/
theorem sepFloat_up {R C : Nat} {k : Nat → Nat} (hk : ∀ b, b < 5 → f32.decode (k b) = .fin false ((upN b : ℚ) / 8)) (px : Nat → Nat → Nat → UInt8) (i j c : Nat) :
    (sepFloat .replicate R C 5 5 k k (spread px) i j c).Is (upValue R C px i j c) := by
  have row : ∀ i', (rowFloat .replicate C 5 k (spread px) i' j c).Is ((upRowN C px i' j c : ℚ) / 8) := by
    intro i'
    unfold rowFloat
    have h1 := sumFloat_exact (k := k) (kn := upN) (s := 0)
      (n := fun b => (spread px i' (Extension.replicate.index ((j:Int) + b - ((5 / 2 : Nat) : Int)) C).toNat c).toNat)
      (x := fun b => f32.ofInt ((spread px i' (Extension.replicate.index ((j:Int) + b - ((5 / 2 : Nat) : Int)) C).toNat c).toNat : Int))
      (by decide) 5 hk (fun b _ => by
        have hlt := UInt8.toNat_lt (spread px i' (Extension.replicate.index ((j:Int) + b - ((5 / 2 : Nat) : Int)) C).toNat c)
        rw [pow_zero, div_one]
        rw [nn_ofInt (rep1 (by omega))]
        exact ⟨_, rfl⟩) ((upSum_le (B := 255) fun b => by
          have hlt := UInt8.toNat_lt (spread px i' (Extension.replicate.index ((j:Int) + b - ((5 / 2 : Nat) : Int)) C).toNat c)
          omega).trans (by decide))
    have h2 := clampByte_is h1 (by positivity)
    have e : min (255:ℚ) (((∑ b ∈ Finset.range 5, upN b * (spread px i' (Extension.replicate.index ((j:Int) + b - ((5 / 2 : Nat) : Int)) C).toNat c).toNat : Nat) : ℚ) / 2 ^ (0 + 3))
        = (upRowN C px i' j c : ℚ) / 8 := by
      unfold upRowN
      rw [← min_div 8 (by norm_num)]
      congr 1
      norm_num
    rw [e] at h2
    exact h2
  unfold sepFloat
  have h1 := sumFloat_exact (k := k) (kn := upN) (s := 3)
    (n := fun a => upRowN C px (Extension.replicate.index ((i:Int) + a - ((5 / 2 : Nat) : Int)) R).toNat j c)
    (x := fun a => rowFloat .replicate C 5 k (spread px) (Extension.replicate.index ((i:Int) + a - ((5 / 2 : Nat) : Int)) R).toNat j c)
    (by decide) 5 hk (fun a _ => by have := row (Extension.replicate.index ((i:Int) + a - ((5 / 2 : Nat) : Int)) R).toNat; norm_num at this ⊢; exact this)
    ((upSum_le (B := 2040) fun b => min_le_left _ _).trans (by decide))
  have h2 := clampByte_is h1 (by positivity)
  have e : min (255:ℚ) (((∑ a ∈ Finset.range 5, upN a * upRowN C px (Extension.replicate.index ((i:Int) + a - ((5 / 2 : Nat) : Int)) R).toNat j c : Nat) : ℚ) / 2 ^ (3 + 3))
      = upValue R C px i j c := by
    unfold upValue
    congr 1
    rw [Nat.cast_sum, Finset.sum_div]
    refine Finset.sum_congr rfl fun a _ => ?_
    rw [upWeight_eq, upRow_eq]
    push_cast
    ring
  rw [e] at h2
  exact h2

/-- the elements of the doubled kernel -/
def dbits (b : Nat) : Nat := f32.encode (.fin false ((upN b : ℚ) / 8))

theorem upN_le (b : Nat) : upN b ≤ 6 := by
  unfold upN
  rcases b with _ | _ | _ | _ | _ | b <;> simp

theorem rep8 {n : Nat} (hn : n ≤ 16777216) : f32.Rep ((n:ℚ) / 8) := by
  have := rep_nat_div 3 (n := n) (by omega) (by omega)
  norm_num at this
  exact this

theorem dbits_lt (b : Nat) : dbits b < 256 ^ 4 :=
  f32_encode_lt ⟨rep8 (by have := upN_le b; omega), fun _ => by simp; positivity⟩

theorem dbits_dec (b : Nat) : f32.decode (dbits b) = .fin false ((upN b : ℚ) / 8) :=
  nn_dec (by positivity) (rep8 (by have := upN_le b; omega))

theorem gw_up {b : Nat} (hb : b < 5) : (gw 2 b : ℚ) / 64 * 2 = (upN b : ℚ) / 8 := by
  interval_cases b <;> norm_num [gw, gaussTab, upN]

/-- doubling the kernel -/
theorem double_run (m : Mem) :
    (forI 0 5 fun i => do
      let v ← loadN 4 m.next i
      storeN 4 m.next i (f32.encode (f32.mul (f32.decode v) (f32.ofInt 2)))) (m.newKernel 2) = .ok ((), m.newImage 1 5 4 1 4 (encN 4 dbits)) := by
  have key := forI_run (n := 5) (body := fun i => do
      let v ← loadN 4 m.next i
      storeN 4 m.next i (f32.encode (f32.mul (f32.decode v) (f32.ofInt 2))))
    (fun k => m.newImage 1 5 4 1 4 (encN 4 (fun b => if b < k then dbits b else kbits 2 b))) (by
      intro i hi
      have lt : ∀ j, j < 2 * 2 + 1 → (if j < i then dbits j else kbits 2 j) < 256 ^ 4 := by
        intro j hj
        split
        · exact dbits_lt j
        · exact kbits_lt 2 j (by decide) hj
      have e0 : m.newImage 1 5 4 1 4 (encN 4 (fun b => if b < i then dbits b else kbits 2 b))
          = (m.newKernel 2).putN m.next 4 (2 * 2 + 1) (fun b => if b < i then dbits b else kbits 2 b) := (newKernel_put m 2 _).symm
      have hl : HoldsN ((m.newKernel 2).putN m.next 4 (2 * 2 + 1) (fun b => if b < i then dbits b else kbits 2 b)) m.next 4 (2 * 2 + 1)
          (fun b => if b < i then dbits b else kbits 2 b) := holdsN_putN _ lt
      beta_reduce
      rw [e0, bind_ok (hl.load (show i < 2 * 2 + 1 from hi)), if_neg (by omega), kbits_dec (by decide) (show i < 2 * 2 + 1 from hi)]
      have e1 : f32.ofInt 2 = .fin false 2 := by
        have := nn_ofInt (F := f32) (n := 2) (rep1 (by decide))
        exact_mod_cast this
      rw [e1, nn_mul (by positivity) (by norm_num) (by rw [gw_up hi]; exact rep8 (by have := upN_le i; omega)), gw_up hi]
      rw [show f32.encode (.fin false ((upN i : ℚ) / 8)) = dbits i from rfl, storeN_put (show i < 2 * 2 + 1 from hi)]
      refine congrArg (fun x => Except.ok ((), x)) ?_
      refine Eq.trans ?_ (newKernel_put m 2 (fun b => if b < i + 1 then dbits b else kbits 2 b) (f := encN 4 (kbits 2)))
      refine putN_congr _ ?_
      intro j _
      by_cases e : j = i
      · rw [if_pos e, if_pos (by omega), e, Nat.mod_eq_of_lt (dbits_lt i)]
      · rw [if_neg e]
        by_cases e2 : j < i
        · rw [if_pos e2, if_pos (by omega)]
        · rw [if_neg e2, if_neg (by omega)])
  have z0 : m.newImage 1 5 4 1 4 (encN 4 (fun b => if b < 0 then dbits b else kbits 2 b)) = m.newKernel 2 := by
    unfold Mem.newKernel
    congr 2
  have z1 : m.newImage 1 5 4 1 4 (encN 4 (fun b => if b < 5 then dbits b else kbits 2 b)) = m.newImage 1 5 4 1 4 (encN 4 dbits) := by
    apply newImage_congr
    intro p hp
    unfold encN
    beta_reduce
    rw [if_pos (by omega)]
  beta_reduce at key
  rw [z0, z1] at key
  exact key

/-- a new image of any contents -/
theorem newImage_any {m : Mem} {R C ch E : Nat} {dt : Int} {f : Nat → UInt8} (hE : elemBytes dt = some E) (hR : 0 < R) (hC : 0 < C) (hch : 0 < ch) :
    IsImage (m.newImage R C dt ch E f) (m.next + 1) R C dt ch E (fun i j c t => f (((i * C + j) * ch + c) * E + t)) :=
  ⟨hE, hR, hC, hch, _, f, newImage_sm m R C dt ch E _, rfl, rfl, rfl, rfl, rfl, bytes_iff.mpr (newImage_data m R C dt ch E _), fun _ _ _ _ _ _ _ _ => rfl⟩

theorem half_up {n : Nat} (hn : n ≤ 2147483600) : ((CI.lit (n:Int) + 1) / 2 : CI) = CI.lit (((n + 1) / 2 : Nat) : Int) := by
  have e1 : (CI.lit (n:Int) + 1 : CI) = CI.lit ((n + 1 : Nat) : Int) := by
    show (CI.lit (n:Int) + CI.lit 1 : CI) = _
    rw [CI.add_ok (by constructor <;> omega)]
    push_cast
    rfl
  rw [e1]
  exact half_eval (by omega)

theorem twice_eval {n : Nat} (hn : 2 * n ≤ 2147483647) : (CI.lit (n:Int) * 2 : CI) = CI.lit ((2 * n : Nat) : Int) := by
  show (CI.lit (n:Int) * CI.lit ((2:Nat):Int) : CI) = _
  have e : 2 * n = n * 2 := by ring
  rw [e] at hn ⊢
  have h : n * 2 < 2147483648 := by omega
  ci_down

theorem dbl_eval {i : Nat} (hi : 2 * i ≤ 2147483647) : (CI.lit 2 * CI.lit (i:Int) : CI) = CI.lit ((2 * i : Nat) : Int) := by
  rw [CI.mul_ok (by constructor <;> omega)]
  push_cast
  rfl

/-! ### Constant images -/

/-- the sum of the weights that meet a pixel at coordinate `p` -/
def hit (len p : Nat) : ℚ := ∑ b ∈ Finset.range 5, upWeight b * (if (Extension.replicate.index ((p:Int) + b - 2) len).toNat % 2 = 1 then 0 else 1)

theorem idx_lo {p len : Int} (h : p < 0) : (Extension.replicate.index p len).toNat = 0 := by
  unfold Extension.index; rw [if_pos h]; rfl

theorem idx_in {p len : Int} (h0 : 0 ≤ p) (h : p < len) : (Extension.replicate.index p len).toNat = p.toNat := by
  unfold Extension.index; dsimp only; rw [if_neg (by omega), if_pos h]

theorem idx_hi {p len : Int} (h0 : 0 ≤ p) (h : len ≤ p) : (Extension.replicate.index p len).toNat = (len - 1).toNat := by
  unfold Extension.index; dsimp only; rw [if_neg (by omega), if_neg (by omega)]

theorem upRow_const {C : Nat} {v : Nat → UInt8} {i j c : Nat} :
    upRow C (fun _ _ c => v c) i j c = (if i % 2 = 1 then 0 else 1) * min 255 (hit C j * (v c).toNat) := by
  unfold upRow spread
  by_cases h : i % 2 = 1
  · simp [h]
  · rw [if_neg h, one_mul]
    congr 1
    unfold hit
    rw [Finset.sum_mul]
    refine Finset.sum_congr rfl fun b _ => ?_
    by_cases h2 : (Extension.replicate.index ((j:Int) + b - 2) C).toNat % 2 = 1
    · rw [if_pos (Or.inr h2), if_pos h2]; simp
    · rw [if_neg (by omega), if_neg h2, mul_one]

theorem upValue_const {R C : Nat} {v : Nat → UInt8} {i j c : Nat} :
    upValue R C (fun _ _ c => v c) i j c = min 255 (hit R i * min 255 (hit C j * (v c).toNat)) := by
  unfold upValue
  congr 1
  conv_rhs => unfold hit
  rw [Finset.sum_mul]
  refine Finset.sum_congr rfl fun b _ => ?_
  rw [upRow_const]
  unfold hit
  ring

theorem hit_first {len : Nat} (h : 4 ≤ len) : hit len 0 = 3 / 2 := by
  unfold hit
  simp only [Finset.sum_range_succ, Finset.sum_range_zero]
  rw [idx_lo (by norm_num), idx_lo (by norm_num), idx_in (by norm_num) (by push_cast; omega), idx_in (by norm_num) (by push_cast; omega),
    idx_in (by norm_num) (by push_cast; omega)]
  rw [if_neg (by decide), if_neg (by decide), if_pos (by decide), if_neg (by decide)]
  norm_num [upWeight]

theorem hit_last {n : Nat} (h : 2 ≤ n) : hit (2 * n) (2 * n - 1) = 1 / 2 := by
  unfold hit
  simp only [Finset.sum_range_succ, Finset.sum_range_zero]
  rw [idx_in (by omega) (by omega), idx_in (by omega) (by omega), idx_in (by omega) (by omega), idx_hi (by omega) (by omega), idx_hi (by omega) (by omega)]
  rw [if_pos (by omega), if_neg (by omega), if_pos (by omega), if_pos (by omega)]
  norm_num [upWeight]

theorem hit_inner {n p : Nat} (h : 2 ≤ p) (h2 : p + 2 < 2 * n) : hit (2 * n) p = 1 := by
  unfold hit
  simp only [Finset.sum_range_succ, Finset.sum_range_zero]
  rw [idx_in (by omega) (by omega), idx_in (by omega) (by omega), idx_in (by omega) (by omega), idx_in (by omega) (by omega), idx_in (by omega) (by omega)]
  by_cases hp : p % 2 = 1
  · rw [if_pos (by omega), if_neg (by omega), if_pos (by omega), if_neg (by omega), if_pos (by omega)]
    norm_num [upWeight]
  · rw [if_neg (by omega), if_pos (by omega), if_neg (by omega), if_pos (by omega), if_neg (by omega)]
    norm_num [upWeight]

end HyperCV
