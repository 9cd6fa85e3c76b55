/- Lemmas for the image statistics. -/
import Verif.Model.Statistics
import Verif.Proof.ImageN
import Verif.Proof.Color
import Verif.Proof.Gradient
import Verif.Proof.InvertExact
import Verif.Proof.MatrixBase

namespace HyperCV
open Spec

/-- a sum over all positions of an image, row by row -/
theorem sum_flat {α : Type} [AddCommMonoid α] (R C : Nat) (f : Nat → α) :
    ∑ p ∈ Finset.range (R * C), f p = ∑ i ∈ Finset.range R, ∑ j ∈ Finset.range C, f (i * C + j) := by
  induction R with
  | zero => simp
  | succ R ih => rw [Finset.sum_range_succ, ← ih, Nat.succ_mul, Finset.sum_range_add]

/-- value added for an element with bit pattern `b` -/
def statVal (dt : Int) (b : Nat) : FV := if dt = 4 then f32.decode b else f32.ofInt b

section
variable {m : Mem} {d R C E : Nat} {dt : Int} {a : Nat → Nat → Nat → Nat}

theorem statElem_ok (hE : elemBytes dt = some E) (ht : statType dt = true) (h : HoldsP m d E R C 1 a) {p : Nat} (hp : p < R * C) :
    statElem dt d p m = .ok (statVal dt (a (p / C) (p % C) 0), m) := by
  obtain ⟨h1, h2, h3⟩ := flat_split hp
  have hl : loadN E d (p : Int) m = .ok (a (p / C) (p % C) 0, m) := by
    have := h.load h1 h2 (Nat.lt_succ_self 0)
    rw [Nat.mul_one, Nat.add_zero, ← h3] at this
    exact this
  have hd : dt = 1 ∨ dt = 2 ∨ dt = 12 ∨ dt = 3 ∨ dt = 4 := by simpa [statType] using ht
  unfold statElem statVal
  rcases hd with rfl | rfl | rfl | rfl | rfl
  · cases hE
    rw [if_pos rfl, if_neg (by decide)]
    have hl1 : load d (p:Int) m = .ok (UInt8.ofNat (a (p / C) (p % C) 0), m) := by
      have hb := h.1
      rw [Nat.mul_one, Nat.mul_one] at hb
      rw [load_ok hb (by omega)]
      have := encN_at (w := 1) (i := p) (t := 0) (pxF C 1 a) (by decide)
      rw [Nat.mul_one, Nat.add_zero] at this
      rw [this, leByte_zero]
      have e := pxF_at (C := C) (ch := 1) (i := p / C) (j := p % C) (c := 0) a h2 (by decide)
      rw [Nat.mul_one, Nat.add_zero, ← h3] at e
      rw [e]
    rw [bind_ok hl1]
    have hf := h.fits (p / C) (p % C) 0 h1 h2 (by decide)
    have : (UInt8.ofNat (a (p / C) (p % C) 0)).toNat = a (p / C) (p % C) 0 := by
      rw [UInt8.toNat_ofNat']; exact Nat.mod_eq_of_lt hf
    show Except.ok (f32.ofInt (ival _), m) = _
    unfold ival
    rw [this]
  · cases hE
    rw [if_neg (by decide), if_pos (by decide), if_neg (by decide), bind_ok hl]; rfl
  · cases hE
    rw [if_neg (by decide), if_pos (by decide), if_neg (by decide), bind_ok hl]; rfl
  · cases hE
    rw [if_neg (by decide), if_neg (by decide), if_pos rfl, if_neg (by decide), bind_ok hl]; rfl
  · cases hE
    rw [if_neg (by decide), if_neg (by decide), if_neg (by decide), if_pos rfl, bind_ok hl]; rfl

end

theorem size2_eval {R C : Nat} (hN : R * C ≤ 2147483647) : (CI.lit (R:Int) * CI.lit (C:Int) : CI) = CI.lit ((R * C : Nat) : Int) := by
  rw [CI.mul_ok (by constructor <;> (push_cast at *; omega))]; push_cast; rfl

section
variable {m : Mem} {p R C E : Nat} {dt : Int} {a : Nat → Nat → Nat → Nat}

/-- the mean is the quotient of an accumulated value described by an invariant -/
theorem mean_inv (h : IsImageN m p R C dt 1 E a) (hN : R * C ≤ 2147483647) (ht : statType dt = true) (P : Nat → FV → Prop)
    (h0 : P 0 (.fin false 0)) (hs : ∀ q v, q < R * C → P q v → P (q+1) (f32.add v (statVal dt (a (q / C) (q % C) 0)))) :
    ∃ v, simple_mat_mean (some p) m = .ok (f32.div (f32.div v (f32.ofInt R)) (f32.ofInt C), m) ∧ P (R * C) v := by
  obtain ⟨d, inl, h1, h2⟩ := imgN_open h
  obtain ⟨v, r1, r2⟩ := forA_inv (n := R * C) (m := m) (s0 := FV.fin false 0)
    (body := fun i res => do let v ← statElem dt d i; pure (f32.add res v)) P h0 (by
    intro q v hq hP
    exact ⟨_, bind_ok (statElem_ok h.1.size ht h2 hq), hs q v hq hP⟩)
  refine ⟨v, ?_, r2⟩
  unfold simple_mat_mean
  have g1 : derefS (some p) m = .ok (_, m) := getS_ok h1
  rw [cassert_bind (by simp), bind_ok g1, cassert_bind (by simp)]
  dsimp only
  rw [if_pos ht]
  rw [bind_ok (ev_ok (size2_eval hN) _)]
  exact (bind_ok r1).trans rfl

theorem variance_inv (h : IsImageN m p R C dt 1 E a) (hN : R * C ≤ 2147483647) (ht : statType dt = true) {mean : FV}
    (hmean : simple_mat_mean (some p) m = .ok (mean, m)) (P : Nat → FV → Prop)
    (h0 : P 0 (.fin false 0)) (hs : ∀ q v, q < R * C → P q v → P (q+1) (addSquare v (f64.conv (f32.sub mean (statVal dt (a (q / C) (q % C) 0)))))) :
    ∃ v, simple_mat_variance (some p) m = .ok (f32.div (f32.div v (f32.ofInt R)) (f32.ofInt C), m) ∧ P (R * C) v := by
  obtain ⟨d, inl, h1, h2⟩ := imgN_open h
  obtain ⟨v, r1, r2⟩ := forA_inv (n := R * C) (m := m) (s0 := FV.fin false 0)
    (body := fun i res => do let v ← statElem dt d i; pure (addSquare res (f64.conv (f32.sub mean v)))) P h0 (by
    intro q v hq hP
    exact ⟨_, bind_ok (statElem_ok h.1.size ht h2 hq), hs q v hq hP⟩)
  refine ⟨v, ?_, r2⟩
  unfold simple_mat_variance
  have g1 : derefS (some p) m = .ok (_, m) := getS_ok h1
  rw [cassert_bind (by simp), bind_ok g1, cassert_bind (by simp), bind_ok hmean]
  dsimp only
  rw [if_pos ht]
  rw [bind_ok (ev_ok (size2_eval hN) _)]
  exact (bind_ok r1).trans rfl

/-- other data types are not summed -/
theorem mean_other (h : IsImageN m p R C dt 1 E a) (ht : statType dt = false) :
    simple_mat_mean (some p) m = .ok (f32.div (f32.div (.fin false 0) (f32.ofInt R)) (f32.ofInt C), m) := by
  obtain ⟨d, inl, h1, h2⟩ := imgN_open h
  unfold simple_mat_mean
  have g1 : derefS (some p) m = .ok (_, m) := getS_ok h1
  rw [cassert_bind (by simp), bind_ok g1, cassert_bind (by simp)]
  dsimp only
  rw [ht]
  rfl

theorem variance_other (h : IsImageN m p R C dt 1 E a) (ht : statType dt = false) :
    simple_mat_variance (some p) m = .ok (f32.div (f32.div (.fin false 0) (f32.ofInt R)) (f32.ofInt C), m) := by
  obtain ⟨d, inl, h1, h2⟩ := imgN_open h
  unfold simple_mat_variance
  have g1 : derefS (some p) m = .ok (_, m) := getS_ok h1
  rw [cassert_bind (by simp), bind_ok g1, cassert_bind (by simp), bind_ok (mean_other h ht)]
  dsimp only
  rw [ht]
  rfl
end

/-! ### Relative error of a rounding -/

theorem rv_rel {q : ℚ} (h : (2:ℚ) ^ (-126 : ℤ) ≤ |q|) : |f32.rv q - q| ≤ |q| / 2 ^ 24 := by
  have hpos : 0 < |q| := lt_of_lt_of_le (by positivity) h
  have hlog : -126 ≤ Int.log 2 |q| := by
    have := (Int.zpow_le_iff_le_log (b := 2) (by norm_num) hpos (x := -126)).1 (by exact_mod_cast h)
    exact this
  have hu : f32.ulpExp q = Int.log 2 |q| - 23 := by
    unfold Fmt.ulpExp
    apply max_eq_left
    show -149 ≤ Int.log 2 |q| - 23
    omega
  refine le_trans (rv_err f32 q) ?_
  rw [hu, zpow_sub₀ (by norm_num)]
  have := Int.zpow_log_le_self (b := 2) (by norm_num) hpos
  have h3 : (2:ℚ) ^ Int.log 2 |q| ≤ |q| := by exact_mod_cast this
  have e : (2:ℚ) ^ Int.log 2 |q| / 2 ^ (23:ℤ) / 2 = 2 ^ Int.log 2 |q| / 2 ^ 24 := by
    rw [div_div]; norm_num
  rw [e]
  exact div_le_div_of_nonneg_right h3 (by positivity)

/-! ### Contrast -/

theorem is_conv' {F : Fmt} {a : FV} {x : ℚ} (ha : a.Is x) (h : F.Rep x) : (F.conv a).Is x := by
  obtain ⟨s, rfl⟩ := ha
  exact round_exact h

/-- adding the square of an integer exactly -/
theorem addSquare_is {v d : FV} {t : Nat} {x : ℤ} (hv : v.Is ((t : ℤ) : ℚ)) (hd : d.Is ((x : ℤ) : ℚ)) (h : (t : ℤ) + x * x ≤ 16777216) :
    (addSquare v d).Is ((((t : ℤ) + x * x : ℤ)) : ℚ) := by
  have hx : 0 ≤ x * x := mul_self_nonneg x
  have r1 : f32.Rep ((t : ℤ) : ℚ) := rep32_int (by rw [abs_le]; constructor <;> omega)
  have r2 : f32.Rep ((x * x : ℤ) : ℚ) := rep32_int (by rw [abs_le]; constructor <;> omega)
  have r3 : f32.Rep (((t : ℤ) + x * x : ℤ) : ℚ) := rep32_int (by rw [abs_le]; constructor <;> omega)
  unfold addSquare
  have s1 := is_mul (F := f64) hd hd (by rw [← Int.cast_mul]; exact f32_to_f64 r2)
  rw [← Int.cast_mul] at s1
  have s2 := is_add (F := f64) (is_conv' (F := f64) hv (f32_to_f64 r1)) s1 (by rw [← Int.cast_add]; exact f32_to_f64 r3)
  rw [← Int.cast_add] at s2
  exact is_conv' (F := f32) s2 r3

/-- squared difference of two grey levels -/
def sqDiff (x y : Nat) : Nat := (x - y) * (x - y) + (y - x) * (y - x)

theorem sqDiff_eq (x y : Nat) : ((sqDiff x y : Nat) : ℤ) = ((x:ℤ) - y) * ((x:ℤ) - y) := by
  unfold sqDiff
  rcases Nat.le_total x y with h | h
  · obtain ⟨k, rfl⟩ := Nat.exists_eq_add_of_le h
    rw [Nat.sub_eq_zero_of_le h, Nat.add_sub_cancel_left]; push_cast; ring
  · obtain ⟨k, rfl⟩ := Nat.exists_eq_add_of_le h
    rw [Nat.sub_eq_zero_of_le h, Nat.add_sub_cancel_left]; push_cast; ring

section
variable {m : Mem} {sd N : Nat} {f : Nat → UInt8}

theorem contrastTerm_ok (hs : Holds m sd N f) {use : Bool} {a b : CI} {p q : Nat}
    (h : use = true → a = CI.lit (p:Int) ∧ b = CI.lit (q:Int) ∧ p < N ∧ q < N) (v : FV) :
    ∃ v', contrastTerm sd use a b v m = .ok (v', m) ∧ ∀ t : Nat, v.Is ((t:ℤ):ℚ) →
      t + (if use then sqDiff (f p).toNat (f q).toNat else 0) ≤ 16777216 →
      v'.Is (((t + (if use then sqDiff (f p).toNat (f q).toNat else 0) : Nat) : ℤ) : ℚ) := by
  cases use with
  | false =>
    refine ⟨v, rfl, ?_⟩
    intro t ht _
    simpa using ht
  | true =>
    obtain ⟨h1, h2, h3, h4⟩ := h rfl
    have x1 := (f p).toNat_lt
    have x2 := (f q).toNat_lt
    refine ⟨addSquare v (f64.ofInt (((f p).toNat : ℤ) - (f q).toNat)), ?_, ?_⟩
    · unfold contrastTerm
      rw [if_pos rfl, bind_ok (ev_ok h1 _), bind_ok (load_ok hs h3), bind_ok (ev_ok h2 _), bind_ok (load_ok hs h4)]
      unfold ival
      rw [bind_ok (ev_ok (CI.sub_ok (by constructor <;> omega)) _)]
      rfl
    · intro t ht hb
      rw [if_pos rfl] at hb ⊢
      have e := sqDiff_eq (f p).toNat (f q).toNat
      have hd : (f64.ofInt (((f p).toNat : ℤ) - (f q).toNat)).Is (((((f p).toNat : ℤ) - (f q).toNat : ℤ)) : ℚ) :=
        is_ofInt (f32_to_f64 (rep32_int (by rw [abs_le]; constructor <;> omega)))
      have := addSquare_is ht hd (by omega)
      rw [← e] at this
      push_cast at this ⊢
      exact this

/-- sum of the squared differences between pixel (`i`, `j`) and its neighbours inside the image -/
def contrastAt (R C : Nat) (g : Nat → Nat → Nat) (i j : Nat) : Nat :=
  (if 0 < j then sqDiff (g i j) (g i (j-1)) else 0) + (if j + 1 < C then sqDiff (g i j) (g i (j+1)) else 0) +
  (if 0 < i then sqDiff (g i j) (g (i-1) j) else 0) + (if i + 1 < R then sqDiff (g i j) (g (i+1) j) else 0)

theorem contrastPixel_ok {R C : Nat} (hs : Holds m sd (R * C) f) (hN : R * C ≤ 2147483647) {i j : Nat} (hi : i < R) (hj : j < C) (v : FV) :
    ∃ v', contrastPixel sd R C i j v m = .ok (v', m) ∧ ∀ t : Nat, v.Is ((t:ℤ):ℚ) →
      t + contrastAt R C (fun i j => (f (i * C + j)).toNat) i j ≤ 16777216 →
      v'.Is (((t + contrastAt R C (fun i j => (f (i * C + j)).toNat) i j : Nat) : ℤ) : ℚ) := by
  have hR : R ≤ R * C := Nat.le_mul_of_pos_right _ (by omega)
  have hC : C ≤ R * C := Nat.le_mul_of_pos_left _ (by omega)
  have e0 := idx_eval hi hj hN
  have l0 := flat_lt hi hj
  have e1 : j ≠ 0 → (CI.lit (i:Int) * CI.lit (C:Int) + CI.lit (j:Int) - CI.lit 1 : CI) = CI.lit ((i * C + (j - 1) : Nat) : Int) := by
    intro h
    rw [e0, CI.sub_ok (by constructor <;> omega)]
    congr 1; omega
  have e2 : j + 1 < C → (CI.lit (i:Int) * CI.lit (C:Int) + CI.lit (j:Int) + CI.lit 1 : CI) = CI.lit ((i * C + (j + 1) : Nat) : Int) := by
    intro h
    have := flat_lt hi h
    rw [e0, CI.add_ok (by constructor <;> omega)]
    congr 1
  have e3 : i ≠ 0 → ((CI.lit (i:Int) - CI.lit 1) * CI.lit (C:Int) + CI.lit (j:Int) : CI) = CI.lit (((i - 1) * C + j : Nat) : Int) := by
    intro h
    rw [CI.sub_ok (by constructor <;> omega), show (i:Int) - 1 = ((i - 1 : Nat) : Int) by omega]
    exact idx_eval (R := R) (by omega) hj hN
  have e4 : i + 1 < R → ((CI.lit (i:Int) + CI.lit 1) * CI.lit (C:Int) + CI.lit (j:Int) : CI) = CI.lit (((i + 1) * C + j : Nat) : Int) := by
    intro h
    rw [CI.add_ok (by constructor <;> omega)]
    exact idx_eval (R := R) h hj hN
  have d1 : (decide ((j:Int) ≠ 0)) = decide (0 < j) := by rw [decide_eq_decide]; omega
  have d2 : (decide ((j:Int) ≠ (C:Int) - 1)) = decide (j + 1 < C) := by rw [decide_eq_decide]; omega
  have d3 : (decide ((i:Int) ≠ 0)) = decide (0 < i) := by rw [decide_eq_decide]; omega
  have d4 : (decide ((i:Int) ≠ (R:Int) - 1)) = decide (i + 1 < R) := by rw [decide_eq_decide]; omega
  unfold contrastPixel
  rw [d1, d2, d3, d4]
  obtain ⟨v1, a1, b1⟩ := contrastTerm_ok hs (use := decide (0 < j)) (a := CI.lit (i:Int) * CI.lit (C:Int) + CI.lit (j:Int))
    (b := CI.lit (i:Int) * CI.lit (C:Int) + CI.lit (j:Int) - CI.lit 1) (p := i * C + j) (q := i * C + (j - 1))
    (fun h => by rw [decide_eq_true_eq] at h; exact ⟨e0, e1 (by omega), l0, by omega⟩) v
  obtain ⟨v2, a2, b2⟩ := contrastTerm_ok hs (use := decide (j + 1 < C)) (a := CI.lit (i:Int) * CI.lit (C:Int) + CI.lit (j:Int))
    (b := CI.lit (i:Int) * CI.lit (C:Int) + CI.lit (j:Int) + CI.lit 1) (p := i * C + j) (q := i * C + (j + 1))
    (fun h => by rw [decide_eq_true_eq] at h; exact ⟨e0, e2 h, l0, flat_lt hi h⟩) v1
  obtain ⟨v3, a3, b3⟩ := contrastTerm_ok hs (use := decide (0 < i)) (a := CI.lit (i:Int) * CI.lit (C:Int) + CI.lit (j:Int))
    (b := (CI.lit (i:Int) - CI.lit 1) * CI.lit (C:Int) + CI.lit (j:Int)) (p := i * C + j) (q := (i - 1) * C + j)
    (fun h => by rw [decide_eq_true_eq] at h; exact ⟨e0, e3 (by omega), l0, flat_lt (by omega) hj⟩) v2
  obtain ⟨v4, a4, b4⟩ := contrastTerm_ok hs (use := decide (i + 1 < R)) (a := CI.lit (i:Int) * CI.lit (C:Int) + CI.lit (j:Int))
    (b := (CI.lit (i:Int) + CI.lit 1) * CI.lit (C:Int) + CI.lit (j:Int)) (p := i * C + j) (q := (i + 1) * C + j)
    (fun h => by rw [decide_eq_true_eq] at h; exact ⟨e0, e4 h, l0, flat_lt h hj⟩) v3
  refine ⟨v4, ?_, ?_⟩
  · rw [bind_ok a1, bind_ok a2, bind_ok a3]
    exact a4
  · intro t ht hb
    unfold contrastAt at hb ⊢
    beta_reduce at hb ⊢
    simp only [decide_eq_true_eq] at b1 b2 b3 b4
    have c1 := b1 t ht (by omega)
    have c2 := b2 _ c1 (by omega)
    have c3 := b3 _ c2 (by omega)
    have c4 := b4 _ c3 (by omega)
    simp only [Nat.add_assoc] at c4 ⊢
    exact c4

theorem psum_le {R C : Nat} (t : Nat → Nat → Nat) {i j : Nat} (hi : i < R) (hj : j ≤ C) :
    psum C t i j ≤ ∑ u ∈ Finset.range R, ∑ v ∈ Finset.range C, t u v := by
  calc psum C t i j ≤ psum C t i C := by
        unfold psum
        refine Nat.add_le_add_left (Finset.sum_le_sum_of_subset fun x hx => ?_) _
        rw [Finset.mem_range] at *; omega
    _ = psum C t (i+1) 0 := (psum_row C t i).symm
    _ = ∑ u ∈ Finset.range (i+1), ∑ v ∈ Finset.range C, t u v := psum_end _ _ _
    _ ≤ _ := Finset.sum_le_sum_of_subset fun x hx => by rw [Finset.mem_range] at *; omega

theorem contrast_loop {R C : Nat} (hs : Holds m sd (R * C) f) (hN : R * C ≤ 2147483647) :
    ∃ v, forA 0 (R:Int) (FV.fin false 0) (fun i res => forA 0 (C:Int) res fun j res => contrastPixel sd R C i j res) m = .ok (v, m) ∧
      (∑ i ∈ Finset.range R, ∑ j ∈ Finset.range C, contrastAt R C (fun i j => (f (i * C + j)).toNat) i j ≤ 16777216 →
        v.Is (((∑ i ∈ Finset.range R, ∑ j ∈ Finset.range C, contrastAt R C (fun i j => (f (i * C + j)).toNat) i j : Nat) : ℤ) : ℚ)) := by
  have key := taps_inv (a := R) (b := C) (m := m) (s0 := FV.fin false 0) (body := fun i j res => contrastPixel sd R C i j res)
    (fun i j v => ∑ i ∈ Finset.range R, ∑ j ∈ Finset.range C, contrastAt R C (fun i j => (f (i * C + j)).toNat) i j ≤ 16777216 →
      v.Is (((psum C (contrastAt R C (fun i j => (f (i * C + j)).toNat)) i j : Nat) : ℤ) : ℚ))
    (fun _ => ⟨false, by rw [psum_zero]; simp⟩)
    (by
      intro i j v hi hj hv
      obtain ⟨v', h1, h2⟩ := contrastPixel_ok hs hN hi hj v
      refine ⟨v', h1, fun hb => ?_⟩
      rw [psum_step]
      refine h2 _ (hv hb) ?_
      rw [← psum_step]
      exact le_trans (psum_le _ hi hj) hb)
    (fun i v _ hv hb => by rw [psum_row]; exact hv hb)
  obtain ⟨v, h1, h2⟩ := key
  refine ⟨v, h1, fun hb => ?_⟩
  have := h2 hb
  rwa [psum_end] at this

end

theorem contrast_den {R C : Nat} (hR : 0 < R) (hC : 0 < C) (hN : 6 * (R * C) ≤ 2147483647) :
    (CI.lit 4 * (CI.lit (C:Int) - CI.lit 2) * (CI.lit (R:Int) - CI.lit 2) + CI.lit 3 * CI.lit 2 * (CI.lit (R:Int) - CI.lit 2) +
      CI.lit 3 * CI.lit 2 * (CI.lit (C:Int) - CI.lit 2) + CI.lit 2 * CI.lit 4 : CI) = CI.lit (4 * (R * C : Nat) - 2 * R - 2 * C) := by
  have h1 : R ≤ R * C := Nat.le_mul_of_pos_right _ hC
  have h2 : C ≤ R * C := Nat.le_mul_of_pos_left _ hR
  have h3 : R + C ≤ R * C + 1 := by nlinarith
  have e : 4 * ((C:Int) - 2) * ((R:Int) - 2) = 4 * ((R * C : Nat) : Int) - 8 * R - 8 * C + 16 := by push_cast; ring
  have c32 : (CI.lit 3 * CI.lit 2 : CI) = CI.lit 6 := rfl
  have c24 : (CI.lit 2 * CI.lit 4 : CI) = CI.lit 8 := rfl
  generalize R * C = p at *
  rw [c32, c24, CI.sub_ok (a := (C:Int)) (by constructor <;> omega), CI.sub_ok (a := (R:Int)) (by constructor <;> omega),
    CI.mul_ok (by constructor <;> omega), CI.mul_ok (by rw [e]; constructor <;> omega), CI.mul_ok (by constructor <;> omega), e,
    CI.add_ok (by constructor <;> omega), CI.mul_ok (by constructor <;> omega), CI.add_ok (by constructor <;> omega),
    CI.add_ok (by constructor <;> omega)]
  congr 1
  ring

end HyperCV
