/- Lemmas for k-means. -/
import Verif.Model.Cluster
import Verif.Spec.Cluster
import Verif.Proof.Statistics

namespace HyperCV
open Spec

theorem rep64_int {n : ℤ} (h : |n| ≤ 9007199254740992) : f64.Rep n := by
  refine ⟨n, 0, by norm_num, h, by decide, ?_⟩
  have : |(n:ℚ)| ≤ 9007199254740992 := by exact_mod_cast h
  refine lt_of_le_of_lt this ?_
  show (9007199254740992 : ℚ) < 2 ^ 1024
  exact lt_of_lt_of_le (b := (2:ℚ) ^ 54) (by norm_num) (pow_le_pow_right₀ (by norm_num) (by norm_num))

theorem trunc_int {v : FV} {n : ℤ} (hv : v.Is (n:ℚ)) (h : -2147483648 ≤ n ∧ n ≤ 2147483647) : v.trunc = some n := by
  obtain ⟨s, rfl⟩ := hv
  have key : (if 0 ≤ (n:ℚ) then ⌊(n:ℚ)⌋ else -⌊-(n:ℚ)⌋) = n := by
    split
    · exact Int.floor_intCast n
    · rw [← Int.cast_neg, Int.floor_intCast]; ring
  show (if _ then _ else _) = _
  rw [key, if_pos h]

/-- the labels computed by the code: the first of the nearest among the first `n` centres -/
def kmLab (c : Nat → Nat × Nat) (i j : Nat) : Nat → Nat
  | 0 => 0
  | n + 1 => if sqDist (c n) i j < sqDist (c (kmLab c i j n)) i j then n else kmLab c i j n

theorem kmLab_spec (c : Nat → Nat × Nat) (i j : Nat) {K : Nat} (hK : 0 < K) : FirstNearest K c i j (kmLab c i j K) := by
  induction K with
  | zero => omega
  | succ n ih =>
    rcases Nat.eq_zero_or_pos n with rfl | hn
    · have : kmLab c i j 1 = 0 := by
        unfold kmLab
        split <;> rfl
      rw [this]
      exact ⟨by decide, fun l hl => by obtain rfl : l = 0 := by omega
                                       exact le_refl _, fun l hl => by omega⟩
    · obtain ⟨h1, h2, h3⟩ := ih hn
      unfold kmLab
      split
      · rename_i hlt
        refine ⟨by omega, ?_, ?_⟩
        · intro l hl
          rcases Nat.lt_or_ge l n with h | h
          · exact le_trans hlt.le (h2 l h)
          · obtain rfl : l = n := by omega
            exact le_refl _
        · intro l hl
          exact lt_of_lt_of_le hlt (h2 l hl)
      · rename_i hge
        refine ⟨by omega, ?_, h3⟩
        intro l hl
        rcases Nat.lt_or_ge l n with h | h
        · exact h2 l h
        · obtain rfl : l = n := by omega
          exact not_lt.1 hge

theorem Spec.FirstNearest.unique {K : Nat} {c : Nat → Nat × Nat} {i j k l : Nat} (h : FirstNearest K c i j k) (h' : FirstNearest K c i j l) : k = l := by
  obtain ⟨a1, a2, a3⟩ := h
  obtain ⟨b1, b2, b3⟩ := h'
  rcases Nat.lt_trichotomy k l with hh | hh | hh
  · exact absurd (a2 l b1) (not_le.2 (b3 k hh))
  · exact hh
  · exact absurd (b2 k a1) (not_le.2 (a3 l hh))

section
variable {m : Mem} {K R C : Nat} {c : Nat → Nat × Nat} {v : Int → Int × Int}

theorem sqDist_bound (hc : InImage K R C c) {k i j : Nat} (hk : k < K) (hi : i < R) (hj : j < C) :
    0 ≤ sqDist (c k) i j ∧ sqDist (c k) i j < (R:ℤ) * R + C * C ∧ (((c k).1:ℤ) - j)^2 < (C:ℤ) * C ∧ (((c k).2:ℤ) - i)^2 < (R:ℤ)*R := by
  obtain ⟨h1, h2⟩ := hc k hk
  unfold sqDist
  have a1 : (((c k).1:ℤ) - j)^2 < (C:ℤ) * C := by
    have : |((c k).1:ℤ) - j| < C := by rw [abs_lt]; constructor <;> omega
    have := sq_lt_sq' (abs_lt.1 this).1 (abs_lt.1 this).2
    linarith [sq (C:ℤ)]
  have a2 : (((c k).2:ℤ) - i)^2 < (R:ℤ) * R := by
    have : |((c k).2:ℤ) - i| < R := by rw [abs_lt]; constructor <;> omega
    have := sq_lt_sq' (abs_lt.1 this).1 (abs_lt.1 this).2
    linarith [sq (R:ℤ)]
  exact ⟨by positivity, by linarith, a1, a2⟩

theorem kmDist_ok (hc : InImage K R C c) (hb : R * R + C * C ≤ 2147483647) {k i j : Nat} (hk : k < K) (hi : i < R) (hj : j < C) (m : Mem) :
    kmDist (((c k).1:Int), ((c k).2:Int)) i j m = .ok (sqDist (c k) i j, m) := by
  obtain ⟨h1, h2⟩ := hc k hk
  obtain ⟨s0, s1, s2, s3⟩ := sqDist_bound hc hk hi hj
  have hb' : (R:ℤ) * R + C * C ≤ 2147483647 := by exact_mod_cast hb
  have hC : (C:ℤ) ≤ 2147483647 := by nlinarith
  have hR : (R:ℤ) ≤ 2147483647 := by nlinarith
  unfold kmDist
  dsimp only
  rw [bind_ok (ev_ok (CI.sub_ok (by constructor <;> omega)) _), bind_ok (ev_ok (CI.sub_ok (by constructor <;> omega)) _)]
  have n1 : 0 ≤ (((c k).1:ℤ) - j)^2 := by positivity
  have n2 : 0 ≤ (((c k).2:ℤ) - i)^2 := by positivity
  have m1 := is_mul (F := f64) (is_ofInt (F := f64) (n := ((c k).1:ℤ) - j) (rep64_int (by rw [abs_le]; constructor <;> omega)))
    (is_ofInt (F := f64) (n := ((c k).1:ℤ) - j) (rep64_int (by rw [abs_le]; constructor <;> omega)))
    (by rw [← Int.cast_mul, ← sq]; exact rep64_int (by rw [abs_le]; constructor <;> nlinarith))
  have m2 := is_mul (F := f64) (is_ofInt (F := f64) (n := ((c k).2:ℤ) - i) (rep64_int (by rw [abs_le]; constructor <;> omega)))
    (is_ofInt (F := f64) (n := ((c k).2:ℤ) - i) (rep64_int (by rw [abs_le]; constructor <;> omega)))
    (by rw [← Int.cast_mul, ← sq]; exact rep64_int (by rw [abs_le]; constructor <;> nlinarith))
  rw [← Int.cast_mul, ← sq] at m1 m2
  have m3 := is_add (F := f64) m1 m2 (by rw [← Int.cast_add]; exact rep64_int (by rw [abs_le]; constructor <;> nlinarith))
  rw [← Int.cast_add] at m3
  exact truncInt_ok (trunc_int m3 (by constructor <;> nlinarith)) m

/-- the state `v` of the code holds the centres `c` -/
def HoldsC (K : Nat) (v : Int → Int × Int) (c : Nat → Nat × Nat) : Prop := ∀ k, k < K → v (k:Int) = (((c k).1:Int), ((c k).2:Int))

theorem kmNearest_ok (hK : 0 < K) (hv : HoldsC K v c) (hc : InImage K R C c) (hb : R * R + C * C ≤ 2147483647) {i j : Nat} (hi : i < R) (hj : j < C) (m : Mem) :
    kmNearest v K R C i j m = .ok (((kmLab c i j K : Nat), sqDist (c (kmLab c i j K)) i j), m) := by
  have hb' : (R:ℤ) * R + C * C ≤ 2147483647 := by exact_mod_cast hb
  have p1 : 0 ≤ (R:ℤ) * R := by positivity
  have p2 : 0 ≤ (C:ℤ) * C := by positivity
  have hd : (CI.lit (R:Int) * CI.lit (R:Int) + CI.lit (C:Int) * CI.lit (C:Int) : CI) = CI.lit ((R:Int) * R + C * C) := by
    rw [CI.mul_ok (by constructor <;> omega), CI.mul_ok (by constructor <;> omega), CI.add_ok (by constructor <;> omega)]
  unfold kmNearest
  rw [bind_ok (ev_ok hd _)]
  obtain ⟨s, h1, h2⟩ := forA_inv (n := K) (m := m) (s0 := ((0:Int), (R:Int) * R + C * C))
    (body := fun k best => do
      let d ← kmDist (v k) i j
      if d < best.2 then pure (k, d) else pure best)
    (fun n s => s = if n = 0 then ((0:Int), (R:Int) * R + C * C) else (((kmLab c i j n : Nat) : Int), sqDist (c (kmLab c i j n)) i j)) rfl (by
      intro n s hn hs
      subst hs
      rw [hv n hn, bind_ok (kmDist_ok hc hb hn hi hj m)]
      rcases Nat.eq_zero_or_pos n with rfl | hpos
      · rw [if_pos rfl, if_neg (Nat.succ_ne_zero 0)]
        have e : kmLab c i j (0+1) = 0 := by
          unfold kmLab
          split <;> rfl
        rw [e, if_pos (sqDist_bound hc hn hi hj).2.1]
        exact ⟨_, rfl, rfl⟩
      · rw [if_neg (show n ≠ 0 by omega), if_neg (show n + 1 ≠ 0 by omega)]
        split
        · rename_i hlt
          refine ⟨_, rfl, ?_⟩
          rw [show kmLab c i j (n+1) = n by rw [kmLab, if_pos hlt]]
        · rename_i hlt
          refine ⟨_, rfl, ?_⟩
          rw [show kmLab c i j (n+1) = kmLab c i j n by rw [kmLab, if_neg hlt]])
  rw [h1, h2, if_neg (by omega)]

/-- sum over the pixels of label `k` visited so far -/
def kmSum (C : Nat) (fg : Nat → Nat → Bool) (lab : Nat → Nat → Nat) (k : Nat) (t : Nat → Nat → Nat) (x y : Nat) : Nat :=
  psum C (fun i j => if fg i j = true ∧ lab i j = k then t i j else 0) x y

theorem kmSum_le {fg : Nat → Nat → Bool} {lab : Nat → Nat → Nat} {k : Nat} {t : Nat → Nat → Nat} {x y B : Nat} (hx : x < R) (hy : y ≤ C)
    (ht : ∀ i j, i < R → j < C → t i j ≤ B) : kmSum C fg lab k t x y ≤ R * C * B := by
  refine le_trans (psum_le _ hx hy) ?_
  calc ∑ u ∈ Finset.range R, ∑ v ∈ Finset.range C, (if fg u v = true ∧ lab u v = k then t u v else 0)
      ≤ ∑ u ∈ Finset.range R, ∑ v ∈ Finset.range C, B := by
        refine Finset.sum_le_sum fun u hu => Finset.sum_le_sum fun w hw => ?_
        rw [Finset.mem_range] at hu hw
        split
        · exact ht u w hu hw
        · exact Nat.zero_le _
    _ = R * C * B := by
        rw [Finset.sum_const, Finset.card_range, Finset.sum_const, Finset.card_range, Nat.nsmul_eq_mul, Nat.nsmul_eq_mul]; ring

variable {d : Nat} {f : Nat → UInt8}

theorem kmAcc_ok (hK : 0 < K) (hs : Holds m d (R * C) f) (hv : HoldsC K v c) (hc : InImage K R C c) (hb : R * R + C * C ≤ 2147483647)
    (hx : R * C * C ≤ 2147483647) (hy : R * C * R ≤ 2147483647) :
    ∃ a, forA 0 (R:Int) KmAcc.zero (fun i a => forA 0 (C:Int) a fun j a => kmPixel d v K R C i j a) m = .ok (a, m) ∧
      ∀ k : Nat, k < K →
        a.num k = (kmSum C (fun i j => decide (f (i * C + j) ≠ 0)) (fun i j => kmLab c i j K) k (fun _ _ => 1) R 0 : Nat) ∧
        a.v2 k = (((kmSum C (fun i j => decide (f (i * C + j) ≠ 0)) (fun i j => kmLab c i j K) k (fun _ j => j) R 0 : Nat) : Int),
          ((kmSum C (fun i j => decide (f (i * C + j) ≠ 0)) (fun i j => kmLab c i j K) k (fun i _ => i) R 0 : Nat) : Int)) := by
  refine taps_inv (m := m) (s0 := KmAcc.zero) (body := fun i j a => kmPixel d v K R C i j a) (fun x y a => ∀ k : Nat, k < K →
        a.num k = (kmSum C (fun i j => decide (f (i * C + j) ≠ 0)) (fun i j => kmLab c i j K) k (fun _ _ => 1) x y : Nat) ∧
        a.v2 k = (((kmSum C (fun i j => decide (f (i * C + j) ≠ 0)) (fun i j => kmLab c i j K) k (fun _ j => j) x y : Nat) : Int),
          ((kmSum C (fun i j => decide (f (i * C + j) ≠ 0)) (fun i j => kmLab c i j K) k (fun i _ => i) x y : Nat) : Int))) ?_ ?_ ?_
  · intro k _
    simp [kmSum, psum_zero, KmAcc.zero]
  · intro i j a hi hj ha
    have hRp : 0 < R := by omega
    have hCp : 0 < C := by omega
    have hRC : R * C ≤ 2147483647 := le_trans (Nat.le_mul_of_pos_right _ hCp) hx
    unfold kmPixel
    rw [bind_ok (ev_ok (idx_eval hi hj hRC) _), bind_ok (load_ok hs (flat_lt hi hj))]
    by_cases h0 : f (i * C + j) = 0
    · rw [if_neg (by simpa using h0)]
      refine ⟨a, rfl, ?_⟩
      intro k hk
      unfold kmSum
      rw [psum_step, psum_step, psum_step]
      have : ¬ ((decide (f (i * C + j) ≠ 0)) = true ∧ kmLab c i j K = k) := by simp [h0]
      rw [if_neg this, if_neg this, if_neg this]
      exact ha k hk
    · rw [if_pos h0, bind_ok (kmNearest_ok hK hv hc hb hi hj m)]
      dsimp only
      have hl := (kmLab_spec c i j hK).1
      obtain ⟨a1, a2⟩ := ha _ hl
      rw [a1, a2]
      dsimp only
      have step : ∀ t : Nat → Nat → Nat, kmSum C (fun i j => decide (f (i * C + j) ≠ 0)) (fun i j => kmLab c i j K) (kmLab c i j K) t i (j+1) =
          kmSum C (fun i j => decide (f (i * C + j) ≠ 0)) (fun i j => kmLab c i j K) (kmLab c i j K) t i j + t i j := by
        intro t
        unfold kmSum
        rw [psum_step, if_pos ⟨by simpa using h0, rfl⟩]
      have b1 := kmSum_le (R := R) (fg := fun i j => decide (f (i * C + j) ≠ 0)) (lab := fun i j => kmLab c i j K) (k := kmLab c i j K)
        (t := fun _ j => j) (x := i) (y := j+1) (B := C) hi hj (fun _ _ _ h => h.le)
      have b2 := kmSum_le (R := R) (fg := fun i j => decide (f (i * C + j) ≠ 0)) (lab := fun i j => kmLab c i j K) (k := kmLab c i j K)
        (t := fun i _ => i) (x := i) (y := j+1) (B := R) hi hj (fun _ _ h _ => h.le)
      have b3 := kmSum_le (R := R) (fg := fun i j => decide (f (i * C + j) ≠ 0)) (lab := fun i j => kmLab c i j K) (k := kmLab c i j K)
        (t := fun _ _ => 1) (x := i) (y := j+1) (B := 1) hi hj (fun _ _ _ _ => le_refl _)
      rw [step] at b1 b2 b3
      rw [bind_ok (ev_ok (CI.add_ok (by constructor <;> omega)) _), bind_ok (ev_ok (CI.add_ok (by constructor <;> omega)) _),
        bind_ok (ev_ok (CI.add_ok (by constructor <;> omega)) _)]
      refine ⟨_, rfl, ?_⟩
      intro k hk
      dsimp only
      by_cases hkl : k = kmLab c i j K
      · subst hkl
        rw [if_pos rfl, if_pos rfl, step, step, step]
        push_cast
        exact ⟨rfl, rfl⟩
      · have hne : (k:Int) ≠ ((kmLab c i j K : Nat) : Int) := by exact_mod_cast hkl
        rw [if_neg hne, if_neg hne]
        have stay : ∀ t : Nat → Nat → Nat, kmSum C (fun i j => decide (f (i * C + j) ≠ 0)) (fun i j => kmLab c i j K) k t i (j+1) =
            kmSum C (fun i j => decide (f (i * C + j) ≠ 0)) (fun i j => kmLab c i j K) k t i j := by
          intro t
          unfold kmSum
          rw [psum_step, if_neg (by rintro ⟨-, h⟩; exact hkl h.symm), Nat.add_zero]
        rw [stay, stay, stay]
        exact ha k hk
  · intro x a _ ha k hk
    unfold kmSum
    rw [psum_row, psum_row, psum_row]
    exact ha k hk

theorem kmSum_members (fg : Nat → Nat → Bool) (lab : Nat → Nat → Nat) (k : Nat) (t : Nat → Nat → Nat) :
    kmSum C fg lab k t R 0 = ∑ q ∈ members R C fg lab k, t q.1 q.2 := by
  unfold kmSum members
  rw [psum_end, Finset.sum_filter, Finset.sum_product]

theorem centroid_lt {s : Finset (Nat × Nat)} (hR : 0 < R) (hC : 0 < C) (h : ∀ q ∈ s, q.1 < R ∧ q.2 < C) : (centroid s).1 < C ∧ (centroid s).2 < R := by
  unfold centroid
  dsimp only
  rcases Nat.eq_zero_or_pos s.card with h0 | hpos
  · rw [h0, Nat.div_zero, Nat.div_zero]; exact ⟨hC, hR⟩
  · have h1 : ∑ q ∈ s, q.2 ≤ s.card * (C - 1) := by
      have := Finset.sum_le_card_nsmul s (fun q => q.2) (C - 1) (fun q hq => by have := (h q hq).2; show q.2 ≤ _; omega)
      rwa [Nat.nsmul_eq_mul] at this
    have h2 : ∑ q ∈ s, q.1 ≤ s.card * (R - 1) := by
      have := Finset.sum_le_card_nsmul s (fun q => q.1) (R - 1) (fun q hq => by have := (h q hq).1; show q.1 ≤ _; omega)
      rwa [Nat.nsmul_eq_mul] at this
    constructor
    · refine lt_of_le_of_lt (Nat.div_le_of_le_mul h1) (by omega)
    · refine lt_of_le_of_lt (Nat.div_le_of_le_mul h2) (by omega)

/-- the centres after one round -/
def kmNext (K R C : Nat) (fg : Nat → Nat → Bool) (c : Nat → Nat × Nat) : Nat → Nat × Nat :=
  fun k => centroid (members R C fg (fun i j => kmLab c i j K) k)

theorem kmNext_round (hK : 0 < K) (fg : Nat → Nat → Bool) : KmRound K R C fg c (kmNext K R C fg c) :=
  ⟨_, fun i j _ _ => kmLab_spec c i j hK, fun _ _ => rfl⟩

theorem Spec.KmRound.unique {fg : Nat → Nat → Bool} {c' c'' : Nat → Nat × Nat} (h : KmRound K R C fg c c') (h' : KmRound K R C fg c c'') :
    ∀ k, k < K → c' k = c'' k := by
  obtain ⟨l, h1, h2⟩ := h
  obtain ⟨l', h1', h2'⟩ := h'
  intro k hk
  rw [h2 k hk, h2' k hk]
  congr 1
  unfold members
  refine Finset.filter_congr fun q hq => ?_
  rw [Finset.mem_product, Finset.mem_range, Finset.mem_range] at hq
  rw [(h1 q.1 q.2 hq.1 hq.2).unique (h1' q.1 q.2 hq.1 hq.2)]

theorem kmNext_in (hR : 0 < R) (hC : 0 < C) (fg : Nat → Nat → Bool) : InImage K R C (kmNext K R C fg c) := by
  intro k _
  refine centroid_lt hR hC fun q hq => ?_
  unfold members at hq
  rw [Finset.mem_filter, Finset.mem_product, Finset.mem_range, Finset.mem_range] at hq
  exact hq.1

instance (K : Nat) (th : ℤ) (c c' : Nat → Nat × Nat) : Decidable (Grew K th c c') :=
  decidable_of_iff (∃ k ∈ Finset.range K, (((c' k).1 : ℤ) - (c k).1 > th ∨ ((c' k).2 : ℤ) - (c k).2 > th))
    ⟨fun ⟨k, h1, h2⟩ => ⟨k, Finset.mem_range.1 h1, h2⟩, fun ⟨k, h1, h2⟩ => ⟨k, Finset.mem_range.2 h1, h2⟩⟩

theorem kmRound_ok (hK : 0 < K) (hs : Holds m d (R * C) f) (hv : HoldsC K v c) (hc : InImage K R C c) (hb : R * R + C * C ≤ 2147483647)
    (hx : R * C * C ≤ 2147483647) (hy : R * C * R ≤ 2147483647) (th : ℤ) :
    ∃ v', kmRound d K R C th v m = .ok ((v', decide (Grew K th c (kmNext K R C (fun i j => decide (f (i * C + j) ≠ 0)) c))), m) ∧
      HoldsC K v' (kmNext K R C (fun i j => decide (f (i * C + j) ≠ 0)) c) := by
  obtain ⟨a, h1, h2⟩ := kmAcc_ok hK hs hv hc hb hx hy
  have hR : 0 < R := Nat.lt_of_le_of_lt (Nat.zero_le _) (hc 0 hK).2
  have hC : 0 < C := Nat.lt_of_le_of_lt (Nat.zero_le _) (hc 0 hK).1
  have hR1 : R ≤ 2147483647 := by nlinarith
  have hC1 : C ≤ 2147483647 := by nlinarith
  generalize hfg : (fun i j => decide (f (i * C + j) ≠ 0)) = fg at *
  have hmean : ∀ k : Nat, k < K → kmMean a k m = .ok ((((kmNext K R C fg c k).1 : Int), ((kmNext K R C fg c k).2 : Int)), m) := by
    intro k hk
    obtain ⟨a1, a2⟩ := h2 k hk
    rw [kmSum_members] at a1
    rw [kmSum_members, kmSum_members] at a2
    have hcard : ∑ q ∈ members R C fg (fun i j => kmLab c i j K) k, 1 = (members R C fg (fun i j => kmLab c i j K) k).card := by
      rw [Finset.card_eq_sum_ones]
    rw [hcard] at a1
    have hin := kmNext_in (K := K) (c := c) hR hC fg k hk
    unfold kmMean
    rw [a1, a2]
    unfold kmNext centroid at hin ⊢
    dsimp only at hin ⊢
    generalize members R C fg (fun i j => kmLab c i j K) k = s at *
    split
    · rename_i hne
      have e : ∀ n : Nat, ((n:Int)).tdiv (s.card : Int) = ((n / s.card : Nat) : Int) := fun n => by
        rw [Int.tdiv_eq_ediv_of_nonneg (by omega)]; push_cast; rfl
      have bnd : ∀ n B : Nat, n < B → B ≤ 2147483647 → CI.InR (n:Int) := by
        intro n B h h'; constructor <;> omega
      rw [bind_ok (ev_ok (CI.div_ok hne (by rw [e]; exact bnd _ _ hin.1 hC1)) _),
        bind_ok (ev_ok (CI.div_ok hne (by rw [e]; exact bnd _ _ hin.2 hR1)) _), e, e]
      rfl
    · rename_i hne
      have h0 : s.card = 0 := by simpa using hne
      rw [h0, Nat.div_zero, Nat.div_zero]
      obtain rfl := Finset.card_eq_zero.1 h0
      rfl
  unfold kmRound
  rw [bind_ok h1]
  obtain ⟨s, r1, r2, r3, r4⟩ := forA_inv (n := K) (m := m) (s0 := (v, false))
    (body := fun (k : Int) (s : (Int → Int × Int) × Bool) => do
      let c ← kmMean a k
      let moved ← kmMoved (s.1 k) c th
      pure (fun l => if l = k then c else s.1 l, s.2 || moved))
    (fun n s => (∀ k : Nat, k < n → s.1 (k:Int) = (((kmNext K R C fg c k).1 : Int), ((kmNext K R C fg c k).2 : Int))) ∧
      (∀ k : Nat, n ≤ k → s.1 (k:Int) = v (k:Int)) ∧ s.2 = decide (Grew n th c (kmNext K R C fg c)))
    ⟨fun k hk => by omega, fun k _ => rfl, by
      symm; rw [decide_eq_false_iff_not]; rintro ⟨k, hk, -⟩; omega⟩ (by
      intro n s hn ⟨p1, p2, p3⟩
      have hin := kmNext_in (K := K) (c := c) hR hC fg n hn
      have hin' := hc n hn
      rw [bind_ok (hmean n hn), p2 n (le_refl _), hv n hn]
      have hmv : kmMoved (((c n).1:Int), ((c n).2:Int)) (((kmNext K R C fg c n).1 : Int), ((kmNext K R C fg c n).2 : Int)) th m =
          .ok (decide (((kmNext K R C fg c n).1 : ℤ) - (c n).1 > th ∨ ((kmNext K R C fg c n).2 : ℤ) - (c n).2 > th), m) := by
        unfold kmMoved
        dsimp only
        rw [bind_ok (ev_ok (CI.sub_ok (by constructor <;> omega)) _)]
        by_cases hg : ((kmNext K R C fg c n).1 : ℤ) - (c n).1 > th
        · rw [if_pos hg]
          simp only [hg, true_or, decide_true]
          rfl
        · rw [if_neg hg, bind_ok (ev_ok (CI.sub_ok (by constructor <;> omega)) _)]
          simp only [hg, false_or]
          rfl
      rw [bind_ok hmv]
      refine ⟨_, rfl, ?_, ?_, ?_⟩
      · intro k hk
        dsimp only
        by_cases e : k = n
        · subst e; rw [if_pos rfl]
        · rw [if_neg (by exact_mod_cast e)]
          exact p1 k (by omega)
      · intro k hk
        dsimp only
        rw [if_neg (by omega)]
        exact p2 k (by omega)
      · dsimp only
        rw [p3, ← Bool.decide_or]
        refine decide_eq_decide.2 ⟨?_, ?_⟩
        · rintro (⟨k, hk, h⟩ | h)
          · exact ⟨k, by omega, h⟩
          · exact ⟨n, by omega, h⟩
        · rintro ⟨k, hk, h⟩
          by_cases e : k = n
          · subst e; exact Or.inr h
          · exact Or.inl ⟨k, by omega, h⟩)
  refine ⟨s.1, ?_, r2⟩
  rw [r1, ← r4]

end
end HyperCV
