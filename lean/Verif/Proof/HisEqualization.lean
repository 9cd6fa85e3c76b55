/- Lemmas for histogram equalisation. -/
import Verif.Model.HisEqualization
import Verif.Proof.Image
import Verif.Proof.Geometric
import Mathlib.Algebra.BigOperators.Intervals

namespace HyperCV

/-- number of the first `k` bytes equal to `v` -/
def countTo (f : Nat → UInt8) (v : Nat) : Nat → Nat
  | 0 => 0
  | k+1 => countTo f v k + (if (f k).toNat = v then 1 else 0)

theorem countTo_le (f : Nat → UInt8) (v k : Nat) : countTo f v k ≤ k := by
  induction k with
  | zero => exact Nat.le_refl _
  | succ k ih => rw [countTo]; split <;> omega

/-- the values computed in place: level `v` of the scaled cumulative histogram -/
def histLevel (h : Nat → Nat) (n : Nat) : Nat → Nat
  | 0 => h 0
  | v+1 => (h (v+1) + histLevel h n v) * 255 / n

theorem histCount_run {m : Mem} {d N : Nat} {f : Nat → UInt8} (hd : Holds m d N f) (hN : N ≤ 2147483647) :
    histCount d (N:Int) m = .ok (fun v : Int => if 0 ≤ v then (countTo f v.toNat N : Int) else 0, m) := by
  unfold histCount
  have h0 : (fun _ => 0 : Int → Int) = fun v : Int => if 0 ≤ v then (countTo f v.toNat 0 : Int) else 0 := by
    funext v; rw [countTo]; split <;> rfl
  rw [h0]
  refine forA_run (fun _ => m) (fun k (v : Int) => if 0 ≤ v then (countTo f v.toNat k : Int) else 0) ?_
  intro k hk
  rw [bind_ok (load_ok hd hk)]
  have hp : (0:Int) ≤ ival (f k) := by unfold ival; omega
  have hi : (ival (f k)).toNat = (f k).toNat := rfl
  have hc := countTo_le f (f k).toNat k
  beta_reduce
  rw [if_pos hp, hi]
  refine (bind_ok (ev_ok (CI.add_ok (by constructor <;> omega)) _)).trans ?_
  show Except.ok (_, m) = _
  congr 2
  funext v
  by_cases hv : v = ival (f k)
  · subst hv
    rw [if_pos rfl, if_pos hp, hi, countTo, if_pos rfl]; push_cast; rfl
  · rw [if_neg hv]
    by_cases hv0 : 0 ≤ v
    · rw [if_pos hv0, if_pos hv0, countTo, if_neg, Nat.add_zero]
      intro e
      apply hv
      unfold ival; omega
    · rw [if_neg hv0, if_neg hv0]

theorem histLevel_step {h : Nat → Nat} {N k : Nat} (hpos : 0 < N) (hN : N ≤ 2147483647) {m : Mem} (hh : ∀ v, h v ≤ N)
    {H : Int → Int} (h1 : H (1 + (k:Int)) = h (k+1)) (h2 : H (1 + (k:Int) - 1) = histLevel h N k)
    (hov : (h (k+1) + histLevel h N k) * 255 ≤ 2147483647) :
    (do
      let s ← ev (CI.lit (H (1 + (k:Int))) + CI.lit (H (1 + (k:Int) - 1)))
      let t ← ev (CI.lit s * CI.lit 255 / CI.lit N)
      pure fun v => if v = 1 + (k:Int) then t else H v : M (Int → Int)) m =
      .ok (fun v => if v = 1 + (k:Int) then (histLevel h N (k+1) : Int) else H v, m) := by
  rw [h1, h2]
  have e1 : (CI.lit (h (k+1) : Int) + CI.lit (histLevel h N k : Int) : CI) = CI.lit ((h (k+1) + histLevel h N k : Nat) : Int) := by
    rw [CI.add_ok (by constructor <;> omega)]; push_cast; rfl
  have e2 : (CI.lit ((h (k+1) + histLevel h N k : Nat) : Int) * CI.lit 255 / CI.lit (N:Int) : CI) = CI.lit (histLevel h N (k+1) : Int) := by
    rw [CI.mul_ok (by constructor <;> omega)]
    have hd : (((h (k+1) + histLevel h N k : Nat) : Int) * 255).tdiv N = (histLevel h N (k+1) : Int) := by
      rw [Int.tdiv_eq_ediv_of_nonneg (by omega), histLevel]; push_cast; rfl
    have hle : histLevel h N (k+1) ≤ (h (k+1) + histLevel h N k) * 255 := by
      rw [histLevel]; exact Nat.div_le_self _ _
    rw [CI.div_ok (by omega) (by rw [hd]; constructor <;> omega), hd]
  rw [bind_ok (ev_ok e1 _), bind_ok (ev_ok e2 _)]
  rfl

/-- the table while it is being computed -/
def histAt (h : Nat → Nat) (n k : Nat) (v : Int) : Int :=
  if 0 ≤ v then (if v.toNat ≤ k then (histLevel h n v.toNat : Int) else h v.toNat) else 0

theorem histAt_zero {h : Nat → Nat} {n : Nat} : (fun v => if 0 ≤ v then (h v.toNat : Int) else 0) = histAt h n 0 := by
  funext v
  unfold histAt
  by_cases hv : 0 ≤ v
  · rw [if_pos hv, if_pos hv]
    split
    · have : v.toNat = 0 := by omega
      rw [this]; rfl
    · rfl
  · rw [if_neg hv, if_neg hv]

theorem histAt_step {h : Nat → Nat} {N k : Nat} (hpos : 0 < N) (hN : N ≤ 2147483647) {m : Mem} (hh : ∀ v, h v ≤ N)
    (hov : (h (k+1) + histLevel h N k) * 255 ≤ 2147483647) :
    (do
      let s ← ev (CI.lit (histAt h N k (1 + (k:Int))) + CI.lit (histAt h N k (1 + (k:Int) - 1)))
      let t ← ev (CI.lit s * CI.lit 255 / CI.lit N)
      pure fun v => if v = 1 + (k:Int) then t else histAt h N k v : M (Int → Int)) m = .ok (histAt h N (k+1), m) := by
  have e1 : (1 + (k:Int)).toNat = k + 1 := by omega
  have e2 : (1 + (k:Int) - 1).toNat = k := by omega
  rw [histLevel_step (h := h) (H := histAt h N k) hpos hN hh (by
    unfold histAt; rw [if_pos (by omega), if_neg (by omega), e1]) (by
    unfold histAt; rw [if_pos (by omega), if_pos (by omega), e2]) hov]
  congr 2
  funext v
  by_cases hv : v = 1 + (k:Int)
  · rw [if_pos hv]
    subst hv
    unfold histAt
    rw [if_pos (by omega), if_pos (by omega), e1]
  · rw [if_neg hv]
    unfold histAt
    by_cases h0 : 0 ≤ v
    · rw [if_pos h0, if_pos h0]
      by_cases h3 : v.toNat ≤ k
      · rw [if_pos h3, if_pos (by omega)]
      · rw [if_neg h3, if_neg (by omega)]
    · rw [if_neg h0, if_neg h0]

theorem histAt_bad {h : Nat → Nat} {N k : Nat} {m : Mem}
    (hov : 2147483647 < (h (k+1) + histLevel h N k) * 255) :
    (do
      let s ← ev (CI.lit (histAt h N k (1 + (k:Int))) + CI.lit (histAt h N k (1 + (k:Int) - 1)))
      let t ← ev (CI.lit s * CI.lit 255 / CI.lit N)
      pure fun v => if v = 1 + (k:Int) then t else histAt h N k v : M (Int → Int)) m = .error (.ub .overflow) := by
  have e1 : (1 + (k:Int)).toNat = k + 1 := by omega
  have e2 : (1 + (k:Int) - 1).toNat = k := by omega
  have h1 : histAt h N k (1 + (k:Int)) = h (k+1) := by
    unfold histAt; rw [if_pos (by omega), if_neg (by omega), e1]
  have h2 : histAt h N k (1 + (k:Int) - 1) = histLevel h N k := by
    unfold histAt; rw [if_pos (by omega), if_pos (by omega), e2]
  rw [h1, h2]
  by_cases hs : h (k+1) + histLevel h N k ≤ 2147483647
  · rw [bind_ok (ev_ok (CI.add_ok (by constructor <;> omega)) _)]
    refine bind_err ?_
    rw [CI.mul_bad (by unfold CI.InR; omega)]
    rfl
  · refine bind_err ?_
    rw [CI.add_bad (by unfold CI.InR; omega)]
    rfl

theorem histCumulate_run {h : Nat → Nat} {N : Nat} (hpos : 0 < N) (hN : N ≤ 2147483647) {m : Mem} (hh : ∀ v, h v ≤ N)
    (hov : ∀ k, k < 255 → (h (k+1) + histLevel h N k) * 255 ≤ 2147483647) :
    histCumulate (N:Int) (histAt h N 0) m = .ok (histAt h N 255, m) :=
  forA_run_from (n := 255) (by decide) (fun _ => m) (histAt h N) fun k hk => histAt_step hpos hN hh (hov k hk)

/-- a loop that fails in iteration `k` -/
theorem forA_fail_from {σ : Type} {n k : Nat} {lo hi : Int} {body : Int → σ → M σ} {e : Err} (hn : hi = lo + (n : Int)) (hk : k < n)
    (F : Nat → Mem) (G : Nat → σ) (h : ∀ i, i < k → body (lo + (i : Int)) (G i) (F i) = .ok (G (i+1), F (i+1)))
    (he : body (lo + (k : Int)) (G k) (F k) = .error e) : forA lo hi (G 0) body (F 0) = .error e := by
  unfold forA
  have e1 : (hi - lo).toNat = n := by omega
  rw [e1]
  have key : ∀ r i, i + r = n → i ≤ k → forLoop body r (lo + (i:Int)) (G i) (F i) = .error e := by
    intro r
    induction r with
    | zero => intro i h1 h2; omega
    | succ r ih =>
      intro i h1 h2
      rw [forLoop]
      by_cases hik : i = k
      · subst hik; exact bind_err he
      · rw [bind_ok (h i (by omega))]
        have := ih (i+1) (by omega) (by omega)
        rwa [show lo + ((i+1 : Nat) : Int) = lo + (i:Int) + 1 by push_cast; ring] at this
  have := key n 0 (by omega) (by omega)
  simpa using this

theorem exists_least {P : Nat → Prop} (h : ∃ k, P k) : ∃ k, P k ∧ ∀ i, i < k → ¬ P i := by
  classical
  exact ⟨Nat.find h, Nat.find_spec h, fun i hi => Nat.find_min h hi⟩

theorem histCumulate_fail {h : Nat → Nat} {N : Nat} (hpos : 0 < N) (hN : N ≤ 2147483647) {m : Mem} (hh : ∀ v, h v ≤ N)
    (hov : ∃ k, k < 255 ∧ 2147483647 < (h (k+1) + histLevel h N k) * 255) :
    histCumulate (N:Int) (histAt h N 0) m = .error (.ub .overflow) := by
  obtain ⟨k, ⟨hk, hb⟩, hmin⟩ := exists_least hov
  have hn : (256:Int) = 1 + ((255:Nat):Int) := by norm_num
  have hgo : ∀ i, i < k → (h (i+1) + histLevel h N i) * 255 ≤ 2147483647 := by
    intro i hi
    have h1 : i < 255 := by omega
    exact Nat.le_of_not_lt fun hc => hmin i hi (And.intro h1 hc)
  exact forA_fail_from hn hk (fun _ => m) (histAt h N) (fun i hi => histAt_step hpos hN hh (hgo i hi)) (histAt_bad hb)

theorem his_front {m : Mem} {sp dp R C sd dd : Nat} {si di : Bool} {ch ch' dt E : Int} {f : Nat → UInt8}
    (s1 : m.sm sp = some ⟨R, C, 1, ch, 1, sd, si⟩) (d1 : m.sm dp = some ⟨R, C, dt, ch', E, dd, di⟩)
    (hs : Holds m sd (R * C) f) (hN : R * C ≤ 2147483647) :
    HisEqualization (some sp) (some dp) m = (do
      let hist ← histCumulate ((R * C : Nat) : Int) (histAt (fun v => countTo f v (R * C)) (R * C) 0)
      forI 0 ((R * C : Nat) : Int) fun i => do
        let p ← load sd i
        store dd i (uchar (hist (ival p)))) m := by
  unfold HisEqualization
  have x0 : (CI.lit (R:Int) * CI.lit (C:Int) : CI) = CI.lit ((R * C : Nat) : Int) := by
    rw [CI.mul_ok (by constructor <;> (push_cast at *; omega))]; push_cast; rfl
  have g1 : derefS (some sp) m = .ok (_, m) := getS_ok s1
  have g2 : derefS (some dp) m = .ok (_, m) := getS_ok d1
  rw [cassert_bind (by simp), bind_ok g1, bind_ok g2, cassert_bind (by simp),
    bind_ok (ev_ok x0 _), bind_ok (histCount_run hs hN),
    show (fun v : Int => if 0 ≤ v then (countTo f v.toNat (R * C) : Int) else 0) = histAt (fun v => countTo f v (R * C)) (R * C) 0 from histAt_zero (h := fun v => countTo f v (R * C))]

theorem his_fills {m : Mem} {sd dd N : Nat} {f : Nat → UInt8} {T : Int → Int} (hs : Holds m sd N f) (hne : sd ≠ dd) :
    Fills (forI 0 (N : Int) fun i => do
        let p ← load sd i
        store dd i (uchar (T (ival p)))) m dd N (fun p => uchar (T (ival (f p)))) (fun p => p < N) := by
  refine (Fills.loop (P := fun k p => p = k) fun k hk => ?_).congr (fun p _ => ⟨?_, fun h => ⟨p, h, rfl⟩⟩) (fun _ _ _ => rfl)
  · exact Fills.bind (fun g => load_ok (hs.put_ne hne) hk) (Fills.store hk rfl)
  · rintro ⟨k, h1, rfl⟩; exact h1

end HyperCV
