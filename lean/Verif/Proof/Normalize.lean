/- Execution of the normalisations. -/
import Verif.Model.Normalize
import Verif.Proof.LinearTension

namespace HyperCV
open Spec

/-- left fold over the first elements -/
def scanS {σ : Type} (f : σ → Nat → σ) (s0 : σ) : Nat → σ
  | 0 => s0
  | n+1 => f (scanS f s0 n) n

theorem scan_run {σ : Type} {m : Mem} {d w N n : Nat} {A : Nat → Nat} (h : HoldsN m d w N A) (hn : n ≤ N) (f : σ → Nat → σ) (s0 : σ) :
    (forA 0 (n:Int) s0 fun i s => do
      let b ← loadN w d i
      pure (f s b)) m = .ok (scanS (fun s k => f s (A k)) s0 n, m) :=
  forA_run (F := fun _ => m) (G := scanS (fun s k => f s (A k)) s0) (fun i hi => bind_ok (h.load (by omega)))

theorem normBits_lt {w : Nat} (hw : w = 1 ∨ w = 4) (r : UInt8) : normBits w r < 256 ^ w := by
  unfold normBits
  rcases hw with rfl | rfl
  · exact r.toNat_lt
  · exact f32_encode_lt (good_ofInt _ _)

theorem normBits_val {w : Nat} (r : UInt8) : (normVal w (normBits w r)).Is (r.toNat : ℚ) := by
  have hl := r.toNat_lt
  have h := is_ofInt (n := (r.toNat : Int)) (rep32_int (by rw [abs_le]; omega))
  unfold normBits normVal
  by_cases e : w = 1
  · rw [if_pos e, if_pos e]; exact_mod_cast h
  · rw [if_neg e, if_neg e, f32_dec_enc (good_ofInt _ _)]; exact_mod_cast h

/-- the first elements are new -/
def normNew (n : Nat) (new old : Nat → Nat) (i : Nat) : Nat := if i < n then new i else old i

theorem apply_run {m : Mem} {sd dd w N N' n : Nat} {A B : Nat → Nat} (hw : w = 1 ∨ w = 4) (hs : HoldsN m sd w N A) (hd : HoldsN m dd w N' B)
    (hn : n ≤ N) (hn' : n ≤ N') (hab : sd = dd → ∀ i, i < n → A i = B i) (g : FV → FV) :
    normApply w sd dd (n:Int) g m =
      .ok ((), m.putN dd w N' (normNew n (fun i => normBits w (saturate_cast_float2uchar (g (normVal w (A i))))) B)) := by
  set new : Nat → Nat := fun i => normBits w (saturate_cast_float2uchar (g (normVal w (A i)))) with hnew
  have fits : ∀ k i, i < N' → normNew k new B i < 256 ^ w := by
    intro k i hi
    unfold normNew
    split
    · exact normBits_lt hw _
    · exact hd.2 i hi
  have z : m.putN dd w N' (normNew 0 new B) = m := by
    refine (putN_congr m (b := B) ?_).trans hd.put_self
    intro i _
    exact if_neg (by omega)
  have := forI_run (n := n) (body := fun i => do
    let b ← loadN w sd i
    storeN w dd i (normBits w (saturate_cast_float2uchar (g (normVal w b))))) (fun k => m.putN dd w N' (normNew k new B)) (by
    intro k hk
    have hl : loadN w sd (k:Int) (m.putN dd w N' (normNew k new B)) = .ok (A k, m.putN dd w N' (normNew k new B)) := by
      by_cases e : sd = dd
      · have := (holdsN_putN m (h := dd) (fits k)).load (i := k) (by omega)
        rw [← e] at this ⊢
        rw [this]
        unfold normNew
        rw [if_neg (by omega), hab e k hk]
      · exact (hs.putN_ne e).load (by omega)
    rw [bind_ok hl, storeN_put (by omega)]
    refine congrArg (fun x => Except.ok ((), x)) (putN_congr m ?_)
    intro i hi
    have hb : normBits w (saturate_cast_float2uchar (g (normVal w (A k)))) = new k := rfl
    rw [Nat.mod_eq_of_lt (normBits_lt hw _), hb]
    unfold normNew
    by_cases e : i = k
    · rw [if_pos e, if_pos (by omega), e]
    · rw [if_neg e]
      by_cases l : i < k
      · rw [if_pos l, if_pos (by omega)]
      · rw [if_neg l, if_neg (by omega)])
  unfold normApply
  rw [z] at this
  exact this

/-- the value computed for an element; `none` for an unknown kind of norm -/
def normG (w n : Nat) (A : Nat → Nat) (alpha beta : FV) (t : Int) : Option (FV → FV) :=
  if t = 2 then some (normDiv alpha (scanS (fun s k => f32.add s (normAbs (normVal w (A k)))) (.fin false 0) n))
  else if t = 4 then some (normDivSqrt alpha (scanS (fun s k => f32.add s (normSq w (A k))) (.fin false 0) n))
  else if t = 1 then some (normDiv alpha (scanS (fun s k => if FV.lt s (normVal w (A k)) then normVal w (A k) else s) (.fin false 0) n))
  else if t = 32 then some (normStretch alpha beta (scanS (fun s k => mmStep s (normVal w (A k))) (.fin true (-1000000), .fin false 1000000) n))
  else none

theorem normalizeT_run {m : Mem} {p q sd dd w R C N N' : Nat} {A B : Nat → Nat} {dt dt' ch ch' E E' : Int} {si di : Bool} (hw : w = 1 ∨ w = 4)
    (s1 : m.sm p = some ⟨R, C, dt, ch, E, sd, si⟩) (d1 : m.sm q = some ⟨R, C, dt', ch', E', dd, di⟩)
    (hs : HoldsN m sd w N A) (hd : HoldsN m dd w N' B) (hn : R * C ≤ N) (hn' : R * C ≤ N') (hN : R * C ≤ 2147483647)
    (hab : sd = dd → ∀ i, i < R * C → A i = B i) (alpha beta : FV) (t : Int) :
    normalizeT w (some p) (some q) alpha beta t m =
      match normG w (R * C) A alpha beta t with
      | none => .ok ((), m)
      | some g => .ok ((), m.putN dd w N' (normNew (R * C) (fun i => normBits w (saturate_cast_float2uchar (g (normVal w (A i))))) B)) := by
  unfold normalizeT normG
  have x0 := size2_eval hN
  have g1 : derefS (some p) m = .ok (_, m) := getS_ok s1
  have g2 : derefS (some q) m = .ok (_, m) := getS_ok d1
  rw [cassert_bind (by simp), bind_ok g1, bind_ok g2, cassert_bind (by simp)]
  dsimp only
  by_cases h2 : t = 2
  · rw [if_pos h2, if_pos h2, bind_ok (ev_ok x0 _), bind_ok (show normL1 w sd _ m = _ from scan_run hs hn (fun s b => f32.add s (normAbs (normVal w b))) _)]
    exact apply_run hw hs hd hn hn' hab _
  rw [if_neg h2, if_neg h2]
  by_cases h4 : t = 4
  · rw [if_pos h4, if_pos h4, bind_ok (ev_ok x0 _), bind_ok (show normL2 w sd _ m = _ from scan_run hs hn (fun s b => f32.add s (normSq w b)) _)]
    exact apply_run hw hs hd hn hn' hab _
  rw [if_neg h4, if_neg h4]
  by_cases h1 : t = 1
  · rw [if_pos h1, if_pos h1, bind_ok (ev_ok x0 _),
      bind_ok (show normInf w sd _ m = _ from scan_run hs hn (fun s b => if FV.lt s (normVal w b) then normVal w b else s) _)]
    exact apply_run hw hs hd hn hn' hab _
  rw [if_neg h1, if_neg h1]
  by_cases h32 : t = 32
  · rw [if_pos h32, if_pos h32, bind_ok (ev_ok x0 _), bind_ok (show normMM w sd _ m = _ from scan_run hs hn (fun s b => mmStep s (normVal w b)) _)]
    exact apply_run hw hs hd hn hn' hab _
  rw [if_neg h32, if_neg h32]
  rfl

/-! ### Values -/

theorem sat_close {v : FV} {r E δ : ℚ} (hv : v.Is r) (h : |r - E| ≤ δ) (h0 : 0 ≤ E) (h1 : E ≤ 255) :
    |((saturate_cast_float2uchar v).toNat : ℚ) - E| ≤ 1 / 2 + δ := by
  have h2 := saturate_fin hv
  have h3 := (rne_spec r).1
  rw [abs_le] at h h3
  have h4 : ((saturate_cast_float2uchar v).toNat : ℚ) = ((clamp 0 255 (rne r) : ℤ) : ℚ) := by rw [← h2]; rfl
  rw [h4, abs_le]
  unfold clamp
  split
  · next hc =>
    have : ((rne r : ℤ) : ℚ) ≤ -1 := by exact_mod_cast (by omega : rne r ≤ -1)
    constructor <;> push_cast <;> linarith [h.1, h.2, h3.1, h3.2]
  · split
    · next hc =>
      have : (256:ℚ) ≤ ((rne r : ℤ) : ℚ) := by exact_mod_cast (by omega : 256 ≤ rne r)
      constructor <;> push_cast <;> linarith [h.1, h.2, h3.1, h3.2]
    · constructor <;> linarith [h.1, h.2, h3.1, h3.2]

theorem sat_mono {u v : FV} {x y : ℚ} (hu : u.Is x) (hv : v.Is y) (h : x ≤ y) :
    saturate_cast_float2uchar u ≤ saturate_cast_float2uchar v := by
  have h1 := saturate_fin hu
  have h2 := saturate_fin hv
  have h3 := rne_mono h
  rw [UInt8.le_iff_toNat_le]
  have : clamp 0 255 (rne x) ≤ clamp 0 255 (rne y) := by unfold clamp; split_ifs <;> omega
  omega

theorem sat_nan : saturate_cast_float2uchar .nan = 0 := by decide

theorem grep_two {k : ℤ} (h : -149 ≤ k) : f32.GRep (2 ^ k) := grep_pow (by exact h)

/-- the exact value of the stretch with roundings -/
def stretchR (lo hi mn mx x : ℚ) : ℚ := f32.rv (f32.rv (f32.rv (f32.rv (x - mn) * f32.rv (hi - lo)) / f32.rv (mx - mn)) + lo)

theorem stretchR_mono {lo hi mn mx x y : ℚ} (h : lo ≤ hi) (hm : mn ≤ mx) (hx : x ≤ y) : stretchR lo hi mn mx x ≤ stretchR lo hi mn mx y := by
  unfold stretchR
  have h1 : f32.rv (x - mn) ≤ f32.rv (y - mn) := rv_mono (by linarith)
  have h2 : 0 ≤ f32.rv (hi - lo) := rv_nonneg (by linarith)
  have h3 : 0 ≤ f32.rv (mx - mn) := rv_nonneg (by linarith)
  apply rv_mono
  have := rv_mono (F := f32) (div_le_div_of_nonneg_right (rv_mono (F := f32) (mul_le_mul_of_nonneg_right h1 h2)) h3)
  linarith

/-- the stretch as a rational number -/
theorem stretch_is {alpha beta v : FV} {s : FV × FV} {α β x mn mx : ℚ} (hα : alpha.Is α) (hβ : beta.Is β) (hv : v.Is x) (h1 : s.1.Is mx) (h2 : s.2.Is mn)
    (a0 : 0 ≤ α) (a1 : α ≤ 255) (b0 : 0 ≤ β) (b1 : β ≤ 255) (hx : mn ≤ x) (hx' : x ≤ mx) (l0 : -1000000 ≤ mn) (l1 : mx ≤ 1000000)
    (hd : 1 / 2 ^ 60 ≤ mx - mn) :
    (normStretch alpha beta s v).Is (stretchR (min α β) (max α β) mn mx x) ∧
      |stretchR (min α β) (max α β) mn mx x - (min α β + (x - mn) * (max α β - min α β) / (mx - mn))| ≤ 1 / 1000 := by
  have hlo : (if FV.lt beta alpha then beta else alpha).Is (min α β) := by
    rw [lt_is hβ hα]
    by_cases e : β < α
    · rw [if_pos (decide_eq_true e), min_eq_right e.le]; exact hβ
    · rw [if_neg (by simpa using e), min_eq_left (not_lt.1 e)]; exact hα
  have hhi : (if FV.lt beta alpha then alpha else beta).Is (max α β) := by
    rw [lt_is hβ hα]
    by_cases e : β < α
    · rw [if_pos (decide_eq_true e), max_eq_left e.le]; exact hα
    · rw [if_neg (by simpa using e), max_eq_right (not_lt.1 e)]; exact hβ
  unfold normStretch
  dsimp only
  have lo0 : 0 ≤ min α β := le_min a0 b0
  have lo1 : min α β ≤ 255 := le_trans (min_le_left _ _) a1
  have hi1 : max α β ≤ 255 := max_le a1 b1
  have lohi : min α β ≤ max α β := le_trans (min_le_left _ _) (le_max_left _ _)
  generalize min α β = lo at *
  generalize max α β = hi at *
  generalize (if FV.lt beta alpha then beta else alpha) = fa at *
  generalize (if FV.lt beta alpha then alpha else beta) = fb at *
  unfold stretchR
  have g21 : f32.GRep (2097152:ℚ) := by
    have := grep_two (k := 21) (by norm_num); norm_num at this; exact this
  have g30 : f32.GRep (1073741824:ℚ) := by
    have := grep_two (k := 30) (by norm_num); norm_num at this; exact this
  have g9 : f32.GRep (512:ℚ) := by
    have := grep_two (k := 9) (by norm_num); norm_num at this; exact this
  have g10 : f32.GRep (1024:ℚ) := by
    have := grep_two (k := 10) (by norm_num); norm_num at this; exact this
  -- the difference to the minimum
  have P0 : 0 ≤ x - mn := by linarith
  have e1b : |f32.rv (x - mn)| ≤ 2097152 := rv_abs_le g21 (by rw [abs_of_nonneg P0]; linarith)
  have i1 := rnd_sub (F := f32) hv h2 (lt_max e1b (by norm_num))
  have Db : |f32.rv (hi - lo)| ≤ 512 := rv_abs_le g9 (by rw [abs_of_nonneg (by linarith)]; linarith)
  have i2 := rnd_sub (F := f32) hhi hlo (lt_max Db (by norm_num))
  have Δb : |f32.rv (mx - mn)| ≤ 2097152 := rv_abs_le g21 (by rw [abs_of_nonneg (by linarith)]; linarith)
  have i3 := rnd_sub (F := f32) h1 h2 (lt_max Δb (by norm_num))
  have q1 := rv_abs (x - mn)
  have q2 := rv_abs (hi - lo)
  have q3 := rv_abs (mx - mn)
  have m1 : f32.rv (x - mn) ≤ f32.rv (mx - mn) := rv_mono (by linarith)
  have n1 : 0 ≤ f32.rv (x - mn) := rv_nonneg P0
  have n2 : 0 ≤ f32.rv (hi - lo) := rv_nonneg (by linarith)
  rw [abs_of_nonneg P0] at q1
  rw [abs_of_nonneg (by linarith : 0 ≤ hi - lo)] at q2
  rw [abs_of_nonneg (by linarith : 0 ≤ mx - mn)] at q3
  generalize f32.rv (x - mn) = e1 at *
  generalize f32.rv (hi - lo) = D at *
  generalize f32.rv (mx - mn) = Δ' at *
  generalize hP : x - mn = P at *
  generalize hΔ : mx - mn = Δ at *
  have PΔ : P ≤ Δ := by linarith
  generalize hW : hi - lo = W at *
  have W1 : W ≤ 255 := by linarith
  have W0 : 0 ≤ W := by linarith
  have Δpos : 0 < Δ := lt_of_lt_of_le (by norm_num) hd
  have η1 : (1:ℚ) / 2 ^ 100 ≤ Δ / 2 ^ 40 := by
    rw [le_div_iff₀ (by norm_num)]
    exact le_trans (by norm_num) hd
  have r1 : |e1 - P| ≤ Δ / 2 ^ 23 := by
    refine le_trans q1 ?_
    have : P / 2 ^ 24 ≤ Δ / 2 ^ 24 := div_le_div_of_nonneg_right PΔ (by norm_num)
    have h23 : Δ / 2 ^ 23 = Δ / 2 ^ 24 + Δ / 2 ^ 24 := by ring
    have h40 : Δ / 2 ^ 40 ≤ Δ / 2 ^ 24 := div_le_div_of_nonneg_left Δpos.le (by norm_num) (by norm_num)
    linarith
  have r3 : |Δ' - Δ| ≤ Δ / 2 ^ 23 := by
    refine le_trans q3 ?_
    have h23 : Δ / 2 ^ 23 = Δ / 2 ^ 24 + Δ / 2 ^ 24 := by ring
    have h40 : Δ / 2 ^ 40 ≤ Δ / 2 ^ 24 := div_le_div_of_nonneg_left Δpos.le (by norm_num) (by norm_num)
    linarith
  have r2 : |D - W| ≤ 1 / 60000 := by
    refine le_trans q2 ?_
    have : W / 2 ^ 24 ≤ 255 / 2 ^ 24 := div_le_div_of_nonneg_right W1 (by norm_num)
    have : (255:ℚ) / 2 ^ 24 + 1 / 2 ^ 100 ≤ 1 / 60000 := by norm_num
    linarith
  have D1 : D ≤ 256 := by have := (abs_le.1 r2).2; linarith
  have Δhalf : Δ / 2 ≤ Δ' := by
    have := (abs_le.1 r3).1
    have h23 : Δ / 2 ^ 23 ≤ Δ / 2 := div_le_div_of_nonneg_left Δpos.le (by norm_num) (by norm_num)
    linarith
  have Δ'pos : 0 < Δ' := by linarith
  have eD0 : 0 ≤ e1 * D := mul_nonneg n1 n2
  have eDb : e1 * D ≤ Δ' * D := mul_le_mul_of_nonneg_right m1 n2
  have tb : |f32.rv (e1 * D)| ≤ 1073741824 := by
    apply rv_abs_le g30
    rw [abs_of_nonneg eD0]
    have : Δ' * D ≤ 2097152 * 512 := mul_le_mul (abs_le.1 Δb).2 (abs_le.1 Db).2 n2 (by norm_num)
    linarith
  have i4 := rnd_mul (F := f32) i1 i2 (lt_max tb (by norm_num))
  have q4 := rv_abs (e1 * D)
  rw [abs_of_nonneg eD0] at q4
  have n4 : 0 ≤ f32.rv (e1 * D) := rv_nonneg eD0
  generalize f32.rv (e1 * D) = t at *
  -- the quotient
  have ρ1 : e1 / Δ' ≤ 1 := by rw [div_le_one Δ'pos]; exact m1
  have ρ0 : 0 ≤ e1 / Δ' := div_nonneg n1 Δ'pos.le
  have ηΔ : (1:ℚ) / 2 ^ 100 / Δ' ≤ 1 / 2 ^ 39 := by
    rw [div_le_iff₀ Δ'pos]
    have : Δ / 2 ^ 40 ≤ 1 / 2 ^ 39 * Δ' := by
      have : 1 / 2 ^ 39 * (Δ / 2) ≤ 1 / 2 ^ 39 * Δ' := mul_le_mul_of_nonneg_left Δhalf (by norm_num)
      have h : 1 / 2 ^ 39 * (Δ / 2) = Δ / 2 ^ 40 := by ring
      linarith
    linarith
  have ρD : e1 / Δ' * D ≤ 256 := by
    have : e1 / Δ' * D ≤ 1 * D := mul_le_mul_of_nonneg_right ρ1 n2
    linarith
  have ρD0 : 0 ≤ e1 / Δ' * D := mul_nonneg ρ0 n2
  have r4 : |t / Δ' - e1 / Δ' * D| ≤ 1 / 60000 := by
    have h : t / Δ' - e1 / Δ' * D = (t - e1 * D) / Δ' := by ring
    rw [h, abs_div, abs_of_pos Δ'pos]
    have h2 : |t - e1 * D| / Δ' ≤ (e1 * D / 2 ^ 24 + 1 / 2 ^ 100) / Δ' := div_le_div_of_nonneg_right q4 Δ'pos.le
    have h3 : (e1 * D / 2 ^ 24 + 1 / 2 ^ 100) / Δ' = e1 / Δ' * D / 2 ^ 24 + 1 / 2 ^ 100 / Δ' := by ring
    have h4 : e1 / Δ' * D / 2 ^ 24 ≤ 256 / 2 ^ 24 := div_le_div_of_nonneg_right ρD (by norm_num)
    have h5 : (256:ℚ) / 2 ^ 24 + 1 / 2 ^ 39 ≤ 1 / 60000 := by norm_num
    linarith
  have tΔ0 : 0 ≤ t / Δ' := div_nonneg n4 Δ'pos.le
  have tΔ : t / Δ' ≤ 512 := by have := (abs_le.1 r4).2; linarith
  have ub : |f32.rv (t / Δ')| ≤ 512 := rv_abs_le g9 (by rw [abs_of_nonneg tΔ0]; exact tΔ)
  have i5 := rnd_div (F := f32) i4 i3 Δ'pos.ne' (lt_max ub (by norm_num))
  have q5 := rv_abs (t / Δ')
  rw [abs_of_nonneg tΔ0] at q5
  have n5 : 0 ≤ f32.rv (t / Δ') := rv_nonneg tΔ0
  generalize f32.rv (t / Δ') = u at *
  have r5 : |u - t / Δ'| ≤ 1 / 30000 := by
    refine le_trans q5 ?_
    have : t / Δ' / 2 ^ 24 ≤ 512 / 2 ^ 24 := div_le_div_of_nonneg_right tΔ (by norm_num)
    have : (512:ℚ) / 2 ^ 24 + 1 / 2 ^ 100 ≤ 1 / 30000 := by norm_num
    linarith
  have u1 : u ≤ 512 := (abs_le.1 ub).2
  have rb : |f32.rv (u + lo)| ≤ 1024 := rv_abs_le g10 (by rw [abs_of_nonneg (by linarith)]; linarith)
  have i6 := rnd_add (F := f32) i5 hlo (lt_max rb (by norm_num))
  refine ⟨i6, ?_⟩
  have q6 := rv_abs (u + lo)
  rw [abs_of_nonneg (by linarith : 0 ≤ u + lo)] at q6
  generalize f32.rv (u + lo) = r at *
  have r6 : |r - (u + lo)| ≤ 1 / 15000 := by
    refine le_trans q6 ?_
    have : (u + lo) / 2 ^ 24 ≤ 1024 / 2 ^ 24 := div_le_div_of_nonneg_right (by linarith) (by norm_num)
    have : (1024:ℚ) / 2 ^ 24 + 1 / 2 ^ 100 ≤ 1 / 15000 := by norm_num
    linarith
  -- the ratios
  have ΔΔ' : Δ / Δ' ≤ 2 := by rw [div_le_iff₀ Δ'pos]; linarith
  have rρ : |e1 / Δ' - P / Δ| ≤ 1 / 2 ^ 21 := by
    have h : e1 / Δ' - P / Δ = (e1 - P) / Δ' + P / Δ * ((Δ - Δ') / Δ') := by
      field_simp; ring
    have h1 : |(e1 - P) / Δ'| ≤ 1 / 2 ^ 22 := by
      rw [abs_div, abs_of_pos Δ'pos]
      have : |e1 - P| / Δ' ≤ Δ / 2 ^ 23 / Δ' := div_le_div_of_nonneg_right r1 Δ'pos.le
      have h2 : Δ / 2 ^ 23 / Δ' = Δ / Δ' / 2 ^ 23 := by ring
      have h3 : Δ / Δ' / 2 ^ 23 ≤ 2 / 2 ^ 23 := div_le_div_of_nonneg_right ΔΔ' (by norm_num)
      have h4 : (2:ℚ) / 2 ^ 23 = 1 / 2 ^ 22 := by norm_num
      linarith
    have h2 : |P / Δ * ((Δ - Δ') / Δ')| ≤ 1 / 2 ^ 22 := by
      rw [abs_mul, abs_of_nonneg (div_nonneg P0 Δpos.le), abs_div, abs_of_pos Δ'pos, abs_sub_comm]
      have a1 : P / Δ ≤ 1 := by rw [div_le_one Δpos]; exact PΔ
      have : |Δ' - Δ| / Δ' ≤ Δ / 2 ^ 23 / Δ' := div_le_div_of_nonneg_right r3 Δ'pos.le
      have h2 : Δ / 2 ^ 23 / Δ' = Δ / Δ' / 2 ^ 23 := by ring
      have h3 : Δ / Δ' / 2 ^ 23 ≤ 2 / 2 ^ 23 := div_le_div_of_nonneg_right ΔΔ' (by norm_num)
      have h4 : (2:ℚ) / 2 ^ 23 = 1 / 2 ^ 22 := by norm_num
      have h5 : 0 ≤ |Δ' - Δ| / Δ' := by positivity
      calc P / Δ * (|Δ' - Δ| / Δ') ≤ 1 * (|Δ' - Δ| / Δ') := mul_le_mul_of_nonneg_right a1 h5
        _ ≤ 1 / 2 ^ 22 := by linarith
    rw [h]
    refine le_trans (abs_add_le _ _) ?_
    have : (1:ℚ) / 2 ^ 22 + 1 / 2 ^ 22 = 1 / 2 ^ 21 := by norm_num
    linarith
  have r7 : |e1 / Δ' * D - P / Δ * W| ≤ 1 / 6000 := by
    have h : e1 / Δ' * D - P / Δ * W = (e1 / Δ' - P / Δ) * D + P / Δ * (D - W) := by ring
    rw [h]
    refine le_trans (abs_add_le _ _) ?_
    rw [abs_mul, abs_mul, abs_of_nonneg n2, abs_of_nonneg (div_nonneg P0 Δpos.le)]
    have a1 : P / Δ ≤ 1 := by rw [div_le_one Δpos]; exact PΔ
    have b1 : |e1 / Δ' - P / Δ| * D ≤ 1 / 2 ^ 21 * 256 := mul_le_mul rρ D1 n2 (by norm_num)
    have b2 : P / Δ * |D - W| ≤ 1 * (1 / 60000) := mul_le_mul a1 r2 (abs_nonneg _) (by norm_num)
    have : (1:ℚ) / 2 ^ 21 * 256 + 1 * (1 / 60000) ≤ 1 / 6000 := by norm_num
    linarith
  have hE : P * W / Δ = P / Δ * W := by ring
  rw [hE]
  rw [abs_le] at *
  constructor <;> linarith [r4.1, r4.2, r5.1, r5.2, r6.1, r6.2, r7.1, r7.2]

/-- the quotient by a norm as a rational number -/
theorem normDiv_is {alpha v norm : FV} {α x S : ℚ} (hα : alpha.Is α) (hv : v.Is x) (hn : norm.Is S) (a0 : 0 ≤ α) (a1 : α ≤ 255) (x0 : 0 ≤ x) (x1 : x ≤ S)
    (s0 : 1 / 2 ^ 60 ≤ S) (s1 : S ≤ 2 ^ 100) :
    (normDiv alpha norm v).Is (f32.rv (f32.rv (x * α) / S)) ∧ |f32.rv (f32.rv (x * α) / S) - x * α / S| ≤ 1 / 1000 := by
  have Spos : 0 < S := lt_of_lt_of_le (by norm_num) s0
  have p0 : 0 ≤ x * α := mul_nonneg x0 a0
  have g110 : f32.GRep ((2:ℚ) ^ (110 : ℤ)) := grep_two (by norm_num)
  have g9 : f32.GRep (512:ℚ) := by
    have := grep_two (k := 9) (by norm_num); norm_num at this; exact this
  have tb : |f32.rv (x * α)| ≤ (2:ℚ) ^ (110 : ℤ) := by
    apply rv_abs_le g110
    rw [abs_of_nonneg p0]
    have : x * α ≤ 2 ^ 100 * 255 := mul_le_mul (le_trans x1 s1) a1 a0 (by positivity)
    refine le_trans this ?_
    norm_num
  have i1 := rnd_mul (F := f32) hv hα (lt_max tb (by norm_num))
  have q1 := rv_abs (x * α)
  rw [abs_of_nonneg p0] at q1
  have n1 : 0 ≤ f32.rv (x * α) := rv_nonneg p0
  generalize f32.rv (x * α) = t at *
  have ρ1 : x / S ≤ 1 := by rw [div_le_one Spos]; exact x1
  have ρ0 : 0 ≤ x / S := div_nonneg x0 Spos.le
  have ηS : (1:ℚ) / 2 ^ 100 / S ≤ 1 / 2 ^ 40 := by
    rw [div_le_iff₀ Spos]
    refine le_trans ?_ (mul_le_mul_of_nonneg_left s0 (by norm_num))
    norm_num
  have e0 : x * α / S = x / S * α := by ring
  have b0 : x / S * α ≤ 255 := by
    have : x / S * α ≤ 1 * 255 := mul_le_mul ρ1 a1 a0 (by norm_num)
    linarith
  have c0 : 0 ≤ x / S * α := mul_nonneg ρ0 a0
  have r1 : |t / S - x / S * α| ≤ 1 / 30000 := by
    have h : t / S - x / S * α = (t - x * α) / S := by ring
    rw [h, abs_div, abs_of_pos Spos]
    have h2 : |t - x * α| / S ≤ (x * α / 2 ^ 24 + 1 / 2 ^ 100) / S := div_le_div_of_nonneg_right q1 Spos.le
    have h3 : (x * α / 2 ^ 24 + 1 / 2 ^ 100) / S = x / S * α / 2 ^ 24 + 1 / 2 ^ 100 / S := by ring
    have h4 : x / S * α / 2 ^ 24 ≤ 255 / 2 ^ 24 := div_le_div_of_nonneg_right b0 (by norm_num)
    have h5 : (255:ℚ) / 2 ^ 24 + 1 / 2 ^ 40 ≤ 1 / 30000 := by norm_num
    linarith
  have tS0 : 0 ≤ t / S := div_nonneg n1 Spos.le
  have tS : t / S ≤ 512 := by have := (abs_le.1 r1).2; linarith
  have ub : |f32.rv (t / S)| ≤ 512 := rv_abs_le g9 (by rw [abs_of_nonneg tS0]; exact tS)
  have i2 := rnd_div (F := f32) i1 hn Spos.ne' (lt_max ub (by norm_num))
  refine ⟨i2, ?_⟩
  have q2 := rv_abs (t / S)
  rw [abs_of_nonneg tS0] at q2
  have r2 : |f32.rv (t / S) - t / S| ≤ 1 / 30000 := by
    refine le_trans q2 ?_
    have : t / S / 2 ^ 24 ≤ 512 / 2 ^ 24 := div_le_div_of_nonneg_right tS (by norm_num)
    have : (512:ℚ) / 2 ^ 24 + 1 / 2 ^ 100 ≤ 1 / 30000 := by norm_num
    linarith
  rw [e0]
  rw [abs_le] at *
  constructor <;> linarith [r1.1, r1.2, r2.1, r2.2]

theorem sat_close_real {v : FV} {r : ℚ} {E δ : ℝ} (hv : v.Is r) (h : |(r:ℝ) - E| ≤ δ) (h0 : 0 ≤ E) (h1 : E ≤ 255) :
    |((saturate_cast_float2uchar v).toNat : ℝ) - E| ≤ 1 / 2 + δ := by
  have h2 := saturate_fin hv
  have h3 := (rne_spec r).1
  rw [abs_le] at h h3
  have k1 : -(1/2) ≤ (r:ℝ) - ((rne r : ℤ) : ℝ) := by have := (Rat.cast_le (K := ℝ)).2 h3.1; push_cast at this; linarith
  have k2 : (r:ℝ) - ((rne r : ℤ) : ℝ) ≤ 1/2 := by have := (Rat.cast_le (K := ℝ)).2 h3.2; push_cast at this; linarith
  have h4 : ((saturate_cast_float2uchar v).toNat : ℝ) = ((clamp 0 255 (rne r) : ℤ) : ℝ) := by rw [← h2]; rfl
  rw [h4, abs_le]
  unfold clamp
  split
  · next hc =>
    have : ((rne r : ℤ) : ℝ) ≤ -1 := by exact_mod_cast (by omega : rne r ≤ -1)
    constructor <;> push_cast <;> linarith [h.1, h.2]
  · split
    · next hc =>
      have : (256:ℝ) ≤ ((rne r : ℤ) : ℝ) := by exact_mod_cast (by omega : 256 ≤ rne r)
      constructor <;> push_cast <;> linarith [h.1, h.2]
    · constructor <;> linarith [h.1, h.2]

theorem grep_wide {q : ℚ} (h : f32.GRep q) : f64.GRep q := by
  obtain ⟨n, e, h1, h2, h3⟩ := h
  refine ⟨n, e, h1, le_trans h2 (by decide), le_trans (by decide) h3⟩

theorem lt_max64 {q b : ℚ} (h : |q| ≤ b) (hb : b ≤ 2 ^ 127) : |q| < 2 ^ (2 ^ (f64.w - 1)) := by
  refine lt_of_le_of_lt (le_trans h hb) ?_
  exact pow_lt_pow_right₀ (by norm_num) (by decide)

theorem rv64_small {q : ℚ} (h : |q| ≤ 512) : |f64.rv q - q| ≤ 1 / 2 ^ 43 := by
  by_cases e : q = 0
  · rw [e, rv_zero]; norm_num
  refine le_trans (rv_err f64 q) ?_
  have h1 : f64.ulpExp q ≤ -43 := ulpExp_le e (lt_of_le_of_lt h (by norm_num [f64])) (by decide)
  have h2 : (2:ℚ) ^ (f64.ulpExp q) ≤ 2 ^ (-43 : ℤ) := zpow_le_zpow_right₀ (by norm_num) h1
  have h3 : (2:ℚ) ^ (-43 : ℤ) / 2 ≤ 1 / 2 ^ 43 := by norm_num
  exact le_trans (div_le_div_of_nonneg_right h2 (by norm_num)) h3

/-- the quotient by a square root -/
theorem normDivSqrt_is {alpha v norm : FV} {α x S : ℚ} (hα : alpha.Is α) (hv : v.Is x) (hn : norm.Is S) (a0 : 0 ≤ α) (a1 : α ≤ 255) (x0 : 0 ≤ x)
    (x1 : x * x ≤ S) (s0 : 1 ≤ S) (s1 : S ≤ 2 ^ 60) (hS : f32.GRep S) :
    ∃ r : ℚ, (normDivSqrt alpha norm v).Is r ∧ |(r:ℝ) - x * α / Real.sqrt S| ≤ 1 / 1000 := by
  have Spos : (0:ℚ) < S := by linarith
  have p0 : 0 ≤ x * α := mul_nonneg x0 a0
  have xb : x ≤ 2 ^ 60 := by
    by_contra hc
    push Not at hc
    have : (2:ℚ) ^ 60 * 2 ^ 60 < x * x := mul_lt_mul'' hc hc (by positivity) (by positivity)
    have : (2:ℚ) ^ 60 ≤ 2 ^ 60 * 2 ^ 60 := by norm_num
    linarith
  have g70 : f32.GRep ((2:ℚ) ^ (70 : ℤ)) := grep_two (by norm_num)
  have tb : |f32.rv (x * α)| ≤ (2:ℚ) ^ (70 : ℤ) := by
    apply rv_abs_le g70
    rw [abs_of_nonneg p0]
    have : x * α ≤ 2 ^ 60 * 255 := mul_le_mul xb a1 a0 (by positivity)
    refine le_trans this ?_
    norm_num
  have i1 := rnd_mul (F := f32) hv hα (lt_max tb (by norm_num))
  have q1 := rv_abs (x * α)
  rw [abs_of_nonneg p0] at q1
  have n1 : 0 ≤ f32.rv (x * α) := rv_nonneg p0
  have t64 : f64.rv (f32.rv (x * α)) = f32.rv (x * α) := rv_grep_self (grep_wide (rv_grep f32 _))
  generalize f32.rv (x * α) = t at *
  have i2 := rnd_conv (F := f64) i1 (lt_max64 (b := 2 ^ (70:ℤ)) (by rw [t64]; exact tb) (by norm_num))
  rw [t64] at i2
  have S64 : f64.rv S = S := rv_grep_self (grep_wide hS)
  have i3 := rnd_conv (F := f64) hn (lt_max64 (b := 2 ^ 60) (by rw [S64, abs_of_pos Spos]; exact s1) (by norm_num))
  rw [S64] at i3
  obtain ⟨z, hz⟩ := i3
  obtain ⟨r, hr, er⟩ := sqrt_err (F := f64) (s := z) Spos (by
    have : (0:ℤ) ≤ Int.log 2 S := by
      rw [← Int.zpow_le_iff_le_log (by norm_num) Spos]; simpa using s0
    have h : f64.emin + f64.t ≤ 0 := by decide
    omega)
  have hS1 : (1:ℝ) ≤ S := by exact_mod_cast s0
  have hq1 : (1:ℝ) ≤ Real.sqrt S := by rw [Real.one_le_sqrt]; exact hS1
  have hxq : (x:ℝ) ≤ Real.sqrt S := by
    apply Real.le_sqrt_of_sq_le
    have := (Rat.cast_le (K := ℝ)).2 x1
    push_cast at this
    rw [sq]; exact this
  have hx0 : (0:ℝ) ≤ x := by exact_mod_cast x0
  have ha0 : (0:ℝ) ≤ α := by exact_mod_cast a0
  have ha1 : (α:ℝ) ≤ 255 := by exact_mod_cast a1
  have ht0 : (0:ℝ) ≤ t := by exact_mod_cast n1
  have f53 : f64.t + 1 = 53 := rfl
  rw [f53] at er
  generalize hQ : Real.sqrt (S:ℝ) = Q at *
  have rlow : Q / 2 ≤ (r:ℝ) := by
    have := (abs_le.1 er).1
    have h : Q / 2 ^ 53 ≤ Q / 2 := div_le_div_of_nonneg_left (by linarith) (by norm_num) (by norm_num)
    linarith
  have rpos : (0:ℝ) < r := by linarith
  have rpos' : (0:ℚ) < r := by exact_mod_cast rpos
  have Qpos : 0 < Q := by linarith
  have k1 : |(t:ℝ) - x * α| ≤ x * α / 2 ^ 24 + 1 / 2 ^ 100 := by
    have := (Rat.cast_le (K := ℝ)).2 q1
    push_cast at this
    exact this
  have hρ : (x:ℝ) / Q ≤ 1 := by rw [div_le_one Qpos]; exact hxq
  have hρ0 : 0 ≤ (x:ℝ) / Q := div_nonneg hx0 Qpos.le
  have hρα : (x:ℝ) / Q * α ≤ 255 := by
    have : (x:ℝ) / Q * α ≤ 1 * 255 := mul_le_mul hρ ha1 ha0 (by norm_num)
    linarith
  have c1 : |(t:ℝ) / Q - x / Q * α| ≤ 1 / 30000 := by
    have h : (t:ℝ) / Q - x / Q * α = (t - x * α) / Q := by ring
    rw [h, abs_div, abs_of_pos Qpos]
    have h2 : |(t:ℝ) - x * α| / Q ≤ (x * α / 2 ^ 24 + 1 / 2 ^ 100) / Q := div_le_div_of_nonneg_right k1 Qpos.le
    have h3 : ((x:ℝ) * α / 2 ^ 24 + 1 / 2 ^ 100) / Q = x / Q * α / 2 ^ 24 + 1 / 2 ^ 100 / Q := by ring
    have h4 : (x:ℝ) / Q * α / 2 ^ 24 ≤ 255 / 2 ^ 24 := div_le_div_of_nonneg_right hρα (by norm_num)
    have h6 : (1:ℝ) / 2 ^ 100 / Q ≤ 1 / 2 ^ 100 := div_le_self (by positivity) hq1
    have h5 : (255:ℝ) / 2 ^ 24 + 1 / 2 ^ 100 ≤ 1 / 30000 := by norm_num
    linarith
  have tQ : (t:ℝ) / Q ≤ 256 := by have := (abs_le.1 c1).2; linarith
  have tQ0 : 0 ≤ (t:ℝ) / Q := div_nonneg ht0 Qpos.le
  have c2 : |(t:ℝ) / r - t / Q| ≤ 1 / 30000 := by
    have h : (t:ℝ) / r - t / Q = t / Q * ((Q - r) / r) := by field_simp
    rw [h, abs_mul, abs_of_nonneg tQ0, abs_div, abs_of_pos rpos, abs_sub_comm]
    have h2 : |(r:ℝ) - Q| / r ≤ Q / 2 ^ 53 / r := div_le_div_of_nonneg_right er rpos.le
    have h3 : Q / 2 ^ 53 / r = Q / r / 2 ^ 53 := by ring
    have h4 : Q / r ≤ 2 := by rw [div_le_iff₀ rpos]; linarith
    have h5 : Q / r / 2 ^ 53 ≤ 2 / 2 ^ 53 := div_le_div_of_nonneg_right h4 (by norm_num)
    have h6 : 0 ≤ |(r:ℝ) - Q| / r := by positivity
    calc (t:ℝ) / Q * (|(r:ℝ) - Q| / r) ≤ 256 * (2 / 2 ^ 53) := mul_le_mul tQ (by linarith) h6 (by norm_num)
      _ ≤ 1 / 30000 := by norm_num
  have tr0 : 0 ≤ t / r := div_nonneg n1 rpos'.le
  have tr : t / r ≤ 512 := by
    have : (t:ℝ) / r ≤ 512 := by have := (abs_le.1 c2).2; linarith
    exact_mod_cast this
  have s5 := rv64_small (q := t / r) (by rw [abs_of_nonneg tr0]; exact tr)
  have ub : |f64.rv (t / r)| ≤ 513 := by
    rw [abs_le] at s5 ⊢
    have : (1:ℚ) / 2 ^ 43 ≤ 1 := by norm_num
    constructor <;> linarith [s5.1, s5.2]
  have i5 := rnd_div (F := f64) i2 (⟨false, rfl⟩ : (FV.fin false r).Is r) rpos'.ne' (lt_max64 ub (by norm_num))
  have g10 : f32.GRep (1024:ℚ) := by
    have := grep_two (k := 10) (by norm_num); norm_num at this; exact this
  have ub2 : |f32.rv (f64.rv (t / r))| ≤ 1024 := rv_abs_le g10 (le_trans ub (by norm_num))
  have i6 := rnd_conv (F := f32) i5 (lt_max ub2 (by norm_num))
  have q6 := rv_abs (f64.rv (t / r))
  generalize f64.rv (t / r) = u at *
  have r6 : |f32.rv u - u| ≤ 1 / 30000 := by
    refine le_trans q6 ?_
    have : |u| / 2 ^ 24 ≤ 513 / 2 ^ 24 := div_le_div_of_nonneg_right ub (by norm_num)
    have : (513:ℚ) / 2 ^ 24 + 1 / 2 ^ 100 ≤ 1 / 30000 := by norm_num
    linarith
  refine ⟨f32.rv u, ?_, ?_⟩
  · unfold normDivSqrt
    rw [hz, hr]
    exact i6
  · have r6' : |((f32.rv u : ℚ) : ℝ) - u| ≤ 1 / 30000 := by
      have := (Rat.cast_le (K := ℝ)).2 r6; push_cast at this; exact this
    have s5' : |(u : ℝ) - t / r| ≤ 1 / 2 ^ 43 := by
      have := (Rat.cast_le (K := ℝ)).2 s5; push_cast at this; exact this
    have hh : (1:ℝ) / 2 ^ 43 ≤ 1 / 30000 := by norm_num
    have e0 : (x:ℝ) * α / Q = x / Q * α := by ring
    rw [e0]
    rw [abs_le] at *
    constructor <;> linarith [c1.1, c1.2, c2.1, c2.2, r6'.1, r6'.2, s5'.1, s5'.2]

/-! ### The norms -/

theorem scan_ext {σ : Type} {f g : σ → Nat → σ} {s0 : σ} : ∀ n, (∀ s k, k < n → f s k = g s k) → scanS f s0 n = scanS g s0 n
  | 0, _ => rfl
  | n+1, h => by
    unfold scanS
    rw [scan_ext n fun s k hk => h s k (by omega)]
    exact h _ _ (by omega)

/-- the extremes, or the initial values where nothing lies beyond them -/
theorem mm_spec {v : Nat → FV} {y : Nat → ℚ} : ∀ n, (∀ e, e < n → (v e).Is (y e)) →
    ∃ mx mn, (scanS (fun s k => mmStep s (v k)) (.fin true (-1000000), .fin false 1000000) n).1.Is mx ∧
      (scanS (fun s k => mmStep s (v k)) (.fin true (-1000000), .fin false 1000000) n).2.Is mn ∧
      (-1000000 ≤ mx ∧ (∀ e, e < n → y e ≤ mx) ∧ (mx = -1000000 ∨ ∃ e, e < n ∧ mx = y e)) ∧
      (mn ≤ 1000000 ∧ (∀ e, e < n → mn ≤ y e) ∧ (mn = 1000000 ∨ ∃ e, e < n ∧ mn = y e))
  | 0, _ => ⟨-1000000, 1000000, ⟨true, rfl⟩, ⟨false, rfl⟩, ⟨le_refl _, by omega, Or.inl rfl⟩, ⟨le_refl _, by omega, Or.inl rfl⟩⟩
  | n+1, h => by
    obtain ⟨mx, mn, a1, a2, ⟨b1, b2, b3⟩, ⟨c1, c2, c3⟩⟩ := mm_spec n fun e he => h e (by omega)
    have hv := h n (by omega)
    unfold scanS
    generalize scanS (fun s k => mmStep s (v k)) (.fin true (-1000000), .fin false 1000000) n = s at *
    unfold mmStep
    rw [lt_is hv a1, lt_is a2 hv]
    refine ⟨if y n < mx then mx else y n, if mn < y n then mn else y n, ?_, ?_, ⟨?_, ?_, ?_⟩, ⟨?_, ?_, ?_⟩⟩
    · by_cases e : y n < mx
      · simpa [e] using a1
      · simpa [e] using hv
    · by_cases e : mn < y n
      · simpa [e] using a2
      · simpa [e] using hv
    · split
      · exact b1
      · linarith
    · intro e he
      rcases Nat.lt_or_ge e n with l | l
      · have := b2 e l
        split
        · exact this
        · linarith
      · obtain rfl : e = n := by omega
        split
        · linarith
        · exact le_refl _
    · split
      · rcases b3 with b3 | ⟨e, he, b3⟩
        · exact Or.inl b3
        · exact Or.inr ⟨e, by omega, b3⟩
      · exact Or.inr ⟨n, by omega, rfl⟩
    · split
      · exact c1
      · linarith
    · intro e he
      rcases Nat.lt_or_ge e n with l | l
      · have := c2 e l
        split
        · exact this
        · linarith
      · obtain rfl : e = n := by omega
        split
        · linarith
        · exact le_refl _
    · split
      · rcases c3 with c3 | ⟨e, he, c3⟩
        · exact Or.inl c3
        · exact Or.inr ⟨e, by omega, c3⟩
      · exact Or.inr ⟨n, by omega, rfl⟩

theorem inf_spec {v : Nat → FV} {y : Nat → ℚ} : ∀ n, (∀ e, e < n → (v e).Is (y e)) →
    ∃ mx, (scanS (fun s k => if FV.lt s (v k) then v k else s) (.fin false 0) n).Is mx ∧ 0 ≤ mx ∧ (∀ e, e < n → y e ≤ mx) ∧
      (mx = 0 ∨ ∃ e, e < n ∧ mx = y e)
  | 0, _ => ⟨0, ⟨false, rfl⟩, le_refl _, by omega, Or.inl rfl⟩
  | n+1, h => by
    obtain ⟨mx, a1, b1, b2, b3⟩ := inf_spec n fun e he => h e (by omega)
    have hv := h n (by omega)
    unfold scanS
    generalize scanS (fun s k => if FV.lt s (v k) then v k else s) (.fin false 0) n = s at *
    rw [lt_is a1 hv]
    refine ⟨if mx < y n then y n else mx, ?_, ?_, ?_, ?_⟩
    · by_cases e : mx < y n
      · simpa [e] using hv
      · simpa [e] using a1
    · split
      · linarith
      · exact b1
    · intro e he
      rcases Nat.lt_or_ge e n with l | l
      · have := b2 e l
        split
        · linarith
        · exact this
      · obtain rfl : e = n := by omega
        split
        · exact le_refl _
        · linarith
    · split
      · exact Or.inr ⟨n, by omega, rfl⟩
      · rcases b3 with b3 | ⟨e, he, b3⟩
        · exact Or.inl b3
        · exact Or.inr ⟨e, by omega, b3⟩

/-- a sum of whole numbers up to 2^24 is exact -/
theorem sum_spec {v : Nat → FV} {y : Nat → Nat} : ∀ n, (∀ e, e < n → (v e).Is (y e)) → (∑ e ∈ Finset.range n, y e) ≤ 16777216 →
    (scanS (fun s k => f32.add s (v k)) (.fin false 0) n).Is ((∑ e ∈ Finset.range n, y e : Nat) : ℚ)
  | 0, _, _ => ⟨false, by simp [scanS]⟩
  | n+1, h, hs => by
    rw [Finset.sum_range_succ] at hs ⊢
    have ih := sum_spec n (fun e he => h e (by omega)) (by omega)
    unfold scanS
    have := is_add (F := f32) ih (h n (by omega)) (by
      have := rep32_int (n := ((∑ e ∈ Finset.range n, y e + y n : Nat) : Int)) (by rw [abs_le]; omega)
      push_cast at this ⊢
      exact this)
    push_cast at this ⊢
    exact this

theorem abs_is {v : FV} {x : ℚ} (hv : v.Is x) (h : 0 ≤ x) : (normAbs v).Is x := by
  unfold normAbs
  have : FV.le (.fin false 0) v = true := by
    unfold FV.le
    rw [lt_is (⟨false, rfl⟩ : (FV.fin false 0).Is 0) hv, feq_is (⟨false, rfl⟩ : (FV.fin false 0).Is 0) hv]
    rcases h.lt_or_eq with h | h
    · simp [h]
    · simp [← h]
  rw [if_pos this]
  exact hv

/-- squares of whole numbers whose squares are at most 2^24 -/
theorem sq_is {w b n : Nat} (hb : b < 256 ^ w) (hv : (normVal w b).Is (n : ℚ)) (hn : n * n ≤ 16777216) : (normSq w b).Is ((n * n : Nat) : ℚ) := by
  unfold normVal at hv
  unfold normSq
  have hr : f32.Rep (((n * n : Nat) : Int) : ℚ) := rep32_int (by rw [abs_le]; omega)
  by_cases e : w = 1
  · rw [if_pos e] at hv ⊢
    have hb : b = n := by
      rw [e] at hb
      have := FV.Is.inj hv (is_ofInt (n := (b : Int)) (rep32_int (by rw [abs_le]; omega)))
      exact_mod_cast this.symm
    rw [hb]
    exact_mod_cast is_ofInt hr
  · rw [if_neg e] at hv ⊢
    have := is_mul (F := f32) hv hv (by push_cast at hr ⊢; exact hr)
    exact_mod_cast this

end HyperCV
