/- The `float` elimination agrees with the exact one while all values are representable. -/
import Verif.Proof.Invert
import Verif.Proof.GaussJordan
import Verif.Spec.Invert

namespace HyperCV
open Spec

theorem f32_to_f64 {q : ℚ} (h : f32.Rep q) : f64.Rep q := by
  obtain ⟨n, e, h1, h2, h3, h4⟩ := h
  refine ⟨n, e, h1, le_trans h2 ?_, le_trans ?_ h3, lt_trans h4 ?_⟩
  · show (2:ℤ) ^ 24 ≤ 2 ^ 53
    norm_num
  · decide
  · exact pow_lt_pow_right₀ (by norm_num) (by decide)

theorem floatIs_rep {b : Nat} {q : ℚ} (h : FloatIs f32 b q) : f32.Rep q := by
  obtain ⟨s, h⟩ := h
  have := good_decode f32_std b
  rw [h] at this
  exact this.1

theorem mulF_exact {x y : Nat} {a b : ℚ} (hx : FloatIs f32 x a) (hy : FloatIs f32 y b) (h : f32.Rep (a * b)) :
    FloatIs f32 (mulF x y) (a * b) := by
  obtain ⟨sx, hx⟩ := hx
  obtain ⟨sy, hy⟩ := hy
  unfold mulF FloatIs
  rw [f32_dec_enc (good_mul _ _ _), hx, hy]
  exact round_exact h

theorem addF_exact {x y : Nat} {a b : ℚ} (hx : FloatIs f32 x a) (hy : FloatIs f32 y b) (h : f32.Rep (a + b)) :
    FloatIs f32 (addF x y) (a + b) := by
  obtain ⟨sx, hx⟩ := hx
  obtain ⟨sy, hy⟩ := hy
  unfold addF FloatIs
  rw [f32_dec_enc (good_add _ _ _), hx, hy]
  exact round_exact h

theorem negF_exact {x : Nat} {a : ℚ} (hx : FloatIs f32 x a) : FloatIs f32 (negF x) (-a) := by
  obtain ⟨sx, hx⟩ := hx
  unfold negF FloatIs
  rw [f32_dec_enc (good_neg (good_decode f32_std x)), hx]
  exact ⟨_, rfl⟩

theorem recipF_exact {x : Nat} {a : ℚ} (hx : FloatIs f32 x a) (ha : a ≠ 0) (h : f32.Rep (1 / a)) :
    FloatIs f32 (recipF x) (1 / a) := by
  have r := f32_to_f64 (floatIs_rep hx)
  obtain ⟨sx, hx⟩ := hx
  unfold recipF FloatIs
  rw [f32_dec_enc (good_conv _ _), hx]
  obtain ⟨s1, e1⟩ := round_exact (z := sx) r
  have e1' : f64.conv (.fin sx a) = .fin s1 a := e1
  rw [e1']
  have e2 : f64.div (.fin false 1) (.fin s1 a) = f64.round (false != s1) (1 / a) := if_neg ha
  rw [e2]
  obtain ⟨s2, e3⟩ := round_exact (z := (false != s1)) (f32_to_f64 h)
  rw [e3]
  exact round_exact h

theorem isZeroF_exact {x : Nat} {a : ℚ} (hx : FloatIs f32 x a) : isZeroF x = decide (a = 0) := by
  obtain ⟨sx, hx⟩ := hx
  unfold isZeroF
  rw [hx]
  rfl

/-- entrywise agreement -/
def Agree (m : Nat) (A : Mat Nat) (Q : Mat ℚ) : Prop := ∀ a b, a < m → b < m → FloatIs f32 (A a b) (Q a b)

theorem agree_id (m : Nat) : Agree m (gId floatArith) (gId (fieldArith ℚ)) := by
  intro a b _ _
  unfold gId
  split
  · exact ⟨false, by decide +kernel⟩
  · exact ⟨false, by decide +kernel⟩

theorem agree_swap {m i r : Nat} {A : Mat Nat} {Q : Mat ℚ} (hi : i < m) (hr : r < m) (h : Agree m A Q) :
    Agree m (gSwap i r A) (gSwap i r Q) := by
  intro a b ha hb
  unfold gSwap
  split
  · exact h r b hr hb
  · split
    · exact h i b hi hb
    · exact h a b ha hb

theorem agree_scale {m i x : Nat} {s : ℚ} {A : Mat Nat} {Q : Mat ℚ} (h : Agree m A Q)
    (hs : FloatIs f32 x s) (hr : ∀ b, b < m → f32.Rep (Q i b * s)) :
    Agree m (gScale floatArith i x A) (gScale (fieldArith ℚ) i s Q) := by
  intro a b ha hb
  unfold gScale
  by_cases e : a = i
  · rw [if_pos e, if_pos e]
    subst e
    exact mulF_exact (h a b ha hb) hs (hr b hb)
  · rw [if_neg e, if_neg e]; exact h a b ha hb

theorem agree_shear {m i j x : Nat} {s : ℚ} {A : Mat Nat} {Q : Mat ℚ} (hi : i < m) (h : Agree m A Q)
    (hs : FloatIs f32 x s) (hr : ∀ b, b < m → f32.Rep (s * Q i b) ∧ f32.Rep (Q j b + s * Q i b)) :
    Agree m (gShear floatArith j i x A) (gShear (fieldArith ℚ) j i s Q) := by
  intro a b ha hb
  unfold gShear
  by_cases e : a = j
  · rw [if_pos e, if_pos e]
    subst e
    exact addF_exact (h a b ha hb) (mulF_exact hs (h i b hi hb) (hr b hb).1) (hr b hb).2
  · rw [if_neg e, if_neg e]; exact h a b ha hb

theorem agree_find {m i : Nat} {A : Mat Nat} {Q : Mat ℚ} (hi : i < m) (h : Agree m A Q) :
    ∀ f r, r + f = m → gFind floatArith A i f r = gFind (fieldArith ℚ) Q i f r := by
  intro f
  induction f with
  | zero => intro r _; rfl
  | succ f ih =>
    intro r hr
    unfold gFind
    have e : floatArith.isZero (A r i) = (fieldArith ℚ).isZero (Q r i) := isZeroF_exact (h r i (by omega) hi)
    rw [e, ih (r+1) (by omega)]

def Agree2 (m : Nat) (s : Mat Nat × Mat Nat) (q : Mat ℚ × Mat ℚ) : Prop := Agree m s.1 q.1 ∧ Agree m s.2 q.2

theorem agree_rows {m i : Nat} {s : Mat Nat × Mat Nat} {q : Mat ℚ × Mat ℚ} (hi : i < m) (h : Agree2 m s q)
    (hr : RepRows m i q) : ∀ j, j ≤ m → Agree2 m (gRows floatArith i j s) (gRows (fieldArith ℚ) i j q) := by
  intro j
  induction j with
  | zero => intro _; exact h
  | succ j ih =>
    intro hj
    have ih := ih (by omega)
    have hrj := hr j (by omega)
    unfold gRows
    by_cases e : i = j
    · rw [if_pos e, if_pos e]; exact ih
    · rw [if_neg e, if_neg e]
      have hn := negF_exact (ih.1 j i (by omega) hi)
      obtain ⟨k1, k2⟩ := hrj (Ne.symm e)
      exact ⟨agree_shear hi ih.1 hn k1, agree_shear hi ih.2 hn k2⟩

theorem agree_loop {m : Nat} : ∀ f i, i + f = m → ∀ (s : Mat Nat × Mat Nat) (q : Mat ℚ × Mat ℚ), Agree2 m s q →
    RepLoop m f i q → Agree2 m (gLoop floatArith m f i s).1 (gLoop (fieldArith ℚ) m f i q).1 := by
  intro f
  induction f with
  | zero => intro i _ s q h _; exact h
  | succ f ih =>
    intro i hi s q h hr
    have hi' : i < m := by omega
    unfold gLoop
    unfold RepLoop at hr
    -- the pivots agree
    have hp : (gPivot floatArith m i s = none ∧ gPivot (fieldArith ℚ) m i q = none) ∨
        ∃ t u, gPivot floatArith m i s = some t ∧ gPivot (fieldArith ℚ) m i q = some u ∧ Agree2 m t u ∧
          True := by
      have e : floatArith.isZero (s.1 i i) = (fieldArith ℚ).isZero (q.1 i i) := isZeroF_exact (h.1 i i hi' hi')
      have ef := agree_find hi' h.1 (m - (i+1)) (i+1) (by omega)
      have hb := (find_spec q.1 i (m - (i+1)) (i+1)).2.2.2
      unfold gPivot
      rw [e, ef]
      by_cases hz : (fieldArith ℚ).isZero (q.1 i i) = true
      · rw [if_pos hz, if_pos hz]
        by_cases hm : gFind (fieldArith ℚ) q.1 i (m - (i+1)) (i+1) = m
        · rw [if_pos hm, if_pos hm]; exact Or.inl ⟨rfl, rfl⟩
        · rw [if_neg hm, if_neg hm]
          exact Or.inr ⟨_, _, rfl, rfl, ⟨agree_swap hi' (by omega) h.1, agree_swap hi' (by omega) h.2⟩, trivial⟩
      · rw [if_neg hz, if_neg hz]
        exact Or.inr ⟨_, _, rfl, rfl, h, trivial⟩
    rcases hp with ⟨p1, p2⟩ | ⟨t, u, p1, p2, p3, _⟩
    · rw [p1, p2]; exact h
    · rw [p1, p2]
      rw [p2] at hr
      obtain ⟨⟨r0, r1, r2, r3, r4⟩, r5⟩ := hr
      refine ih (i+1) (by omega) _ _ ?_ r5
      have hrec := recipF_exact (p3.1 i i hi' hi') r0 r1
      exact agree_rows hi' ⟨agree_scale p3.1 hrec r2, agree_scale p3.2 hrec r3⟩ r4 m (Nat.le_refl _)

end HyperCV
