/- Morphology. -/
import Verif.Model.Morphology
import Verif.Proof.Gradient

namespace HyperCV
open Spec

/-- a call: the bytes `f` of the image, the bytes `K` of the element, and their sizes -/
structure Morph where
  f : Nat → UInt8
  K : Nat → UInt8
  R : Nat
  C : Nat
  h : Nat
  w : Nat

/-- the position read for entry (`y`, `x`) of the element placed at (`i`, `j`) -/
def Morph.idx (a : Morph) (i j y x : Nat) : Nat := (i - a.h / 2 + y) * a.R + (j - a.w / 2 + x)

def Morph.inside (a : Morph) (i j : Nat) : Prop :=
  a.h / 2 ≤ i ∧ i + a.h / 2 < a.R ∧ a.w / 2 ≤ j ∧ j + a.w / 2 < a.C

/-- entry (`y`, `x`) of the element is set and lies on background -/
def Morph.miss (a : Morph) (i j y x : Nat) : Prop := a.K (y * a.w + x) = 1 ∧ a.f (a.idx i j y x) = 0

instance (a : Morph) (i j y x : Nat) : Decidable (a.miss i j y x) := inferInstanceAs (Decidable (_ ∧ _))

def Morph.hole (a : Morph) (i j : Nat) : Prop :=
  a.inside i j ∧ ∃ y x, y < a.h ∧ x < a.w ∧ a.miss i j y x

/-- the sizes do not overflow `int` -/
structure Morph.Small (a : Morph) : Prop where
  b1 : (a.R - 1) * a.R + a.C ≤ 2147483647
  b2 : a.h * a.w ≤ 2147483647
  b3 : a.R + a.h ≤ 2147483647
  b4 : a.C + a.w ≤ 2147483647

/-- fails with an out-of-bounds access or returns without touching memory -/
def RO {α : Type} (x : M α) (m : Mem) : Prop := x m = .error (.ub .oob) ∨ ∃ a, x m = .ok (a, m)

theorem RO.bind {α β : Type} {x : M α} {f : α → M β} {m : Mem} (hx : RO x m) (hf : ∀ a, RO (f a) m) : RO (x >>= f) m := by
  rcases hx with h | ⟨a, h⟩
  · exact Or.inl (bind_err h)
  · unfold RO; rw [bind_ok h]; exact hf a

theorem RO.pure {α : Type} (a : α) (m : Mem) : RO (Pure.pure a) m := Or.inr ⟨a, rfl⟩

theorem RO.load {m : Mem} {d n : Nat} {f : Nat → UInt8} (h : Holds m d n f) (i : Nat) : RO (load d (i:Int)) m := by
  by_cases hi : i < n
  · exact Or.inr ⟨_, load_ok h hi⟩
  · exact Or.inl (load_oob h (by omega))

theorem RO.forA {σ : Type} {n : Nat} {body : Int → σ → M σ} {m : Mem} (s0 : σ) (h : ∀ x s, x < n → RO (body (x:Int) s) m) :
    RO (HyperCV.forA 0 (n:Int) s0 body) m := by
  have gen : ∀ k x s, x + k = n → RO (forLoop body k (x:Int) s) m := by
    intro k
    induction k with
    | zero => intro x s _; exact RO.pure s m
    | succ k ih =>
      intro x s hx
      rw [forLoop]
      refine RO.bind (h x s (by omega)) (fun a => ?_)
      have := ih (x+1) a (by omega)
      exact_mod_cast this
  have := gen n 0 s0 (by omega)
  unfold HyperCV.forA
  simpa using this

section
variable {a : Morph} {m : Mem} {s d : SimpleMat} {e : S2D} {sd kd dd N : Nat}

theorem morphInside_eq (ha : a.Small) {i j : Nat} (hi : i < a.R) (hj : j < a.C) :
    ∃ b, morphInside a.R a.C a.h a.w i j m = .ok (b, m) ∧ (b = true ↔ a.inside i j) := by
  have h3 := ha.b3
  have h4 := ha.b4
  have dh : ((a.h:Int)).tdiv 2 = ((a.h / 2 : Nat) : Int) := by
    rw [Int.tdiv_eq_ediv_of_nonneg (by omega)]; norm_cast
  have dw : ((a.w:Int)).tdiv 2 = ((a.w / 2 : Nat) : Int) := by
    rw [Int.tdiv_eq_ediv_of_nonneg (by omega)]; norm_cast
  have e1 : (CI.lit (i:Int) - CI.lit (a.h:Int) / CI.lit 2 : CI) = CI.lit ((i:Int) - (a.h / 2 : Nat)) := by
    rw [CI.div_ok (by decide) (by rw [dh]; constructor <;> omega), dh, CI.sub_ok (by constructor <;> omega)]
  have e2 : (CI.lit (i:Int) + CI.lit (a.h:Int) / CI.lit 2 : CI) = CI.lit ((i:Int) + (a.h / 2 : Nat)) := by
    rw [CI.div_ok (by decide) (by rw [dh]; constructor <;> omega), dh, CI.add_ok (by constructor <;> omega)]
  have e3 : (CI.lit (j:Int) - CI.lit (a.w:Int) / CI.lit 2 : CI) = CI.lit ((j:Int) - (a.w / 2 : Nat)) := by
    rw [CI.div_ok (by decide) (by rw [dw]; constructor <;> omega), dw, CI.sub_ok (by constructor <;> omega)]
  have e4 : (CI.lit (j:Int) + CI.lit (a.w:Int) / CI.lit 2 : CI) = CI.lit ((j:Int) + (a.w / 2 : Nat)) := by
    rw [CI.div_ok (by decide) (by rw [dw]; constructor <;> omega), dw, CI.add_ok (by constructor <;> omega)]
  unfold morphInside Morph.inside
  rw [bind_ok (ev_ok e1 _)]
  by_cases c1 : (i:Int) - (a.h / 2 : Nat) < 0
  · rw [if_pos c1]
    exact ⟨false, rfl, by constructor; (intro h; cases h); (intro h; omega)⟩
  rw [if_neg c1, bind_ok (ev_ok e2 _)]
  by_cases c2 : (a.R:Int) ≤ (i:Int) + (a.h / 2 : Nat)
  · rw [if_pos c2]
    exact ⟨false, rfl, by constructor; (intro h; cases h); (intro h; omega)⟩
  rw [if_neg c2, bind_ok (ev_ok e3 _)]
  by_cases c3 : (j:Int) - (a.w / 2 : Nat) < 0
  · rw [if_pos c3]
    exact ⟨false, rfl, by constructor; (intro h; cases h); (intro h; omega)⟩
  rw [if_neg c3, bind_ok (ev_ok e4 _)]
  refine ⟨_, rfl, ?_⟩
  rw [decide_eq_true_eq]
  omega

theorem idx_bounds {i j y x : Nat} (hin : a.inside i j) (hy : y < a.h) (hx : x < a.w) :
    i - a.h / 2 + y < a.R ∧ j - a.w / 2 + x < a.C := by
  unfold Morph.inside at hin; omega

theorem morphTap_eq (ha : a.Small) (hk : Holds m kd (a.h * a.w) a.K) {i j y x : Nat} (hin : a.inside i j)
    (hy : y < a.h) (hx : x < a.w)
    (s1 : s.rows = a.R) (s3 : s.data = sd) (k1 : e.width = a.w) (k2 : e.height = a.h) (k3 : e.data = kd) :
    morphTap s e i j y x m = (if a.K (y * a.w + x) = 1 then (do
      let v ← load sd (a.idx i j y x : Int)
      pure (decide (v = 0)) : M Bool) m else .ok (false, m)) := by
  have h1 := ha.b1
  have h2 := ha.b2
  have h3 := ha.b3
  have h4 := ha.b4
  have hT : y * a.w + x < a.h * a.w := mix_lt hy hx
  have dh : ((a.h:Int)).tdiv 2 = ((a.h / 2 : Nat) : Int) := by
    rw [Int.tdiv_eq_ediv_of_nonneg (by omega)]; norm_cast
  have dw : ((a.w:Int)).tdiv 2 = ((a.w / 2 : Nat) : Int) := by
    rw [Int.tdiv_eq_ediv_of_nonneg (by omega)]; norm_cast
  obtain ⟨q1, q2⟩ := idx_bounds hin hy hx
  have hle : (i - a.h / 2 + y) * a.R ≤ (a.R - 1) * a.R := Nat.mul_le_mul_right _ (by omega)
  unfold Morph.inside at hin
  have e1 : (CI.lit (y:Int) * CI.lit (a.w:Int) + CI.lit (x:Int) : CI) = CI.lit ((y * a.w + x : Nat) : Int) := by
    have h2 : y * a.w ≤ 2147483647 := by omega
    rw [CI.mul_ok (by constructor <;> ((try norm_cast) <;> omega)), CI.add_ok (by constructor <;> ((try norm_cast) <;> omega))]
    push_cast; rfl
  have e2 : ((CI.lit (i:Int) - CI.lit (a.h:Int) / CI.lit 2 + CI.lit (y:Int)) * CI.lit (a.R:Int) + CI.lit (j:Int)
      - CI.lit (a.w:Int) / CI.lit 2 + CI.lit (x:Int) : CI) = CI.lit ((a.idx i j y x : Nat) : Int) := by
    have z1 : (i:Int) - (a.h / 2 : Nat) + (y:Int) = ((i - a.h / 2 + y : Nat) : Int) := by omega
    have z2 : ((i - a.h / 2 + y : Nat) : Int) * (a.R:Int) = (((i - a.h / 2 + y) * a.R : Nat) : Int) := by push_cast; rfl
    unfold Morph.idx
    generalize (i - a.h / 2 + y) * a.R = P at *
    rw [CI.div_ok (by decide) (by rw [dh]; constructor <;> omega), dh, CI.div_ok (by decide) (by rw [dw]; constructor <;> omega), dw,
      CI.sub_ok (by constructor <;> omega), CI.add_ok (by constructor <;> omega), z1,
      CI.mul_ok (by rw [z2]; constructor <;> omega), z2, CI.add_ok (by constructor <;> omega), CI.sub_ok (by constructor <;> omega),
      CI.add_ok (by constructor <;> omega)]
    congr 1
    omega
  unfold morphTap
  rw [s1, s3, k1, k2, k3, bind_ok (ev_ok e1 _), bind_ok (load_ok hk hT)]
  by_cases hc : a.K (y * a.w + x) = 1
  · rw [if_pos hc, if_pos hc, bind_ok (ev_ok e2 _)]
  · rw [if_neg hc, if_neg hc]; rfl

/-- when all positions of the image lie in its block, the flag is set exactly if the element covers some background -/
theorem morphFlag_run (ha : a.Small) (hs : Holds m sd N a.f) (hk : Holds m kd (a.h * a.w) a.K)
    (hN : (a.R - 1) * a.R + a.C ≤ N) {i j : Nat} (hi : i < a.R) (hj : j < a.C)
    (s1 : s.rows = a.R) (s2 : s.cols = a.C) (s3 : s.data = sd) (k1 : e.width = a.w) (k2 : e.height = a.h) (k3 : e.data = kd) :
    ∃ b, morphFlag s e i j m = .ok (b, m) ∧ (b = true ↔ a.hole i j) := by
  obtain ⟨b0, hb0, hb1⟩ := morphInside_eq (m := m) ha hi hj
  unfold morphFlag
  rw [s1, s2, k1, k2]
  obtain ⟨b, r1, r2⟩ := taps_inv (a := a.h) (b := a.w) (m := m) (s0 := false) (body := fun y x flag => do
      let inside ← morphInside a.R a.C a.h a.w i j
      if inside then do
        let hole ← morphTap s e i j y x
        pure (flag || hole)
      else pure flag)
    (fun y x b => b = true ↔ a.inside i j ∧ ∃ y' x', (y' < y ∨ (y' = y ∧ x' < x)) ∧ y' < a.h ∧ x' < a.w ∧ a.miss i j y' x')
    (by constructor
        · intro h; cases h
        · rintro ⟨-, y', x', h, -⟩; omega)
    (by
      intro y x b hy hx hb
      by_cases hin : a.inside i j
      · have ht : morphTap s e i j y x m = .ok (decide (a.miss i j y x), m) := by
          rw [morphTap_eq ha hk hin hy hx s1 s3 k1 k2 k3]
          unfold Morph.miss
          have hlt : a.idx i j y x < N := by
            obtain ⟨q1, q2⟩ := idx_bounds hin hy hx
            have hle : (i - a.h / 2 + y) * a.R ≤ (a.R - 1) * a.R := Nat.mul_le_mul_right _ (by omega)
            unfold Morph.idx; omega
          by_cases hc : a.K (y * a.w + x) = 1
          · rw [if_pos hc, bind_ok (load_ok hs hlt)]
            simp [hc]
            first | done | rfl
          · rw [if_neg hc]
            simp [hc]
        refine ⟨b || decide (a.miss i j y x), ?_, ?_⟩
        · rw [bind_ok hb0, if_pos (hb1.2 hin), bind_ok ht]; rfl
        · rw [Bool.or_eq_true, hb, decide_eq_true_eq]
          constructor
          · rintro (⟨_, y', x', h1, h2⟩ | h)
            · exact ⟨hin, y', x', by omega, h2⟩
            · exact ⟨hin, y, x, by omega, hy, hx, h⟩
          · rintro ⟨_, y', x', h1, h2, h3, h4⟩
            by_cases hq : y' = y ∧ x' = x
            · right; rw [← hq.1, ← hq.2]; exact h4
            · left; exact ⟨hin, y', x', by omega, h2, h3, h4⟩
      · refine ⟨b, ?_, ?_⟩
        · have : b0 = false := by
            cases b0 with
            | false => rfl
            | true => exact absurd (hb1.1 rfl) hin
          rw [bind_ok hb0, this]; rfl
        · rw [hb]
          constructor
          · rintro ⟨h, -⟩; exact absurd h hin
          · rintro ⟨h, -⟩; exact absurd h hin)
    (by
      intro y b hy hb
      rw [hb]
      constructor
      · rintro ⟨h0, y', x', h1, h2⟩; exact ⟨h0, y', x', by omega, h2⟩
      · rintro ⟨h0, y', x', h1, h2⟩; exact ⟨h0, y', x', by omega, h2⟩)
  refine ⟨b, r1, r2.trans ?_⟩
  unfold Morph.hole
  constructor
  · rintro ⟨h0, y', x', h1, h2⟩; exact ⟨h0, y', x', h2⟩
  · rintro ⟨h0, y', x', h1, h2⟩; exact ⟨h0, y', x', by omega, h1, h2⟩

theorem morphFlag_ro (ha : a.Small) (hs : Holds m sd N a.f) (hk : Holds m kd (a.h * a.w) a.K) {i j : Nat} (hi : i < a.R) (hj : j < a.C)
    (s1 : s.rows = a.R) (s2 : s.cols = a.C) (s3 : s.data = sd) (k1 : e.width = a.w) (k2 : e.height = a.h) (k3 : e.data = kd) :
    RO (morphFlag s e i j) m := by
  obtain ⟨b0, hb0, hb1⟩ := morphInside_eq (m := m) ha hi hj
  unfold morphFlag
  rw [s1, s2, k1, k2]
  refine RO.forA _ fun y b hy => RO.forA _ fun x b hx => ?_
  unfold RO
  rw [bind_ok hb0]
  by_cases hin : a.inside i j
  · rw [if_pos (hb1.2 hin)]
    refine RO.bind ?_ fun _ => RO.pure _ _
    unfold RO
    rw [morphTap_eq ha hk hin hy hx s1 s3 k1 k2 k3]
    split
    · exact RO.bind (RO.load hs _) fun _ => RO.pure _ _
    · exact Or.inr ⟨_, rfl⟩
  · have : b0 = false := by
      cases b0 with
      | false => rfl
      | true => exact absurd (hb1.1 rfl) hin
    rw [this]
    exact RO.pure _ _

open Classical in
/-- the value stored by `hypercv_corrosion` at (`i`, `j`) -/
noncomputable def Morph.ero (a : Morph) (i j : Nat) : UInt8 := if a.hole i j then 0 else a.f (i * a.R + j)

open Classical in
/-- the value stored by `hypercv_expend` at (`i`, `j`) -/
noncomputable def Morph.dil (a : Morph) (i j : Nat) : UInt8 := if a.f (i * a.R + j) = 0 ∧ a.hole i j then 1 else a.f (i * a.R + j)

theorem eval_pos (ha : a.Small) {i j : Nat} (hi : i < a.R) (hj : j < a.C) :
    (CI.lit (i:Int) * CI.lit (a.R:Int) + CI.lit (j:Int) : CI) = CI.lit ((i * a.R + j : Nat) : Int) := by
  have h1 := ha.b1
  have hle : i * a.R ≤ (a.R - 1) * a.R := Nat.mul_le_mul_right _ (by omega)
  rw [CI.mul_ok (by constructor <;> ((try norm_cast) <;> omega)), CI.add_ok (by constructor <;> ((try norm_cast) <;> omega))]
  push_cast; rfl

theorem morphPos_lt {i j : Nat} (hi : i < a.R) (hj : j < a.C) (hN : (a.R - 1) * a.R + a.C ≤ N) : i * a.R + j < N := by
  have hle : i * a.R ≤ (a.R - 1) * a.R := Nat.mul_le_mul_right _ (by omega)
  omega

theorem corrode_eq (ha : a.Small) (hs : Holds m sd N a.f) (hk : Holds m kd (a.h * a.w) a.K)
    (hN : (a.R - 1) * a.R + a.C ≤ N) {i j : Nat} (hi : i < a.R) (hj : j < a.C)
    (s1 : s.rows = a.R) (s2 : s.cols = a.C) (s3 : s.data = sd) (k1 : e.width = a.w) (k2 : e.height = a.h) (k3 : e.data = kd) :
    corrodePixel s d e i j m = store d.data ((i * a.R + j : Nat) : Int) (a.ero i j) m := by
  have hlt := morphPos_lt (N := N) hi hj hN
  obtain ⟨b, hb0, hb1⟩ := morphFlag_run ha hs hk hN hi hj s1 s2 s3 k1 k2 k3
  unfold corrodePixel Morph.ero
  rw [s1, s3, bind_ok (ev_ok (eval_pos ha hi hj) _), bind_ok (load_ok hs hlt)]
  by_cases h0 : a.f (i * a.R + j) ≠ 0
  · rw [if_pos h0, bind_ok hb0]
    by_cases hh : a.hole i j
    · rw [if_pos (hb1.2 hh), if_pos hh]
    · rw [if_neg (fun h => hh (hb1.1 h)), if_neg hh, bind_ok (load_ok hs hlt)]
  · rw [if_neg h0]
    have : a.f (i * a.R + j) = 0 := not_not.mp h0
    rw [this, ite_self]

theorem expend_eq (ha : a.Small) (hs : Holds m sd N a.f) (hk : Holds m kd (a.h * a.w) a.K)
    (hN : (a.R - 1) * a.R + a.C ≤ N) {i j : Nat} (hi : i < a.R) (hj : j < a.C)
    (s1 : s.rows = a.R) (s2 : s.cols = a.C) (s3 : s.data = sd) (k1 : e.width = a.w) (k2 : e.height = a.h) (k3 : e.data = kd) :
    expendPixel s d e i j m = store d.data ((i * a.R + j : Nat) : Int) (a.dil i j) m := by
  have hlt := morphPos_lt (N := N) hi hj hN
  obtain ⟨b, hb0, hb1⟩ := morphFlag_run ha hs hk hN hi hj s1 s2 s3 k1 k2 k3
  unfold expendPixel Morph.dil
  rw [s1, s3, bind_ok (ev_ok (eval_pos ha hi hj) _), bind_ok (load_ok hs hlt)]
  by_cases h0 : a.f (i * a.R + j) = 0
  · rw [if_pos h0, bind_ok hb0]
    by_cases hh : a.hole i j
    · rw [if_pos (hb1.2 hh), if_pos ⟨h0, hh⟩]
    · rw [if_neg (fun h => hh (hb1.1 h)), if_neg (fun h => hh h.2), bind_ok (load_ok hs hlt)]
  · rw [if_neg h0, if_neg (fun h => h0 h.1), bind_ok (load_ok hs hlt)]

/-- whatever is out of bounds, a pixel step fails or changes only the destination -/
def MorphMem (a : Morph) (sd kd dd N : Nat) (m : Mem) : Prop :=
  Holds m sd N a.f ∧ Holds m kd (a.h * a.w) a.K ∧ ∃ g, Holds m dd N g

theorem store_outcome (hne1 : sd ≠ dd) (hne2 : kd ≠ dd) (p : Nat) (v : UInt8) (hm : MorphMem a sd kd dd N m) :
    store dd (p:Int) v m = .error (.ub .oob) ∨ ∃ m', store dd (p:Int) v m = .ok ((), m') ∧ MorphMem a sd kd dd N m' := by
  obtain ⟨q1, q2, g, q3⟩ := hm
  by_cases hp : p < N
  · right
    have := store_put (m := m) (h := dd) (n := N) (f := g) (v := v) hp
    rw [q3.put_self] at this
    exact ⟨_, this, q1.put_ne hne1, q2.put_ne hne2, _, holds_put _ _ _ _⟩
  · left
    exact store_oob q3 (by omega)

/-- both pixel steps start by reading the pixel -/
theorem pixel_oob (ha : a.Small) (hm : MorphMem a sd kd dd N m) {i j : Nat} (hi : i < a.R) (hj : j < a.C) (hp : N ≤ i * a.R + j)
    (s1 : s.rows = a.R) (s3 : s.data = sd) :
    corrodePixel s d e i j m = .error (.ub .oob) ∧ expendPixel s d e i j m = .error (.ub .oob) := by
  obtain ⟨q1, q2, g, q3⟩ := hm
  unfold corrodePixel expendPixel
  rw [s1, s3, bind_ok (ev_ok (eval_pos ha hi hj) _), bind_ok (ev_ok (eval_pos ha hi hj) _)]
  exact ⟨bind_err (load_oob q1 hp), bind_err (load_oob q1 hp)⟩

/-- continue after a read -/
theorem RO.then {α : Type} {x : M α} {f : α → M Unit} {P : Mem → Prop} (hx : RO x m)
    (hf : ∀ b, f b m = .error (.ub .oob) ∨ ∃ m', f b m = .ok ((), m') ∧ P m') :
    (x >>= f) m = .error (.ub .oob) ∨ ∃ m', (x >>= f) m = .ok ((), m') ∧ P m' := by
  rcases hx with h | ⟨b, h⟩
  · exact Or.inl (bind_err h)
  · rw [bind_ok h]; exact hf b

theorem pixel_outcome (ha : a.Small) (hne1 : sd ≠ dd) (hne2 : kd ≠ dd) (hm : MorphMem a sd kd dd N m) {i j : Nat} (hi : i < a.R) (hj : j < a.C)
    (s1 : s.rows = a.R) (s2 : s.cols = a.C) (s3 : s.data = sd) (d3 : d.data = dd) (k1 : e.width = a.w) (k2 : e.height = a.h) (k3 : e.data = kd) :
    (corrodePixel s d e i j m = .error (.ub .oob) ∨ ∃ m', corrodePixel s d e i j m = .ok ((), m') ∧ MorphMem a sd kd dd N m') ∧
    (expendPixel s d e i j m = .error (.ub .oob) ∨ ∃ m', expendPixel s d e i j m = .ok ((), m') ∧ MorphMem a sd kd dd N m') := by
  have hm' := hm
  obtain ⟨q1, q2, g, q3⟩ := hm'
  have fl := morphFlag_ro ha q1 q2 hi hj s1 s2 s3 k1 k2 k3
  have st := fun v => store_outcome hne1 hne2 (i * a.R + j) v hm
  have ld := RO.load q1 (i * a.R + j)
  unfold corrodePixel expendPixel
  rw [s1, s3, d3, bind_ok (ev_ok (eval_pos ha hi hj) _), bind_ok (ev_ok (eval_pos ha hi hj) _)]
  constructor
  · refine ld.then fun v => ?_
    split
    · refine fl.then fun b => ?_
      split
      · exact st _
      · exact ld.then fun v => st v
    · exact st _
  · refine ld.then fun v => ?_
    split
    · refine fl.then fun b => ?_
      split
      · exact st _
      · exact ld.then fun v => st v
    · exact ld.then fun v => st v

/-- consecutive fills: the later one wins -/
theorem Fills.later {x y : M Unit} {m : Mem} {d N : Nat} {n1 n2 : Nat → UInt8} {P Q : Nat → Prop} [DecidablePred Q]
    (hx : Fills x m d N n1 P) (hy : Fills y m d N n2 Q) :
    Fills (x >>= fun _ => y) m d N (fun p => if Q p then n2 p else n1 p) (fun p => P p ∨ Q p) := by
  intro g
  rw [bind_ok (hx g), hy]
  congr 2
  apply put_congr
  intro p _
  by_cases h1 : P p <;> by_cases h2 : Q p <;> simp [h1, h2]

theorem forLoop_last {σ : Type} (body : Int → σ → M σ) (n : Nat) (i : Int) (s : σ) (m : Mem) :
    forLoop body (n+1) i s m = (forLoop body n i s >>= fun s' => body (i + n) s') m := by
  induction n generalizing i s m with
  | zero =>
    show (body i s >>= fun s' => pure s') m = body (i + ((0:Nat):Int)) s m
    have e : i + ((0:Nat):Int) = i := by omega
    rw [e]
    cases h : body i s m with
    | error e => exact bind_err h
    | ok r => exact bind_ok h
  | succ n ih =>
    rw [forLoop]
    cases h : body i s m with
    | error e =>
      rw [bind_err h]
      refine (bind_err ?_).symm
      rw [forLoop, bind_err h]
    | ok r =>
      obtain ⟨s1, m1⟩ := r
      rw [bind_ok h, ih]
      have e : i + 1 + (n:Int) = i + ((n+1 : Nat):Int) := by push_cast; omega
      rw [e]
      cases h2 : forLoop body n (i+1) s1 m1 with
      | error e =>
        rw [bind_err h2]
        refine (bind_err ?_).symm
        rw [forLoop, bind_ok h, h2]
      | ok r2 =>
        obtain ⟨s2, m2⟩ := r2
        rw [bind_ok h2]
        refine (bind_ok ?_).symm
        rw [forLoop, bind_ok h, h2]

theorem forI_succ (n : Nat) (body : Int → M Unit) (m : Mem) :
    forI 0 ((n+1 : Nat):Int) body m = (forI 0 (n:Int) body >>= fun _ => body (n:Int)) m := by
  unfold forI forA
  have := forLoop_last (fun i (_ : Unit) => body i) n 0 () m
  simpa using this

/-- a loop whose steps may overwrite each other's values -/
theorem fills_loop {n : Nat} {body : Int → M Unit} {m : Mem} {d N : Nat} {P : Nat → Nat → Prop}
    (h : ∀ i, i < n → ∃ new, Fills (body (i : Int)) m d N new (P i)) :
    ∃ new, Fills (forI 0 (n : Int) body) m d N new (fun p => ∃ i, i < n ∧ P i p) := by
  classical
  induction n with
  | zero =>
    refine ⟨fun _ => 0, fun g => ?_⟩
    rw [show forI 0 ((0:Nat):Int) body (m.put d N g) = .ok ((), m.put d N g) from forA_empty (by omega) _]
    congr 2
    apply put_congr
    intro p _
    simp
  | succ n ih =>
    obtain ⟨n1, h1⟩ := ih (fun i hi => h i (by omega))
    obtain ⟨n2, h2⟩ := h n (by omega)
    refine ⟨_, (fun g => ?_ : Fills _ m d N (fun p => if P n p then n2 p else n1 p) _)⟩
    have key := Fills.later h1 h2 g
    have e : forI 0 ((n+1 : Nat) : Int) body = (forI 0 (n:Int) body >>= fun _ => body (n:Int)) := by
      funext m'
      exact forI_succ n body m'
    rw [e]
    refine key.trans ?_
    congr 2
    apply put_congr
    intro p _
    have : ((∃ i, i < n ∧ P i p) ∨ P n p) ↔ ∃ i, i < n + 1 ∧ P i p := by
      constructor
      · rintro (⟨i, h1, h2⟩ | h)
        · exact ⟨i, by omega, h2⟩
        · exact ⟨n, by omega, h⟩
      · rintro ⟨i, h1, h2⟩
        by_cases hi : i = n
        · right; rw [← hi]; exact h2
        · exact Or.inl ⟨i, by omega, h2⟩
    by_cases hp : ∃ i, i < n + 1 ∧ P i p
    · rw [if_pos hp, if_pos (this.2 hp)]
    · rw [if_neg hp, if_neg (fun h => hp (this.1 h))]

/-- the positions written -/
def Morph.W (a : Morph) (p : Nat) : Prop := ∃ i, i < a.R ∧ ∃ j, j < a.C ∧ p = i * a.R + j

/-- the step `px` stores `val i j` at (`i`, `j`) -/
def Steps (a : Morph) (px : Int → Int → M Unit) (m : Mem) (dd N : Nat) (val : Nat → Nat → UInt8) : Prop :=
  ∀ i j g, i < a.R → j < a.C → px (i:Int) (j:Int) (m.put dd N g) = store dd ((i * a.R + j : Nat) : Int) (val i j) (m.put dd N g)

theorem steps_ero (ha : a.Small) (hs : Holds m sd N a.f) (hk : Holds m kd (a.h * a.w) a.K) (hne1 : sd ≠ dd) (hne2 : kd ≠ dd)
    (hN : (a.R - 1) * a.R + a.C ≤ N)
    (s1 : s.rows = a.R) (s2 : s.cols = a.C) (s3 : s.data = sd) (d3 : d.data = dd) (k1 : e.width = a.w) (k2 : e.height = a.h) (k3 : e.data = kd) :
    Steps a (fun i j => corrodePixel s d e i j) m dd N a.ero := by
  intro i j g hi hj
  beta_reduce
  rw [corrode_eq ha (hs.put_ne hne1) (hk.put_ne hne2) hN hi hj s1 s2 s3 k1 k2 k3, d3]

theorem steps_dil (ha : a.Small) (hs : Holds m sd N a.f) (hk : Holds m kd (a.h * a.w) a.K) (hne1 : sd ≠ dd) (hne2 : kd ≠ dd)
    (hN : (a.R - 1) * a.R + a.C ≤ N)
    (s1 : s.rows = a.R) (s2 : s.cols = a.C) (s3 : s.data = sd) (d3 : d.data = dd) (k1 : e.width = a.w) (k2 : e.height = a.h) (k3 : e.data = kd) :
    Steps a (fun i j => expendPixel s d e i j) m dd N a.dil := by
  intro i j g hi hj
  beta_reduce
  rw [expend_eq ha (hs.put_ne hne1) (hk.put_ne hne2) hN hi hj s1 s2 s3 k1 k2 k3, d3]

theorem steps_fill {px : Int → Int → M Unit} {val : Nat → Nat → UInt8} (h : Steps a px m dd N val) (hN : (a.R - 1) * a.R + a.C ≤ N) :
    ∃ new, Fills (forI 0 (a.R:Int) fun i => forI 0 (a.C:Int) fun j => px i j) m dd N new a.W := by
  refine fills_loop (P := fun i p => ∃ j, j < a.C ∧ p = i * a.R + j) fun i hi => ?_
  refine fills_loop (P := fun j p => p = i * a.R + j) fun j hj => ⟨fun _ => val i j, fun g => ?_⟩
  rw [h i j g hi hj]
  exact Fills.store (m := m) (d := dd) (N := N) (new := fun _ => val i j) (morphPos_lt hi hj hN) rfl g

theorem steps_square {px : Int → Int → M Unit} {val : Nat → Nat → UInt8} (h : Steps a px m dd (a.R * a.C) val) (hsq : a.R = a.C ∨ a.R = 1)
    (g : Nat → UInt8) :
    (forI 0 (a.R:Int) fun i => forI 0 (a.C:Int) fun j => px i j) (m.put dd (a.R * a.C) g)
      = .ok ((), m.put dd (a.R * a.C) fun p => val (p / a.C) (p % a.C)) := by
  have hpos : ∀ i j, i < a.R → i * a.R + j = i * a.C + j := by
    intro i j hi
    rcases hsq with h | h
    · rw [h]
    · obtain rfl : i = 0 := by omega
      simp
  have key := nest2 (n1 := a.R) (n2 := a.C) (body := px) (m := m) (d := dd) (N := a.R * a.C)
    (new := fun p => val (p / a.C) (p % a.C)) (P := fun i j p => p = i * a.C + j) (by
      intro i j hi hj g
      rw [h i j g hi hj, hpos i j hi]
      exact Fills.store (m := m) (d := dd) (N := a.R * a.C) (mix_lt hi hj) (by rw [mix_div hj, mix_mod hj]) g)
  refine (key g).trans ?_
  congr 2
  apply put_congr
  intro p hp
  obtain ⟨h1, h2, h3⟩ := flat_split hp
  rw [if_pos ⟨p / a.C, h1, p % a.C, h2, by omega⟩]

theorem loops_oob (ha : a.Small) (hne1 : sd ≠ dd) (hne2 : kd ≠ dd) (hm : MorphMem a sd kd dd (a.R * a.C) m) (hC : 0 < a.C) (hlt : a.C < a.R)
    (s1 : s.rows = a.R) (s2 : s.cols = a.C) (s3 : s.data = sd) (d3 : d.data = dd) (k1 : e.width = a.w) (k2 : e.height = a.h) (k3 : e.data = kd) :
    (forI 0 s.rows fun i => forI 0 s.cols fun j => corrodePixel s d e i j) m = .error (.ub .oob) ∧
    (forI 0 s.rows fun i => forI 0 s.cols fun j => expendPixel s d e i j) m = .error (.ub .oob) := by
  have hbig : a.R * a.C ≤ (a.R - 1) * a.R + (a.C - 1) := by
    obtain ⟨r, hr⟩ : ∃ r, a.R = r + 1 := ⟨a.R - 1, by omega⟩
    have : (r + 1) * a.C = r * a.C + a.C := by ring
    have h1 : r * (a.C + 1) ≤ r * (r + 1) := Nat.mul_le_mul_left _ (by omega)
    have h2 : r * (a.C + 1) = r * a.C + r := by ring
    rw [hr, this, Nat.add_sub_cancel]
    omega
  rw [s1, s2]
  constructor
  · refine forI_fails (MorphMem a sd kd dd (a.R * a.C)) ?_ (k := a.R - 1) (by omega) ?_ hm
    · intro i hi m hm
      exact forI_outcome (MorphMem a sd kd dd (a.R * a.C)) (fun j hj m hm => (pixel_outcome ha hne1 hne2 hm hi hj s1 s2 s3 d3 k1 k2 k3).1) hm
    · intro m hm
      refine forI_fails (MorphMem a sd kd dd (a.R * a.C)) ?_ (k := a.C - 1) (by omega) ?_ hm
      · exact fun j hj m hm => (pixel_outcome ha hne1 hne2 hm (by omega) hj s1 s2 s3 d3 k1 k2 k3).1
      · exact fun m hm => (pixel_oob ha hm (by omega) (by omega) hbig s1 s3).1
  · refine forI_fails (MorphMem a sd kd dd (a.R * a.C)) ?_ (k := a.R - 1) (by omega) ?_ hm
    · intro i hi m hm
      exact forI_outcome (MorphMem a sd kd dd (a.R * a.C)) (fun j hj m hm => (pixel_outcome ha hne1 hne2 hm hi hj s1 s2 s3 d3 k1 k2 k3).2) hm
    · intro m hm
      refine forI_fails (MorphMem a sd kd dd (a.R * a.C)) ?_ (k := a.C - 1) (by omega) ?_ hm
      · exact fun j hj m hm => (pixel_outcome ha hne1 hne2 hm (by omega) hj s1 s2 s3 d3 k1 k2 k3).2
      · exact fun m hm => (pixel_oob ha hm (by omega) (by omega) hbig s1 s3).2

end
end HyperCV
