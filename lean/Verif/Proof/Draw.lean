/- Drawing. -/
import Verif.Model.Draw
import Verif.Proof.Gradient
import Verif.Proof.Morphology

namespace HyperCV
open Spec

/-- byte `p` belongs to pixel (`r`, `c`) -/
def OnPixel (C ch r c p : Nat) : Prop := ∃ q, q < ch ∧ p = (r * C + c) * ch + q

theorem onPixel_iff {C ch r c r' c' q : Nat} (hc : c < C) (hc' : c' < C) (hq : q < ch) :
    OnPixel C ch r' c' ((r * C + c) * ch + q) ↔ r' = r ∧ c' = c := by
  constructor
  · rintro ⟨q', hq', he⟩
    have h1 : r * C + c = r' * C + c' := by
      have := congrArg (· / ch) he
      simp only [mix_div hq, mix_div hq'] at this
      exact this
    have h2 := congrArg (· / C) h1
    have h3 := congrArg (· % C) h1
    simp only [mix_div hc, mix_div hc', mix_mod hc, mix_mod hc'] at h2 h3
    exact ⟨h2.symm, h3.symm⟩
  · rintro ⟨rfl, rfl⟩
    exact ⟨q, hq, rfl⟩

theorem neg_half {n : Nat} (hn : n ≤ 2147483647) :
    (-CI.lit (n:Int) / CI.lit 2 : CI) = CI.lit (-((n / 2 : Nat) : Int)) ∧ (CI.lit (n:Int) / CI.lit 2 : CI) = CI.lit ((n / 2 : Nat) : Int) := by
  have h1 : (-(n:Int)).tdiv 2 = -((n / 2 : Nat) : Int) := by
    rw [Int.neg_tdiv, Int.tdiv_eq_ediv_of_nonneg (by omega)]; norm_cast
  have h2 : ((n:Int)).tdiv 2 = ((n / 2 : Nat) : Int) := by
    rw [Int.tdiv_eq_ediv_of_nonneg (by omega)]; norm_cast
  constructor
  · rw [show (-CI.lit (n:Int) : CI) = CI.lit (-(n:Int)) from CI.neg_ok (by constructor <;> omega),
      CI.div_ok (by decide) (by rw [h1]; constructor <;> omega), h1]
  · rw [CI.div_ok (by decide) (by rw [h2]; constructor <;> omega), h2]

section
variable {m : Mem} {dd R C : Nat} {col : Nat → UInt8}

theorem paint3_fills {r c : Nat} (hr : r < R) (hc : c < C) (hN : R * C * 3 ≤ 2147483647) {c0 c1 c2 : UInt8}
    (h0 : c0 = col 0) (h1 : c1 = col 1) (h2 : c2 = col 2) :
    Fills (paint3 dd C 3 r c c0 c1 c2) m dd (R * C * 3) (fun p => col (p % 3)) (OnPixel C 3 r c) := by
  have b0 := img8_lt (ch := 3) (c := 0) hr hc (by decide)
  have b1 := img8_lt (ch := 3) (c := 1) hr hc (by decide)
  have b2 := img8_lt (ch := 3) (c := 2) hr hc (by decide)
  have e0 : (CI.lit (r:Int) * CI.lit (C:Int) * CI.lit 3 + CI.lit (c:Int) * CI.lit 3 : CI) = CI.lit (((r * C + c) * 3 + 0 : Nat) : Int) := by
    have e : (r * C + c) * 3 + 0 = r * C * 3 + c * 3 := by ring
    rw [e] at b0 ⊢
    have h : r * C * 3 + c * 3 < 2147483648 := by omega
    have h1 : 0 < C := by omega
    exact CI.add_down (by assumption) (fun hh => CI.mul_down (b := 3) hh (by decide) (fun hh => CI.mul_down hh h1 fun _ => rfl))
      (fun hh => CI.mul_down (b := 3) hh (by decide) fun _ => rfl)
  have e1 : (CI.lit (r:Int) * CI.lit (C:Int) * CI.lit 3 + CI.lit (c:Int) * CI.lit 3 + CI.lit 1 : CI) = CI.lit (((r * C + c) * 3 + 1 : Nat) : Int) :=
    eval_img (R := R) (C := C) (ch := 3) (i := r) (j := c) (c := 1) hr hc (by decide) hN
  have e2 : (CI.lit (r:Int) * CI.lit (C:Int) * CI.lit 3 + CI.lit (c:Int) * CI.lit 3 + CI.lit 2 : CI) = CI.lit (((r * C + c) * 3 + 2 : Nat) : Int) :=
    eval_img (R := R) (C := C) (ch := 3) (i := r) (j := c) (c := 2) hr hc (by decide) hN
  unfold paint3
  have key : Fills (do
      store dd (((r * C + c) * 3 + 0 : Nat) : Int) c0
      store dd (((r * C + c) * 3 + 1 : Nat) : Int) c1
      store dd (((r * C + c) * 3 + 2 : Nat) : Int) c2) m dd (R * C * 3) (fun p => col (p % 3))
      (fun p => p = (r * C + c) * 3 + 0 ∨ p = (r * C + c) * 3 + 1 ∨ p = (r * C + c) * 3 + 2) :=
    Fills.seq (Fills.store b0 (by beta_reduce; rw [mix_mod (by decide), h0])) (Fills.seq (Fills.store b1 (by beta_reduce; rw [mix_mod (by decide), h1]))
      (Fills.store b2 (by beta_reduce; rw [mix_mod (by decide), h2])))
  have key2 := key.congr (Q := OnPixel C 3 r c) (new' := fun p => col (p % 3)) (by
    intro p _
    constructor
    · rintro (h | h | h)
      · exact ⟨0, by decide, h⟩
      · exact ⟨1, by decide, h⟩
      · exact ⟨2, by decide, h⟩
    · rintro ⟨q, hq, h⟩
      have : q = 0 ∨ q = 1 ∨ q = 2 := by omega
      rcases this with rfl | rfl | rfl
      · exact Or.inl h
      · exact Or.inr (Or.inl h)
      · exact Or.inr (Or.inr h)) (fun _ _ _ => rfl)
  intro g
  rw [← key2 g]
  have st0 := store_put (m := m) (h := dd) (n := R * C * 3) (f := g) (v := c0) b0
  rw [bind_ok (ev_ok e0 _), bind_ok st0, bind_ok (ev_ok e1 _)]
  refine Eq.trans ?_ (bind_ok st0).symm
  have st1 := store_put (m := m) (h := dd) (n := R * C * 3) (f := fun i' => if i' = (r * C + c) * 3 + 0 then c0 else g i') (v := c1) b1
  refine (bind_ok st1).trans (Eq.trans ?_ (bind_ok st1).symm)
  exact bind_ok (ev_ok e2 _)

theorem paint1_fills {r c : Nat} (hr : r < R) (hc : c < C) (hN : R * C * 1 ≤ 2147483647) {c0 : UInt8} (h0 : c0 = col 0) :
    Fills (do let p ← ev (CI.lit (r:Int) * CI.lit (C:Int) + CI.lit (c:Int)); store dd p c0) m dd (R * C * 1) (fun p => col (p % 1)) (OnPixel C 1 r c) := by
  have b0 := img8_lt (ch := 1) (c := 0) hr hc (by decide)
  have e0 := eval_px1 hr hc (by omega)
  refine Fills.bind (fun g => ev_ok e0 _) ?_
  refine (Fills.store b0 (by beta_reduce; rw [mix_mod (by decide), h0])).congr ?_ (fun _ _ _ => rfl)
  intro p _
  constructor
  · intro h; exact ⟨0, by decide, h⟩
  · rintro ⟨q, hq, h⟩
    obtain rfl : q = 0 := by omega
    exact h

/-- colour of channel `q` of a drawn point -/
def pointColour (ch : Nat) (color : RGB) (q : Nat) : UInt8 :=
  if ch = 1 then color.r else if q = 0 then color.b else if q = 1 then color.g else color.r

theorem pointPixel_fills {ch : Nat} (hch : ch = 1 ∨ ch = 3) (hN : R * C * ch ≤ 2147483647) (color : RGB) {x y i j : Int}
    (hx : CI.InR (x + i)) (hy : CI.InR (y + j)) :
    Fills (pointPixel dd R C ch color x y i j) m dd (R * C * ch) (fun p => pointColour ch color (p % ch))
      (fun p => ∃ r c : Nat, r < R ∧ c < C ∧ (r:Int) = y + j ∧ (c:Int) = x + i ∧ OnPixel C ch r c p) := by
  unfold pointPixel
  refine Fills.bind (fun g => ev_ok (CI.add_ok hx) _) ?_
  by_cases c1 : x + i < 0 ∨ (C:Int) ≤ x + i
  · rw [if_pos c1]
    refine Fills.skip.congr ?_ (fun _ _ _ => rfl)
    intro p _
    constructor
    · exact False.elim
    · rintro ⟨r, c, h1, h2, h3, h4, -⟩; omega
  rw [if_neg c1]
  refine Fills.bind (fun g => ev_ok (CI.add_ok hy) _) ?_
  by_cases c2 : y + j < 0 ∨ (R:Int) ≤ y + j
  · rw [if_pos c2]
    refine Fills.skip.congr ?_ (fun _ _ _ => rfl)
    intro p _
    constructor
    · exact False.elim
    · rintro ⟨r, c, h1, h2, h3, h4, -⟩; omega
  rw [if_neg c2]
  obtain ⟨c, hc⟩ : ∃ c : Nat, x + i = c := ⟨(x + i).toNat, by omega⟩
  obtain ⟨r, hr⟩ : ∃ r : Nat, y + j = r := ⟨(y + j).toNat, by omega⟩
  have hrR : r < R := by omega
  have hcC : c < C := by omega
  rw [hc, hr]
  have hiff : ∀ p, OnPixel C ch r c p ↔ ∃ r' c' : Nat, r' < R ∧ c' < C ∧ (r':Int) = r ∧ (c':Int) = c ∧ OnPixel C ch r' c' p := by
    intro p
    constructor
    · intro h; exact ⟨r, c, hrR, hcC, rfl, rfl, h⟩
    · rintro ⟨r', c', -, -, h3, h4, h5⟩
      obtain rfl : r' = r := by omega
      obtain rfl : c' = c := by omega
      exact h5
  rcases hch with rfl | rfl
  · rw [if_neg (by decide), if_pos (by decide)]
    exact (paint1_fills (col := pointColour 1 color) hrR hcC hN rfl).congr (fun p _ => hiff p) (fun _ _ _ => rfl)
  · rw [if_pos (by decide)]
    exact (paint3_fills (col := pointColour 3 color) hrR hcC hN rfl rfl rfl).congr (fun p _ => hiff p) (fun _ _ _ => rfl)

/-- pixel (`r`, `c`) lies in the square of half-width `k` around (`x`, `y`) -/
def InSquare (k : Nat) (x y : Int) (r c : Nat) : Prop := |(c:Int) - x| ≤ k ∧ |(r:Int) - y| ≤ k

theorem pointSquare_fills {ch : Nat} (hch : ch = 1 ∨ ch = 3) (hN : R * C * ch ≤ 2147483647) (color : RGB) {x y : Int} {size : Nat}
    (hsz : size ≤ 2147483647) (hx : |x| + (size / 2 : Nat) ≤ 2147483647) (hy : |y| + (size / 2 : Nat) ≤ 2147483647) :
    Fills (pointSquare dd R C ch color size x y) m dd (R * C * ch) (fun p => pointColour ch color (p % ch))
      (fun p => ∃ r c : Nat, r < R ∧ c < C ∧ InSquare (size / 2) x y r c ∧ OnPixel C ch r c p) := by
  obtain ⟨n1, n2⟩ := neg_half hsz
  have ax := le_abs_self x
  have ax' := neg_le_abs x
  have ay := le_abs_self y
  have ay' := neg_le_abs y
  unfold pointSquare
  refine Fills.bind (fun g => ev_ok n1 _) (Fills.bind (fun g => ev_ok n2 _) ?_)
  generalize size / 2 = k at *
  have key := Fills.loop_from (n := 2 * k + 1) (lo := -(k:Int)) (hi := (k:Int) + 1) (m := m) (d := dd) (N := R * C * ch)
    (new := fun p => pointColour ch color (p % ch))
    (body := fun i => forI (-(k:Int)) ((k:Int) + 1) fun j => pointPixel dd R C ch color x y i j) (by push_cast; ring)
    (fun i hi => Fills.loop_from (n := 2 * k + 1) (lo := -(k:Int)) (hi := (k:Int) + 1) (by push_cast; ring)
      (fun j hj => pointPixel_fills (m := m) (dd := dd) hch hN color (x := x) (y := y) (i := -(k:Int) + (i:Int)) (j := -(k:Int) + (j:Int))
        (by constructor <;> omega) (by constructor <;> omega)))
  refine key.congr ?_ (fun _ _ _ => rfl)
  intro p _
  constructor
  · rintro ⟨i, hi, j, hj, r, c, h1, h2, h3, h4, h5⟩
    refine ⟨r, c, h1, h2, ⟨?_, ?_⟩, h5⟩
    · rw [abs_le]; omega
    · rw [abs_le]; omega
  · rintro ⟨r, c, h1, h2, ⟨h3, h4⟩, h5⟩
    rw [abs_le] at h3 h4
    exact ⟨((c:Int) - x + k).toNat, by omega, ((r:Int) - y + k).toNat, by omega, r, c, h1, h2, by omega, by omega, h5⟩

/-- the copy of the source -/
theorem drawCopy_run {sp dp ch sd : Nat} {si di : Bool} {f g : Nat → UInt8} {ddt : Int} {E : Int}
    (s1 : m.sm sp = some ⟨R, C, 1, ch, 1, sd, si⟩) (d1 : m.sm dp = some ⟨R, C, ddt, ch, E, dd, di⟩)
    (hs : Holds m sd (R * C * ch) f) (hd : Holds m dd (R * C * ch) g) (hne : sd ≠ dd) (hC : 0 < C) (hch : 0 < ch) (hN : R * C * ch ≤ 2147483647) :
    drawCopy (some sp) (some dp) m = .ok ((⟨R, C, 1, ch, 1, sd, si⟩, ⟨R, C, ddt, ch, E, dd, di⟩), m.put dd (R * C * ch) f) := by
  unfold drawCopy
  have g1 : derefS (some sp) m = .ok (_, m) := getS_ok s1
  have g2 : derefS (some dp) m = .ok (_, m) := getS_ok d1
  rw [cassert_bind (by simp), bind_ok g1, cassert_bind (by simp), bind_ok g2, cassert_bind (by simp), bind_ok (ev_ok (size3_eval hC hch hN) _)]
  have cp := memcpy_ok (doff := 0) (soff := 0) (k := R * C * ch) hs hd hne (by omega) (by omega)
  refine (bind_ok cp).trans ?_
  show Except.ok _ = Except.ok _
  congr 2
  apply put_congr
  intro p hp
  rw [if_pos ⟨by omega, by omega⟩]
  congr 1
  omega

/-- colour of channel `q` of a drawn line -/
def lineColour (color : RGB) (q : Nat) : UInt8 := if q = 0 then color.r else if q = 1 then color.g else color.b

theorem linePixel_fills {ch : Nat} (hN : R * C * ch ≤ 2147483647) (hch : 0 < ch) (color : RGB) {i : Nat} (hi : i < R) {j t : Int} (hx : CI.InR (j + t)) :
    Fills (linePixel dd C ch color i j t) m dd (R * C * ch) (fun p => lineColour color (p % ch))
      (fun p => ch = 3 ∧ ∃ c : Nat, c < C ∧ (c:Int) = j + t ∧ OnPixel C ch i c p) := by
  unfold linePixel
  refine Fills.bind (fun g => ev_ok (CI.add_ok hx) _) ?_
  by_cases c1 : j + t < 0 ∨ (C:Int) ≤ j + t
  · rw [if_pos c1]
    refine Fills.skip.congr ?_ (fun _ _ _ => rfl)
    intro p _
    constructor
    · exact False.elim
    · rintro ⟨-, c, h2, h3, -⟩; omega
  rw [if_neg c1]
  obtain ⟨c, hc⟩ : ∃ c : Nat, j + t = c := ⟨(j + t).toNat, by omega⟩
  have hcC : c < C := by omega
  rw [hc]
  by_cases h3 : ch = 3
  · subst h3
    rw [if_pos (by decide)]
    refine (paint3_fills (col := lineColour color) hi hcC hN rfl rfl rfl).congr ?_ (fun _ _ _ => rfl)
    intro p _
    constructor
    · intro h; exact ⟨rfl, c, hcC, rfl, h⟩
    · rintro ⟨-, c', -, h4, h5⟩
      obtain rfl : c' = c := by omega
      exact h5
  · rw [if_neg (by omega)]
    have hno : ∀ p, False ↔ (ch = 3 ∧ ∃ c' : Nat, c' < C ∧ (c':Int) = c ∧ OnPixel C ch i c' p) :=
      fun p => ⟨False.elim, fun h => h3 h.1⟩
    by_cases h1 : ch = 1
    · subst h1
      rw [if_pos (by decide)]
      refine Fills.bind (fun g => ev_ok (eval_px1 hi hcC (by omega)) _) ?_
      refine Fills.bindP (Q := fun _ => True) (fun g => ⟨_, load_ok (holds_put _ _ _ _) (img8_lt hi hcC (by decide)), trivial⟩) (fun _ _ => ?_)
      exact Fills.skip.congr (fun p _ => hno p) (fun _ _ _ => rfl)
    · rw [if_neg (by omega)]
      exact Fills.skip.congr (fun p _ => hno p) (fun _ _ _ => rfl)

/-- the row computed for column `j` -/
def lineVal (k b : FV) (j : Int) : Option ℤ :=
  FV.trunc (f64.add (f64.conv (f32.add (f32.mul (f32.ofInt j) k) b)) (.fin false (1 / 2)))

theorem lineRow_ok {k b : FV} {j n : ℤ} (h : lineVal k b j = some n) (m : Mem) : lineRow k b j m = .ok (n, m) := by
  unfold lineRow lineVal at *
  rw [h]; rfl

theorem lineRow_undef {k b : FV} {j : ℤ} (h : lineVal k b j = none) (m : Mem) : lineRow k b j m = .error (.ub .fpConv) := by
  unfold lineRow lineVal at *
  rw [h]; rfl

theorem lineStep_fills {ch : Nat} (hN : R * C * ch ≤ 2147483647) (hch : 0 < ch) (color : RGB) {th : Nat} (hth : th ≤ 2147483647)
    (hthC : C + th / 2 ≤ 2147483647) {k b : FV} {i j : Nat} (hi : i < R) (hj : j < C) {n : ℤ} (hn : lineVal k b j = some n) :
    Fills (lineStep dd C ch color th k b i j) m dd (R * C * ch) (fun p => lineColour color (p % ch))
      (fun p => ch = 3 ∧ (i:Int) = n ∧ ∃ c : Nat, c < C ∧ |(c:Int) - j| ≤ (th / 2 : Nat) ∧ OnPixel C ch i c p) := by
  obtain ⟨n1, n2⟩ := neg_half hth
  unfold lineStep
  refine Fills.bind (fun g => lineRow_ok hn _) ?_
  by_cases hin : (i:Int) = n
  · rw [if_pos hin]
    refine Fills.bind (fun g => ev_ok n1 _) (Fills.bind (fun g => ev_ok n2 _) ?_)
    generalize th / 2 = k at *
    have key := Fills.loop_from (n := 2 * k + 1) (lo := -(k:Int)) (hi := (k:Int) + 1) (m := m) (d := dd) (N := R * C * ch)
      (new := fun p => lineColour color (p % ch))
      (body := fun t => linePixel dd C ch color i j t) (by push_cast; ring)
      (fun t ht => linePixel_fills (m := m) (dd := dd) hN hch color hi (j := j) (t := -(k:Int) + (t:Int)) (by constructor <;> omega))
    refine key.congr ?_ (fun _ _ _ => rfl)
    intro p _
    constructor
    · rintro ⟨t, ht, h3, c, h4, h5, h6⟩
      refine ⟨h3, hin, c, h4, ?_, h6⟩
      rw [abs_le]; omega
    · rintro ⟨h3, -, c, h4, h5, h6⟩
      rw [abs_le] at h5
      exact ⟨((c:Int) - j + k).toNat, by omega, h3, c, h4, by omega, h6⟩
  · rw [if_neg hin]
    exact Fills.skip.congr (fun p _ => ⟨False.elim, fun h => hin h.2.1⟩) (fun _ _ _ => rfl)

theorem line_fills {ch : Nat} (hN : R * C * ch ≤ 2147483647) (hch : 0 < ch) (color : RGB) {th : Nat} (hth : th ≤ 2147483647)
    (hthC : C + th / 2 ≤ 2147483647) {k b : FV} {row : Nat → ℤ} (hrow : ∀ j, j < C → lineVal k b j = some (row j)) :
    Fills (forI 0 (R:Int) fun i => forI 0 (C:Int) fun j => lineStep dd C ch color th k b i j) m dd (R * C * ch)
      (fun p => lineColour color (p % ch))
      (fun p => ∃ i, i < R ∧ ∃ j, j < C ∧ ch = 3 ∧ (i:Int) = row j ∧ ∃ c : Nat, c < C ∧ |(c:Int) - (j:Nat)| ≤ (th / 2 : Nat) ∧ OnPixel C ch i c p) :=
  nest2 fun i j hi hj => lineStep_fills hN hch color hth hthC hi hj (hrow j hj)

theorem line_undef {ch : Nat} (hN : R * C * ch ≤ 2147483647) (hch : 0 < ch) (color : RGB) {th : Nat} (hth : th ≤ 2147483647)
    (hthC : C + th / 2 ≤ 2147483647) {k b : FV} {j0 : Nat} (hR : 0 < R) (hj0 : j0 < C) (hu : lineVal k b j0 = none) (g : Nat → UInt8) :
    (forI 0 (R:Int) fun i => forI 0 (C:Int) fun j => lineStep dd C ch color th k b i j) (m.put dd (R * C * ch) g) = .error (.ub .fpConv) := by
  let P : Mem → Prop := fun m' => ∃ g, m' = m.put dd (R * C * ch) g
  have step : ∀ i j : Nat, i < R → j < C → ∀ m', P m' → lineStep dd C ch color th k b i j m' = .error (.ub .fpConv) ∨
      ∃ m'', lineStep dd C ch color th k b i j m' = .ok ((), m'') ∧ P m'' := by
    rintro i j hi hj m' ⟨g, rfl⟩
    cases hv : lineVal k b j with
    | none => left; unfold lineStep; exact bind_err (lineRow_undef hv _)
    | some n => right; exact ⟨_, lineStep_fills hN hch color hth hthC hi hj hv g, _, rfl⟩
  refine forI_fails P (fun i hi m' hm' => forI_outcome P (fun j hj m' hm' => step i j hi hj m' hm') hm') (k := 0) hR ?_ ⟨g, rfl⟩
  intro m' hm'
  refine forI_fails P (fun j hj m' hm' => step 0 j hR hj m' hm') hj0 ?_ hm'
  intro m' _
  unfold lineStep
  exact bind_err (lineRow_undef hu _)

end
end HyperCV
