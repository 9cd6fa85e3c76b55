/- C46, C47: drawing points and lines. -/
import Verif.Proof.Draw
import Verif.Props.Gradient
import Verif.Proof.InvertExact
import Mathlib.Tactic.LinearCombination

namespace HyperCV
open Spec

namespace Spec
/-- valid arguments of the drawing routines: two byte images of the same size and number of channels, in separate memory -/
structure DrawArgs (m : Mem) (sp dp R C ch : Nat) (px old : Nat → Nat → Nat → UInt8) : Prop where
  src : IsImage8 m sp R C ch px
  dst : IsImage8 m dp R C ch old
  sep : SepPixels m sp dp
  size : R * C * ch ≤ 2147483647

/-- one of the first `n` points of `v`, given as (column, row), is within `k` of column `c` and of row `r` -/
def NearPoint (v : List (Int × Int)) (n k r c : Nat) : Prop :=
  ∃ i x y, i < n ∧ v[i]? = some (x, y) ∧ |(c:Int) - x| ≤ k ∧ |(r:Int) - y| ≤ k

/-- the colour as stored by `draw_POINT`: red in grey images, blue-green-red in colour images -/
def bgr (ch : Nat) (color : RGB) (q : Nat) : UInt8 := if ch = 1 then color.r else [color.b, color.g, color.r].getD q 0

/-- the colour as stored by `draw_line`: red-green-blue -/
def rgb (color : RGB) (q : Nat) : UInt8 := [color.r, color.g, color.b].getD q 0
end Spec

section
variable {m : Mem} {sp dp R C ch : Nat} {px old : Nat → Nat → Nat → UInt8}

theorem bgr_eq {color : RGB} {q : Nat} (hch : ch = 1 ∨ ch = 3) (hq : q < ch) : pointColour ch color q = bgr ch color q := by
  unfold pointColour bgr
  rcases hch with rfl | rfl
  · simp
  · have : q = 0 ∨ q = 1 ∨ q = 2 := by omega
    rcases this with rfl | rfl | rfl <;> rfl

theorem rgb_eq {color : RGB} {q : Nat} (hq : q < 3) : lineColour color q = rgb color q := by
  unfold lineColour rgb
  have : q = 0 ∨ q = 1 ∨ q = 2 := by omega
  rcases this with rfl | rfl | rfl <;> rfl

/-- drawing into the copy of the source -/
theorem draw_fills (a : DrawArgs m sp dp R C ch px old) {x : SimpleMat × SimpleMat → M Unit} {new : Nat → UInt8} {P : Nat → Prop}
    {sd dd : Nat} {si di : Bool} (s1 : m.sm sp = some ⟨R, C, 1, ch, 1, sd, si⟩) (d1 : m.sm dp = some ⟨R, C, 1, ch, 1, dd, di⟩)
    (hf : Fills (x (⟨R, C, 1, ch, 1, sd, si⟩, ⟨R, C, 1, ch, 1, dd, di⟩)) m dd (R * C * ch) new P) :
    ∃ m' out, (drawCopy (some sp) (some dp) >>= x) m = .ok ((), m') ∧ IsImage8 m' dp R C ch out ∧ OnlyPixels m m' dp ∧
      ∀ r c q, r < R → c < C → q < ch →
        (P ((r * C + c) * ch + q) → out r c q = new ((r * C + c) * ch + q)) ∧ (¬ P ((r * C + c) * ch + q) → out r c q = px r c q) := by
  classical
  obtain ⟨sd', si', s1', s2⟩ := img8_lit a.src
  rw [s1] at s1'; cases s1'
  obtain ⟨dd', di', d1', d2⟩ := img8_lit a.dst
  rw [d1] at d1'; cases d1'
  have cp := drawCopy_run s1 d1 s2 d2 (sep_ne a.sep s1 d1) a.src.posC a.src.posCh a.size
  let out : Nat → Nat → Nat → UInt8 := fun r c q => if P ((r * C + c) * ch + q) then new ((r * C + c) * ch + q) else px r c q
  obtain ⟨o1, o2⟩ := img8_put (px' := out) (new := fun p => if P p then new p else imgBytes C ch 1 (fun i j c _ => px i j c) p) a.dst d1 (by
    intro i j c hi hj hc
    show (if _ then _ else _) = (if _ then _ else _)
    rw [imgBytes_at8 hj hc])
  refine ⟨_, out, (bind_ok cp).trans ((hf _).trans ?_), o1, o2, ?_⟩
  · refine congrArg (fun x => Except.ok ((), x)) (put_congr m _ _ ?_)
    intro p _; congr
  · intro r c q _ _ _
    exact ⟨fun h => if_pos h, fun h => if_neg h⟩

/-- **C46**: for coordinates that do not overflow `int`, `draw_POINT` changes exactly the pixels of the clipped squares. -/
theorem C46_draw_point (a : DrawArgs m sp dp R C ch px old) (hch : ch = 1 ∨ ch = 3) (v : List (Int × Int)) {n size : Nat} (color : RGB)
    (hn : n ≤ v.length) (hsz : size ≤ 2147483647)
    (hv : ∀ p ∈ v, |p.1| + (size / 2 : Nat) ≤ 2147483647 ∧ |p.2| + (size / 2 : Nat) ≤ 2147483647) :
    ∃ m' out, draw_POINT (some sp) (some dp) v n color size m = .ok ((), m') ∧ IsImage8 m' dp R C ch out ∧ OnlyPixels m m' dp ∧
      ∀ r c q, r < R → c < C → q < ch →
        (NearPoint v n (size / 2) r c → out r c q = bgr ch color q) ∧ (¬ NearPoint v n (size / 2) r c → out r c q = px r c q) := by
  obtain ⟨sd, si, s1, s2⟩ := img8_lit a.src
  obtain ⟨dd, di, d1, d2⟩ := img8_lit a.dst
  have hf : Fills (forI 0 (n:Int) fun k => match v[k.toNat]? with
      | none => fail (.ub .oob)
      | some (x, y) => pointSquare dd R C ch color size x y) m dd (R * C * ch) (fun p => pointColour ch color (p % ch))
      (fun p => ∃ k, k < n ∧ ∃ x y, v[k]? = some (x, y) ∧ ∃ r c : Nat, r < R ∧ c < C ∧ InSquare (size / 2) x y r c ∧ OnPixel C ch r c p) := by
    refine Fills.loop fun k hk => ?_
    have hlt : k < v.length := by omega
    obtain ⟨⟨x, y⟩, hxy⟩ : ∃ p, v[k]? = some p := ⟨_, List.getElem?_eq_getElem hlt⟩
    have hm := hv (x, y) (List.mem_of_getElem? hxy)
    rw [Int.toNat_natCast, hxy]
    refine (pointSquare_fills hch a.size color hsz hm.1 hm.2).congr ?_ (fun _ _ _ => rfl)
    intro p _
    constructor
    · intro h; exact ⟨x, y, rfl, h⟩
    · rintro ⟨x', y', he, h⟩
      cases he
      exact h
  obtain ⟨m', out, r1, r2, r3, r4⟩ := draw_fills (x := fun sd => forI 0 (n:Int) fun k => match v[k.toNat]? with
      | none => fail (.ub .oob)
      | some (x, y) => pointSquare sd.2.data sd.1.rows sd.1.cols sd.1.channels color size x y) a s1 d1 hf
  refine ⟨m', out, r1, r2, r3, ?_⟩
  intro r c q hr hc hq
  obtain ⟨t1, t2⟩ := r4 r c q hr hc hq
  have hiff : (∃ k, k < n ∧ ∃ x y, v[k]? = some (x, y) ∧ ∃ r' c' : Nat, r' < R ∧ c' < C ∧ InSquare (size / 2) x y r' c' ∧
      OnPixel C ch r' c' ((r * C + c) * ch + q)) ↔ NearPoint v n (size / 2) r c := by
    constructor
    · rintro ⟨k, hk, x, y, he, r', c', h1, h2, h3, h4⟩
      obtain ⟨rfl, rfl⟩ := (onPixel_iff hc h2 hq).1 h4
      exact ⟨k, x, y, hk, he, h3.1, h3.2⟩
    · rintro ⟨k, x, y, hk, he, h1, h2⟩
      exact ⟨k, hk, x, y, he, r, c, hr, hc, ⟨h1, h2⟩, (onPixel_iff hc hc hq).2 ⟨rfl, rfl⟩⟩
  constructor
  · intro h
    rw [t1 (hiff.2 h), mix_mod hq, bgr_eq hch hq]
  · intro h
    exact t2 fun h' => h (hiff.1 h')

theorem forI_shift {n : Nat} {lo hi : Int} {body : Int → M Unit} (hn : hi = lo + (n : Int)) :
    forI lo hi body = forI 0 (n : Int) (fun i => body (lo + i)) := by
  unfold forI forA
  have e1 : (hi - lo).toNat = n := by omega
  have e2 : ((n : Int) - 0).toNat = n := by omega
  rw [e1, e2]
  have key : ∀ k (i : Int), forLoop (fun i (_ : Unit) => body i) k (lo + i) () = forLoop (fun i (_ : Unit) => body (lo + i)) k i () := by
    intro k
    induction k with
    | zero => intro i; rfl
    | succ k ih =>
      intro i
      rw [forLoop, forLoop]
      congr 1
      funext _
      rw [← ih (i + 1), Int.add_assoc]
  have := key n 0
  rwa [Int.add_zero] at this

/-- C46 is false for columns near the largest `int`: the clipping test itself overflows. -/
theorem C46_refuted_overflow (a : DrawArgs m sp dp R C ch px old) (y : Int) {size : Nat} (color : RGB) (hs2 : 2 ≤ size)
    (hC : C + size / 2 ≤ 2147483647) (hsz : size ≤ 2147483647) :
    draw_POINT (some sp) (some dp) [(2147483647, y)] 1 color size m = .error (.ub .overflow) := by
  obtain ⟨sd, si, s1, s2⟩ := img8_lit a.src
  obtain ⟨dd, di, d1, d2⟩ := img8_lit a.dst
  have cp := drawCopy_run s1 d1 s2 d2 (sep_ne a.sep s1 d1) a.src.posC a.src.posCh a.size
  unfold draw_POINT
  refine (bind_ok cp).trans ?_
  generalize m.put dd (R * C * ch) (imgBytes C ch 1 fun i j c _ => px i j c) = m1
  obtain ⟨n1, n2⟩ := neg_half hsz
  have hk : 1 ≤ size / 2 := by omega
  have hk2 : size / 2 ≤ 1073741823 := by omega
  generalize hkk : size / 2 = k at *
  have hlo : forI (-(k:Int)) ((k:Int) + 1) (fun i => forI (-(k:Int)) ((k:Int) + 1) fun j => pointPixel dd R C ch color 2147483647 y i j) m1
      = .error (.ub .overflow) := by
    rw [forI_shift (n := 2 * k + 1) (by push_cast; ring)]
    refine forI_fails (k := k + 1) (fun m' => m' = m1) ?_ (by omega) ?_ rfl
    · rintro i hi m' rfl
      rw [forI_shift (n := 2 * k + 1) (by push_cast; ring)]
      refine forI_outcome (fun m'' => m'' = m') ?_ rfl
      rintro j hj m'' rfl
      by_cases hik : i ≤ k
      · right
        refine ⟨_, ?_, rfl⟩
        unfold pointPixel
        refine (bind_ok (ev_ok (CI.add_ok (by constructor <;> omega)) _)).trans ?_
        rw [if_pos (by right; omega)]
        rfl
      · left
        unfold pointPixel
        refine bind_err ?_
        rw [CI.add_bad (by unfold CI.InR; omega)]
        rfl
    · rintro m' rfl
      rw [forI_shift (n := 2 * k + 1) (by push_cast; ring)]
      have bad : ∀ j m', pointPixel dd R C ch color 2147483647 y (-(k:Int) + ((k + 1 : Nat) : Int)) j m' = .error (.ub .overflow) := by
        intro j m'
        unfold pointPixel
        refine bind_err ?_
        rw [CI.add_bad (by unfold CI.InR; push_cast; omega)]
        rfl
      refine forI_fails (n := 2 * k + 1) (k := 0) (fun _ => True) (fun j _ m' _ => Or.inl ?_) (Nat.succ_pos _) (fun m' _ => ?_) trivial
      · exact bad _ _
      · exact bad _ _
  refine forI_fails (n := 1) (k := 0) (fun m' => m' = m1) ?_ (by decide) ?_ rfl
  · rintro i hi m' rfl
    obtain rfl : i = 0 := by omega
    left
    show pointSquare dd R C ch color size 2147483647 y m' = _
    unfold pointSquare
    rw [bind_ok (ev_ok n1 _), bind_ok (ev_ok n2 _)]
    exact hlo
  · rintro m' rfl
    show pointSquare dd R C ch color size 2147483647 y m' = _
    unfold pointSquare
    rw [bind_ok (ev_ok n1 _), bind_ok (ev_ok n2 _)]
    exact hlo

/-- Drawing in place is undefined: the source is copied onto itself with `memcpy`. -/
theorem C46_in_place (hs : IsImage8 m sp R C ch px) (hsz : R * C * ch ≤ 2147483647) (v : List (Int × Int)) (n size : Int) (color : RGB)
    (x1 y1 x2 y2 th : Int) :
    draw_POINT (some sp) (some sp) v n color size m = .error (.ub .overlap) ∧
    draw_line (some sp) (some sp) x1 y1 x2 y2 color th m = .error (.ub .overlap) := by
  obtain ⟨sd, si, s1, s2⟩ := img8_lit hs
  have hpos : 0 < R * C * ch := Nat.mul_pos (Nat.mul_pos hs.posR hs.posC) hs.posCh
  have cp : drawCopy (some sp) (some sp) m = .error (.ub .overlap) := by
    unfold drawCopy
    have g1 : derefS (some sp) m = .ok (_, m) := getS_ok s1
    rw [cassert_bind (by simp), bind_ok g1, cassert_bind (by simp), bind_ok g1, cassert_bind (by simp),
      bind_ok (ev_ok (size3_eval hs.posC hs.posCh hsz) _)]
    refine bind_err ?_
    unfold memcpy
    rw [if_neg (by omega), if_pos ⟨rfl, by omega, by omega, by omega⟩]
    rfl
  unfold draw_POINT draw_line
  exact ⟨bind_err cp, bind_err cp⟩

/-! ### Lines -/

theorem is_div {F : Fmt} {a b : FV} {x y : ℚ} (ha : a.Is x) (hb : b.Is y) (hy : y ≠ 0) (h : F.Rep (x / y)) : (F.div a b).Is (x / y) := by
  obtain ⟨s, rfl⟩ := ha
  obtain ⟨s', rfl⟩ := hb
  show FV.Is (if y = 0 then _ else _) _
  rw [if_neg hy]
  exact round_exact h

theorem is_sub {F : Fmt} {a b : FV} {x y : ℚ} (ha : a.Is x) (hb : b.Is y) (h : F.Rep (x - y)) : (F.sub a b).Is (x - y) := by
  obtain ⟨s', rfl⟩ := hb
  rw [sub_eq_add_neg] at *
  exact is_add ha ⟨_, rfl⟩ h

theorem is_conv {F : Fmt} {a : FV} {x : ℚ} (ha : a.Is x) (h : F.Rep x) : (F.conv a).Is x := by
  obtain ⟨s, rfl⟩ := ha
  exact round_exact h

theorem rep64_half {n : ℤ} (h : |n| ≤ 16777216) : f64.Rep ((n:ℚ) + 1 / 2) := by
  have h2 := abs_le.1 h
  refine ⟨2 * n + 1, -1, ?_, ?_, by decide, ?_⟩
  · push_cast; norm_num; ring
  · show |2 * n + 1| ≤ 2 ^ 53
    rw [abs_le]; constructor <;> omega
  · have h3 : (-16777216:ℚ) ≤ n := by exact_mod_cast h2.1
    have h4 : (n:ℚ) ≤ 16777216 := by exact_mod_cast h2.2
    refine lt_of_le_of_lt (b := (16777217:ℚ)) ?_ ?_
    · rw [abs_le]; constructor <;> linarith
    · show (16777217:ℚ) < 2 ^ 1024
      exact lt_of_lt_of_le (b := (2:ℚ) ^ 25) (by norm_num) (pow_le_pow_right₀ (by norm_num) (by norm_num))

theorem trunc_half {v : FV} {n : ℤ} (h : |n| ≤ 16777216) (hv : v.Is ((n:ℚ) + 1 / 2)) :
    v.trunc = some (if 0 ≤ n then n else n + 1) := by
  obtain ⟨s, rfl⟩ := hv
  rw [abs_le] at h
  have key : (if 0 ≤ (n:ℚ) + 1 / 2 then ⌊(n:ℚ) + 1 / 2⌋ else -⌊-((n:ℚ) + 1 / 2)⌋) = if 0 ≤ n then n else n + 1 := by
    by_cases hn : 0 ≤ n
    · have : (0:ℚ) ≤ n := by exact_mod_cast hn
      rw [if_pos hn, if_pos (by linarith), Int.floor_eq_iff]
      constructor <;> linarith
    · have h1 : (n:ℚ) ≤ -1 := by exact_mod_cast (by omega : n ≤ -1)
      rw [if_neg hn, if_neg (by linarith)]
      have : ⌊-((n:ℚ) + 1 / 2)⌋ = -n - 1 := by
        rw [Int.floor_eq_iff]; push_cast
        constructor <;> linarith
      rw [this]; ring
  show (if _ then _ else _) = _
  rw [key, if_pos]
  split <;> omega

namespace Spec
/-- the coordinates of a line are small enough for `float` arithmetic to be exact, and `x2 - x1` is `k` times `y2 - y1` -/
structure ExactSlope (C : Nat) (x1 y1 x2 y2 k : ℤ) : Prop where
  slope : x2 - x1 = k * (y2 - y1)
  nonzero : y2 - y1 ≠ 0
  dx : |x2 - x1| ≤ 16777216
  dy : |y2 - y1| ≤ 16777216
  base_x : |x1| ≤ 16777216
  base_y : |y1| ≤ 16777216
  kx : |k * x1| ≤ 16777216
  b : |y1 - k * x1| ≤ 16777216
  cols : C ≤ 16777216
  kj : ∀ j : Nat, j < C → |j * k| ≤ 16777216
  row : ∀ j : Nat, j < C → |j * k + (y1 - k * x1)| ≤ 16777216
end Spec

/-- with an integral slope the row computed for column `j` is exact, except that a row of -1 becomes 0 -/
theorem line_row {C : Nat} {x1 y1 x2 y2 k : ℤ} (h : ExactSlope C x1 y1 x2 y2 k) {j : Nat} (hj : j < C) :
    lineVal (f32.div (f32.ofInt (x2 - x1)) (f32.ofInt (y2 - y1)))
      (f32.sub (f32.ofInt y1) (f32.mul (f32.div (f32.ofInt (x2 - x1)) (f32.ofInt (y2 - y1))) (f32.ofInt x1))) j =
      some (if 0 ≤ j * k + (y1 - k * x1) then j * k + (y1 - k * x1) else j * k + (y1 - k * x1) + 1) := by
  have hnz : ((y2 - y1 : ℤ) : ℚ) ≠ 0 := by exact_mod_cast h.nonzero
  have hk : ((x2 - x1 : ℤ) : ℚ) / ((y2 - y1 : ℤ) : ℚ) = (k : ℤ) := by
    rw [h.slope]; push_cast at *; field_simp
  have hkb : |k| ≤ 16777216 := by
    have h1 := h.dx
    rw [h.slope, abs_mul] at h1
    have h2 : 1 ≤ |y2 - y1| := Int.one_le_abs h.nonzero
    nlinarith [abs_nonneg k]
  have k1 : (f32.div (f32.ofInt (x2 - x1)) (f32.ofInt (y2 - y1))).Is (k:ℤ) := by
    have := is_div (F := f32) (is_ofInt (rep32_int h.dx)) (is_ofInt (rep32_int h.dy)) hnz (by rw [hk]; exact rep32_int hkb)
    rwa [hk] at this
  generalize f32.div (f32.ofInt (x2 - x1)) (f32.ofInt (y2 - y1)) = kf at *
  have b0 : (f32.mul kf (f32.ofInt x1)).Is ((k * x1 : ℤ) : ℚ) := by
    have := is_mul (F := f32) k1 (is_ofInt (rep32_int h.base_x)) (by rw [← Int.cast_mul]; exact rep32_int h.kx)
    rwa [← Int.cast_mul] at this
  have b1 : (f32.sub (f32.ofInt y1) (f32.mul kf (f32.ofInt x1))).Is ((y1 - k * x1 : ℤ) : ℚ) := by
    have := is_sub (F := f32) (is_ofInt (rep32_int h.base_y)) b0 (by rw [← Int.cast_sub]; exact rep32_int h.b)
    rwa [← Int.cast_sub] at this
  have hC := h.cols
  have j0 : (f32.ofInt (j:ℤ)).Is ((j:ℤ):ℚ) := is_ofInt (rep32_int (by rw [abs_le]; constructor <;> omega))
  have j1 : (f32.mul (f32.ofInt (j:ℤ)) kf).Is ((j * k : ℤ) : ℚ) := by
    have := is_mul (F := f32) j0 k1 (by rw [← Int.cast_mul]; exact rep32_int (h.kj j hj))
    rwa [← Int.cast_mul] at this
  have j2 := is_add (F := f32) j1 b1 (by rw [← Int.cast_add]; exact rep32_int (h.row j hj))
  rw [← Int.cast_add] at j2
  have j3 := is_conv (F := f64) j2 (f32_to_f64 (rep32_int (h.row j hj)))
  exact trunc_half (h.row j hj) (is_add (F := f64) j3 ⟨_, rfl⟩ (rep64_half (h.row j hj)))

namespace Spec
/-- the pixels drawn: in every column `j` the pixel of row `y1 + k * (j - x1)`, where `k` is `(x2 - x1) / (y2 - y1)`, and its
neighbours to the left and right up to half the thickness; a row of -1 is drawn in row 0 -/
def OnDrawn (C : Nat) (x1 y1 k : ℤ) (th r c : Nat) : Prop :=
  ∃ j : Nat, j < C ∧ |(c:Int) - j| ≤ (th / 2 : Nat) ∧ ((r:Int) = y1 + k * (j - x1) ∨ (r = 0 ∧ y1 + k * (j - x1) = -1))
end Spec

/-- lines with an integral slope: exactly which pixels of a colour image are changed; other images are only copied -/
theorem C47_draw_line (a : DrawArgs m sp dp R C ch px old) {x1 y1 x2 y2 k : ℤ} (h : ExactSlope C x1 y1 x2 y2 k) (color : RGB) {th : Nat}
    (hth : th ≤ 2147483647) (hthC : C + th / 2 ≤ 2147483647) :
    ∃ m' out, draw_line (some sp) (some dp) x1 y1 x2 y2 color th m = .ok ((), m') ∧ IsImage8 m' dp R C ch out ∧ OnlyPixels m m' dp ∧
      ∀ r c q, r < R → c < C → q < ch →
        (ch = 3 ∧ OnDrawn C x1 y1 k th r c → out r c q = rgb color q) ∧ (¬ (ch = 3 ∧ OnDrawn C x1 y1 k th r c) → out r c q = px r c q) := by
  obtain ⟨sd, si, s1, s2⟩ := img8_lit a.src
  obtain ⟨dd, di, d1, d2⟩ := img8_lit a.dst
  have hdx := abs_le.1 h.dx
  have hdy := abs_le.1 h.dy
  have hf := line_fills (m := m) (dd := dd) (R := R) (C := C) (ch := ch) a.size a.src.posCh color hth hthC (fun j hj => line_row h hj)
  have e1 : (CI.lit x2 - CI.lit x1 : CI) = CI.lit (x2 - x1) := CI.sub_ok (by constructor <;> omega)
  have e2 : (CI.lit y2 - CI.lit y1 : CI) = CI.lit (y2 - y1) := CI.sub_ok (by constructor <;> omega)
  have hf2 : Fills (do
      let dx ← ev (CI.lit x2 - CI.lit x1)
      let dy ← ev (CI.lit y2 - CI.lit y1)
      let k := f32.div (f32.ofInt dx) (f32.ofInt dy)
      let b := f32.sub (f32.ofInt y1) (f32.mul k (f32.ofInt x1))
      forI 0 (R:Int) fun i => forI 0 (C:Int) fun j => lineStep dd C ch color th k b i j) m dd (R * C * ch) _ _ := Fills.bind (fun g => ev_ok e1 _) (Fills.bind (fun g => ev_ok e2 _) hf)
  obtain ⟨m', out, r1, r2, r3, r4⟩ := draw_fills (x := fun sd => do
      let dx ← ev (CI.lit x2 - CI.lit x1)
      let dy ← ev (CI.lit y2 - CI.lit y1)
      let k := f32.div (f32.ofInt dx) (f32.ofInt dy)
      let b := f32.sub (f32.ofInt y1) (f32.mul k (f32.ofInt x1))
      forI 0 sd.1.rows fun i => forI 0 sd.1.cols fun j => lineStep sd.2.data sd.1.cols sd.1.channels color th k b i j) a s1 d1 hf2
  refine ⟨m', out, r1, r2, r3, ?_⟩
  intro r c q hr hc hq
  obtain ⟨t1, t2⟩ := r4 r c q hr hc hq
  have hrow : ∀ j : Nat, ((j:ℤ) * k + (y1 - k * x1)) = y1 + k * (j - x1) := fun j => by ring
  have hiff : (∃ i, i < R ∧ ∃ j, j < C ∧ ch = 3 ∧ (i:Int) = (if 0 ≤ (j:ℤ) * k + (y1 - k * x1) then (j:ℤ) * k + (y1 - k * x1) else
      (j:ℤ) * k + (y1 - k * x1) + 1) ∧ ∃ c' : Nat, c' < C ∧ |(c':Int) - (j:Nat)| ≤ (th / 2 : Nat) ∧
      OnPixel C ch i c' ((r * C + c) * ch + q)) ↔ (ch = 3 ∧ OnDrawn C x1 y1 k th r c) := by
    constructor
    · rintro ⟨i, hi, j, hj, h3, he, c', hc', hd, ho⟩
      obtain ⟨rfl, rfl⟩ := (onPixel_iff hc hc' hq).1 ho
      refine ⟨h3, j, hj, hd, ?_⟩
      rw [hrow] at he
      generalize y1 + k * ((j:ℤ) - x1) = n at *
      split at he <;> omega
    · rintro ⟨h3, j, hj, hd, he⟩
      refine ⟨r, hr, j, hj, h3, ?_, c, hc, hd, (onPixel_iff hc hc hq).2 ⟨rfl, rfl⟩⟩
      rw [hrow]
      generalize y1 + k * ((j:ℤ) - x1) = n at *
      split <;> omega
  constructor
  · intro hd
    rw [t1 (hiff.2 hd), mix_mod hq]
    obtain rfl := hd.1
    exact rgb_eq hq
  · intro hd
    exact t2 fun h' => hd (hiff.1 h')

/-- **C47**, the part that holds: in colour images every image pixel of a diagonal segment gets the colour.
Missing: other directions and grey images, where the property is false (see the refutations below). -/
theorem C47_diagonal_partial (a : DrawArgs m sp dp R C 3 px old) {x1 y1 x2 y2 k : ℤ} (h : ExactSlope C x1 y1 x2 y2 k)
    (hdiag : |x2 - x1| = |y2 - y1|) (color : RGB) {th : Nat} (hth : th ≤ 2147483647) (hthC : C + th / 2 ≤ 2147483647) :
    ∃ m' out, draw_line (some sp) (some dp) x1 y1 x2 y2 color th m = .ok ((), m') ∧ IsImage8 m' dp R C 3 out ∧ OnlyPixels m m' dp ∧
      ∀ r c q t : Nat, r < R → c < C → q < 3 → (t:Int) ≤ |x2 - x1| →
        (c:Int) = x1 + (x2 - x1).sign * t → (r:Int) = y1 + (y2 - y1).sign * t → out r c q = rgb color q := by
  obtain ⟨m', out, r1, r2, r3, r4⟩ := C47_draw_line a h color hth hthC
  refine ⟨m', out, r1, r2, r3, ?_⟩
  intro r c q t hr hc hq _ hx hy
  refine (r4 r c q hr hc hq).1 ⟨rfl, c, hc, by rw [sub_self, abs_zero]; omega, Or.inl ?_⟩
  have hk : k.natAbs = 1 := by
    have h1 : (x2 - x1).natAbs = (y2 - y1).natAbs := by
      rw [Int.abs_eq_natAbs, Int.abs_eq_natAbs] at hdiag; exact_mod_cast hdiag
    rw [h.slope, Int.natAbs_mul] at h1
    exact Nat.eq_of_mul_eq_mul_right (Int.natAbs_pos.2 h.nonzero) (by rw [h1, Nat.one_mul])
  have hs : (x2 - x1).sign = k * (y2 - y1).sign := by
    rw [h.slope, Int.sign_mul]
    rcases Int.natAbs_eq k with e | e <;> rw [hk] at e <;> subst e <;> rfl
  have hkk : k * k = 1 := by
    rcases Int.natAbs_eq k with e | e <;> rw [hk] at e <;> subst e <;> rfl
  rw [hy, hx, hs]
  linear_combination (-(t:ℤ) * (y2 - y1).sign) * hkk

/-- C47 is false: a diagonal line is not limited to the segment, it is drawn across the whole image. -/
theorem C47_refuted_beyond (a : DrawArgs m sp dp R C 3 px old) {x1 y1 x2 y2 : ℤ} (h : ExactSlope C x1 y1 x2 y2 1) (color : RGB) {th : Nat}
    (hth : th ≤ 2147483647) (hthC : C + th / 2 ≤ 2147483647) :
    ∃ m' out, draw_line (some sp) (some dp) x1 y1 x2 y2 color th m = .ok ((), m') ∧ IsImage8 m' dp R C 3 out ∧
      ∀ r c q : Nat, r < R → c < C → q < 3 → (r:Int) - y1 = c - x1 → out r c q = rgb color q := by
  obtain ⟨m', out, r1, r2, r3, r4⟩ := C47_draw_line a h color hth hthC
  refine ⟨m', out, r1, r2, ?_⟩
  intro r c q hr hc hq he
  exact (r4 r c q hr hc hq).1 ⟨rfl, c, hc, by rw [sub_self, abs_zero]; omega, Or.inl (by omega)⟩

/-- C47 is false: the slope is used upside down, so unless the line is diagonal its second end point is not drawn. -/
theorem C47_refuted_end_point (a : DrawArgs m sp dp R C 3 px old) {x1 y1 k : ℤ} {x2 y2 : Nat} (h : ExactSlope C x1 y1 x2 y2 k)
    (hdiag : |(x2:ℤ) - x1| ≠ |(y2:ℤ) - y1|) (color : RGB) {th : Nat} (hth : th ≤ 1) (hx : x2 < C) (hy : y2 < R) (hy1 : 1 ≤ y2) :
    ∃ m' out, draw_line (some sp) (some dp) x1 y1 x2 y2 color th m = .ok ((), m') ∧ IsImage8 m' dp R C 3 out ∧
      ∀ q, q < 3 → out y2 x2 q = px y2 x2 q := by
  have hC := h.cols
  obtain ⟨m', out, r1, r2, r3, r4⟩ := C47_draw_line a h color (th := th) (by omega) (by omega)
  refine ⟨m', out, r1, r2, ?_⟩
  intro q hq
  refine (r4 y2 x2 q hy hx hq).2 ?_
  rintro ⟨-, j, hj, hd, he | ⟨he, -⟩⟩
  · have h0 : th / 2 = 0 := by omega
    rw [h0] at hd
    have hjx : (j:ℤ) = x2 := by
      have := abs_nonpos_iff.1 hd; omega
    rw [hjx, h.slope] at he
    have hkk : (k * k - 1) * ((y2:ℤ) - y1) = 0 := by linear_combination -he
    rcases mul_eq_zero.1 hkk with h1 | h1
    · have h2 : (k - 1) * (k + 1) = 0 := by linear_combination h1
      apply hdiag
      rw [h.slope, abs_mul]
      rcases mul_eq_zero.1 h2 with h3 | h3
      · rw [show k = 1 by omega]; simp
      · rw [show k = -1 by omega]; simp
    · exact h.nonzero h1
  · omega

theorem draw_line_run {sd dd : Nat} {si di : Bool} (a : DrawArgs m sp dp R C ch px old)
    (s1 : m.sm sp = some ⟨R, C, 1, ch, 1, sd, si⟩) (d1 : m.sm dp = some ⟨R, C, 1, ch, 1, dd, di⟩) {x1 y1 x2 y2 : ℤ}
    (hx : CI.InR (x2 - x1)) (hy : CI.InR (y2 - y1)) (color : RGB) (th : Int) :
    ∃ g, draw_line (some sp) (some dp) x1 y1 x2 y2 color th m =
      (forI 0 (R:Int) fun i => forI 0 (C:Int) fun j => lineStep dd C ch color th
        (f32.div (f32.ofInt (x2 - x1)) (f32.ofInt (y2 - y1)))
        (f32.sub (f32.ofInt y1) (f32.mul (f32.div (f32.ofInt (x2 - x1)) (f32.ofInt (y2 - y1))) (f32.ofInt x1))) i j)
      (m.put dd (R * C * ch) g) := by
  obtain ⟨sd', si', s1', s2⟩ := img8_lit a.src
  rw [s1] at s1'; cases s1'
  obtain ⟨dd', di', d1', d2⟩ := img8_lit a.dst
  rw [d1] at d1'; cases d1'
  have cp := drawCopy_run s1 d1 s2 d2 (sep_ne a.sep s1 d1) a.src.posC a.src.posCh a.size
  refine ⟨imgBytes C ch 1 (fun i j c _ => px i j c), ?_⟩
  unfold draw_line
  refine (bind_ok cp).trans ?_
  exact (bind_ok (ev_ok (CI.sub_ok hx) _)).trans (bind_ok (ev_ok (CI.sub_ok hy) _))

/-- C47 is false: drawing a horizontal line is undefined for every pair of end points (the slope is a division by zero and
the row of the first column is then not a number). -/
theorem C47_refuted_horizontal (a : DrawArgs m sp dp R C ch px old) {x1 x2 y : ℤ} (hx : CI.InR (x2 - x1)) (color : RGB) {th : Nat}
    (hth : th ≤ 2147483647) (hthC : C + th / 2 ≤ 2147483647) :
    draw_line (some sp) (some dp) x1 y x2 y color th m = .error (.ub .fpConv) := by
  obtain ⟨sd, si, s1, s2⟩ := img8_lit a.src
  obtain ⟨dd, di, d1, d2⟩ := img8_lit a.dst
  obtain ⟨g, hg⟩ := draw_line_run a s1 d1 (x1 := x1) (x2 := x2) (y1 := y) (y2 := y) hx (by rw [sub_self]; decide) color th
  rw [hg]
  refine line_undef a.size a.src.posCh color hth hthC (j0 := 0) a.src.posR a.src.posC ?_ g
  rw [sub_self]
  have h0 : f32.ofInt 0 = .fin false 0 := by
    unfold Fmt.ofInt
    rw [Int.cast_zero]
    exact round_zero
  have hj : f32.ofInt (((0:Nat) : Int)) = .fin false 0 := h0
  unfold lineVal
  rw [hj, h0]
  have hnan : ∀ v : FV, f32.mul (.fin false 0) (f32.div v (.fin false 0)) = .nan := by
    intro v
    cases v with
    | nan => rfl
    | inf s => simp [Fmt.div, Fmt.mul]
    | fin s q =>
      by_cases hq : q = 0 <;> simp [Fmt.div, Fmt.mul, hq]
  rw [hnan]
  rfl

/-- C47 is false: in grey images (or with any number of channels other than three) nothing is drawn, whatever the end points
and the colour; when the call returns, the destination is a copy of the source. -/
theorem C47_refuted_grey (a : DrawArgs m sp dp R C ch px old) (h3 : ch ≠ 3) {x1 y1 x2 y2 : Int} (color : RGB) {th : Nat}
    (hx : CI.InR (x2 - x1)) (hy : CI.InR (y2 - y1)) (hth : th ≤ 2147483647) (hthC : C + th / 2 ≤ 2147483647) {m' : Mem}
    (hrun : draw_line (some sp) (some dp) x1 y1 x2 y2 color th m = .ok ((), m')) :
    IsImage8 m' dp R C ch px ∧ OnlyPixels m m' dp := by
  obtain ⟨sd, si, s1, s2⟩ := img8_lit a.src
  obtain ⟨dd, di, d1, d2⟩ := img8_lit a.dst
  by_cases hu : ∃ j, j < C ∧ lineVal (f32.div (f32.ofInt (x2 - x1)) (f32.ofInt (y2 - y1)))
      (f32.sub (f32.ofInt y1) (f32.mul (f32.div (f32.ofInt (x2 - x1)) (f32.ofInt (y2 - y1))) (f32.ofInt x1))) ((j:Nat):Int) = none
  · obtain ⟨j, hj, hn⟩ := hu
    obtain ⟨g, hg⟩ := draw_line_run a s1 d1 hx hy color th
    rw [hg, line_undef a.size a.src.posCh color hth hthC a.src.posR hj hn g] at hrun
    cases hrun
  · have hrow : ∀ j : Nat, j < C → lineVal (f32.div (f32.ofInt (x2 - x1)) (f32.ofInt (y2 - y1)))
        (f32.sub (f32.ofInt y1) (f32.mul (f32.div (f32.ofInt (x2 - x1)) (f32.ofInt (y2 - y1))) (f32.ofInt x1))) ((j:Nat):Int) =
        some ((lineVal (f32.div (f32.ofInt (x2 - x1)) (f32.ofInt (y2 - y1)))
        (f32.sub (f32.ofInt y1) (f32.mul (f32.div (f32.ofInt (x2 - x1)) (f32.ofInt (y2 - y1))) (f32.ofInt x1))) ((j:Nat):Int)).getD 0) := by
      intro j hj
      cases hv : lineVal _ _ _ with
      | none => exact absurd ⟨j, hj, hv⟩ hu
      | some n => rfl
    have hf := line_fills (m := m) (dd := dd) (R := R) (C := C) (ch := ch) a.size a.src.posCh color hth hthC hrow
    have hf2 : Fills (do
      let dx ← ev (CI.lit x2 - CI.lit x1)
      let dy ← ev (CI.lit y2 - CI.lit y1)
      let k := f32.div (f32.ofInt dx) (f32.ofInt dy)
      let b := f32.sub (f32.ofInt y1) (f32.mul k (f32.ofInt x1))
      forI 0 (R:Int) fun i => forI 0 (C:Int) fun j => lineStep dd C ch color th k b i j) m dd (R * C * ch) _ _ := Fills.bind (fun g => ev_ok (CI.sub_ok hx) _) (Fills.bind (fun g => ev_ok (CI.sub_ok hy) _) hf)
    obtain ⟨m'', out, r1, r2, r3, r4⟩ := draw_fills (x := fun sd => do
      let dx ← ev (CI.lit x2 - CI.lit x1)
      let dy ← ev (CI.lit y2 - CI.lit y1)
      let k := f32.div (f32.ofInt dx) (f32.ofInt dy)
      let b := f32.sub (f32.ofInt y1) (f32.mul k (f32.ofInt x1))
      forI 0 sd.1.rows fun i => forI 0 sd.1.cols fun j => lineStep sd.2.data sd.1.cols sd.1.channels color th k b i j) a s1 d1 hf2
    have hrun' := r1.symm.trans hrun
    cases hrun'
    refine ⟨img_congr r2 ?_, r3⟩
    intro r c q _ hr hc hq _
    exact (r4 r c q hr hc hq).2 (by rintro ⟨_, _, _, _, h, _⟩; exact h3 h)

end

/-! ### Non-vacuity: the two 2 x 3 images of `demoImgs` -/

theorem demoDraw {ch : Nat} (h : 0 < ch) (h2 : 2 * 3 * ch ≤ 2147483647) :
    DrawArgs (demoImgs ch) 1 3 2 3 ch (fun i j c => demoPx i j c 0) (fun _ _ _ => 9) :=
  ⟨demoImgs_src h, demoImgs_dst h, demoImgs_sep ch, h2⟩

/-- a square that reaches over the corner of the image: one pixel inside is drawn, the others are kept -/
example : ∃ m' out, draw_POINT (some 1) (some 3) [(-1, -1), (7, 7)] 2 ⟨1, 2, 3⟩ 2 (demoImgs 3) = .ok ((), m') ∧ IsImage8 m' 3 2 3 3 out ∧
    out 0 0 0 = 3 ∧ out 0 0 2 = 1 ∧ out 1 1 0 = demoPx 1 1 0 0 := by
  obtain ⟨m', out, h1, h2, -, h3⟩ := C46_draw_point (size := 2) (n := 2) (demoDraw (ch := 3) (by decide) (by decide)) (Or.inr rfl)
    [(-1, -1), (7, 7)] ⟨1, 2, 3⟩ (by decide) (by decide) (by decide)
  refine ⟨m', out, h1, h2, ?_, ?_, ?_⟩
  · exact (h3 0 0 0 (by decide) (by decide) (by decide)).1 ⟨0, -1, -1, by decide, rfl, by decide, by decide⟩
  · exact (h3 0 0 2 (by decide) (by decide) (by decide)).1 ⟨0, -1, -1, by decide, rfl, by decide, by decide⟩
  · refine (h3 1 1 0 (by decide) (by decide) (by decide)).2 ?_
    rintro ⟨i, x, y, hi, he, h4, h5⟩
    have : i = 0 ∨ i = 1 := by omega
    rcases this with rfl | rfl
    · cases he; revert h4; decide
    · cases he; revert h4; decide

example : draw_POINT (some 1) (some 3) [(2147483647, 0)] 1 ⟨1, 2, 3⟩ 3 (demoImgs 1) = .error (.ub .overflow) :=
  C46_refuted_overflow (size := 3) (demoDraw (ch := 1) (by decide) (by decide)) 0 ⟨1, 2, 3⟩ (by decide) (by decide) (by decide)

theorem demoSlope (k : ℤ) (hk : 0 ≤ k ∧ k ≤ 2) : ExactSlope 3 0 0 k 1 k := by
  refine ⟨by ring, by decide, ?_, by decide, by decide, by decide, ?_, ?_, by decide, ?_, ?_⟩
  · rw [abs_le]; constructor <;> omega
  · rw [abs_le]; constructor <;> omega
  · rw [abs_le]; constructor <;> omega
  · intro j hj
    rw [abs_le]; constructor <;> nlinarith
  · intro j hj
    rw [abs_le]; constructor <;> nlinarith

/-- a diagonal line is drawn, and it is drawn beyond its end points too -/
example : ExactSlope 3 0 0 1 1 1 ∧ |(1:ℤ) - 0| = |(1:ℤ) - 0| := ⟨demoSlope 1 (by decide), rfl⟩

/-- a line from (0, 0) to (2, 1): the pixel of the second end point is unchanged -/
example : ∃ m' out, draw_line (some 1) (some 3) 0 0 2 1 ⟨1, 2, 3⟩ 1 (demoImgs 3) = .ok ((), m') ∧ IsImage8 m' 3 2 3 3 out ∧
    ∀ q, q < 3 → out 1 2 q = demoPx 1 2 q 0 :=
  C47_refuted_end_point (x2 := 2) (y2 := 1) (th := 1) (demoDraw (ch := 3) (by decide) (by decide)) (demoSlope 2 (by decide)) (by decide)
    ⟨1, 2, 3⟩ (by decide) (by decide) (by decide) (by decide)

/-- the same for the vertical line from (0, 0) to (0, 1) -/
example : ∃ m' out, draw_line (some 1) (some 3) 0 0 0 1 ⟨1, 2, 3⟩ 1 (demoImgs 3) = .ok ((), m') ∧ IsImage8 m' 3 2 3 3 out ∧
    ∀ q, q < 3 → out 1 0 q = demoPx 1 0 q 0 :=
  C47_refuted_end_point (x2 := 0) (y2 := 1) (th := 1) (demoDraw (ch := 3) (by decide) (by decide)) (demoSlope 0 (by decide)) (by decide)
    ⟨1, 2, 3⟩ (by decide) (by decide) (by decide) (by decide)

/-- drawing a diagonal in a grey image returns, without drawing -/
example : ∃ m', draw_line (some 1) (some 3) 0 0 1 1 ⟨1, 2, 3⟩ 1 (demoImgs 1) = .ok ((), m') ∧ IsImage8 m' 3 2 3 1 (fun i j c => demoPx i j c 0) := by
  obtain ⟨m', out, h1, h2, -⟩ := C47_draw_line (th := 1) (demoDraw (ch := 1) (by decide) (by decide)) (demoSlope 1 (by decide)) ⟨1, 2, 3⟩ (by decide) (by decide)
  exact ⟨m', h1, (C47_refuted_grey (th := 1) (demoDraw (ch := 1) (by decide) (by decide)) (by decide) ⟨1, 2, 3⟩ (by decide) (by decide) (by decide) (by decide) h1).1⟩

end HyperCV
