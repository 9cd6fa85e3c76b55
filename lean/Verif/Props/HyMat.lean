/- C52, C68: the C++ class of cubes. -/
import Verif.Proof.HyMat

namespace HyperCV
open Spec HyMat

/-! ### C52 -/

/-- **C52 refuted**, default constructor: it ends the program, whatever its storage contained before. -/
theorem C52_refuted_default (raw : HyMat) (m : Mem) : HyMat.default raw m = .error .exit := rfl

/-- **C52 refuted**, copying: `copy()` ends the program for every object. -/
theorem C52_refuted_copy (o raw : HyMat) (m : Mem) : HyMat.copy o raw m = .error .exit := rfl

/-- **C52 refuted**, reading: both reading functions end the program for all arguments, files and file contents, and whatever the
method that opens a header does. -/
theorem C52_refuted_hmread (raw : HyMat) (m : Mem) :
    (∀ image samples lines bands dataType format, hmreadSize raw image samples lines bands dataType format m = .error .exit) ∧
    (∀ names openHdr, hmreadHdr raw names openHdr m = .error .exit) :=
  ⟨fun _ _ _ _ _ _ => rfl, fun _ _ => rfl⟩

/-- **C52 refuted**, constructors with arguments: they test members that have not been set.  With storage whose bytes make the number
of bands not positive, or the type not a type, they end the program for all arguments. -/
theorem C52_refuted_constructor (raw : HyMat) (h : raw.bands ≤ 0 ∨ elemBytes raw.dataType = none) (m : Mem)
    (samples lines bands dataType format : Int) (data wavelength : Option Nat) :
    construct raw samples lines bands dataType format data wavelength m = .error .exit := by
  unfold construct create
  by_cases h1 : (decide (samples > 0) && decide (lines > 0) && decide (raw.bands > 0)) = true
  · rw [cassert_bind h1]
    have h2 : typeOk raw.dataType = false := by
      rcases h with h | h
      · simp only [Bool.and_eq_true, decide_eq_true_eq] at h1; omega
      · cases hc : typeOk raw.dataType with
        | false => rfl
        | true => rw [typeOk_iff, h] at hc; exact absurd hc (by simp)
    rw [h2]; rfl
  · rw [Bool.not_eq_true] at h1
    rw [h1]; rfl

/-- **C52 refuted**, opening: opening an image file with given sizes ends the program for every cube, all files and all arguments
(the old contents are released, which sets the number of bands that is tested next to zero). -/
theorem C52_refuted_open {m : Mem} (hm : m.WF) {o : HyMat} {lay : Layout} {S L B E : Nat} {dt : Int} {v : Nat → Nat → Nat → Nat → UInt8}
    {w : Nat → UInt8} (ho : IsHyMat m o lay S L B dt E v w) (image : Option (List UInt8)) (samples lines bands dataType format : Int) :
    openSize o image samples lines bands dataType format m = .error .exit := by
  obtain ⟨hE, hS, hL, hB, h5, h6, h7, h8, h9, h10, h11, h12, d, wb, f, x1, x2, x3, x4, x5, x6⟩ := ho
  rw [bytes_iff] at x4 x5
  have hE0 : 0 < E := (get_elemsize_eq hE).2.1
  have hN0 : 0 < S * L * B * E := by positivity
  unfold openSize
  by_cases h1 : (decide (samples > 0) && decide (lines > 0) && decide (o.bands > 0)) = true
  · have ht : typeOk o.dataType = true := by rw [typeOk_iff, h8, hE]; rfl
    rw [cassert_bind h1, cassert_bind ht]
    have e : o.empty = false := by
      simp only [HyMat.empty, x1, h12, reduceCtorEq, decide_false, Bool.false_or, decide_eq_false_iff_not]; omega
    have er : ∃ m', clear o m = .ok ({ o with data := none, wavelength := none, samples := 0, lines := 0, bands := 0, dataType := 0 }, m') := by
      unfold clear
      rw [if_pos e]
      unfold release
      rw [x1, x2]
      have f1 : freeIf (some d) m = .ok ((), m.setBlk d none) := by
        show free d m = _
        unfold free
        rw [show m.blk d = _ from x4]
      have f2 : freeIf (some wb) (m.setBlk d none) = .ok ((), (m.setBlk d none).setBlk wb none) := by
        show free wb _ = _
        unfold free
        have : (m.setBlk d none).blk wb = some (tab (4 * B) w) := by
          simp only [Mem.setBlk, if_neg (show wb ≠ d from fun e => x3 e.symm)]
          exact x5
        rw [this]
      exact ⟨_, by rw [bind_ok f1, bind_ok f2]; rfl⟩
    obtain ⟨m', er⟩ := er
    rw [bind_ok er]
    apply bind_err
    unfold create
    have : (decide (samples > 0) && decide (lines > 0) && decide ((0 : Int) > 0)) = false := by simp
    rw [this]; rfl
  · rw [Bool.not_eq_true] at h1
    rw [h1]; rfl

/-- **C52, partial**, constructor: in storage whose contents pass the tests, the constructor makes a cube of zeros of the given
geometry, type and order, and nothing that existed changes. -/
theorem C52_constructor_partial {raw : HyMat} (hr : Lucky raw) {S L B E : Nat} {dt : Int} (lay : Layout) {m : Mem} (hm : m.WF)
    (hS : 0 < S) (hL : 0 < L) (hB : 0 < B) (hE : elemBytes dt = some E) (hN : S * L * B * E ≤ 2147483647) :
    ∃ o m', construct raw S L B dt lay.code none none m = .ok (o, m') ∧ IsHyMat m' o lay S L B dt E (fun _ _ _ _ => 0) (fun _ => 0) ∧
      FreshHy m o ∧ Frame m m' ∧ m'.WF := by
  refine ⟨_, _, construct_run hr lay m hS hL hB hE hN, ?_, newHy_fresh lay, hyMem_frame, hyMem_WF hm⟩
  have := newHy_is hm lay (dt := dt) (v := fun _ _ _ _ => 0) (w := fun _ => 0) hS hL hB hE
  exact this

/-- **C52, partial**, constructor from given blocks: in storage whose contents pass the tests, the object adopts the two blocks it is
given, so it is a cube holding their contents, and memory does not change at all. -/
theorem C52_given_partial {raw : HyMat} (hr : Lucky raw) {S L B E : Nat} {dt : Int} (lay : Layout) {m : Mem} {d wb : Nat}
    {f w : Nat → UInt8} (hS : 0 < S) (hL : 0 < L) (hB : 0 < B) (hE : elemBytes dt = some E) (hN : S * L * B * E ≤ 2147483647)
    (hne : d ≠ wb) (hd : Bytes m d (S * L * B * E) f) (hw : Bytes m wb (4 * B) w) :
    ∃ o, construct raw S L B dt lay.code (some d) (some wb) m = .ok (o, m) ∧ o.data = some d ∧ o.wavelength = some wb ∧
      IsHyMat m o lay S L B dt E (fun i j k t => f (lay.pos S L B i j k * E + t)) w := by
  refine ⟨⟨L, S, B, dt, lay.code, lay.tag, some d, some wb, E, ((S * L * B * E : Nat) : Int)⟩, ?_, rfl, rfl,
    ⟨hE, hS, hL, hB, rfl, rfl, rfl, rfl, rfl, rfl, rfl, rfl, d, wb, f, rfl, rfl, hne, hd, hw, fun _ _ _ _ _ _ _ _ => rfl⟩⟩
  obtain ⟨e1, e2, e3⟩ := get_elemsize_eq hE
  have hSLB : S * L * B ≤ 2147483647 := le_trans (Nat.le_mul_of_pos_right _ e2) hN
  have hSL : S * L ≤ 2147483647 := le_trans (Nat.le_mul_of_pos_right _ hB) hSLB
  have eds : (CI.lit (S : Int) * CI.lit (L : Int) * CI.lit (B : Int) * CI.lit (E : Int) : CI) = CI.lit ((S * L * B * E : Nat) : Int) := by
    have h1 : ((S : Int) * L) = ((S * L : Nat) : Int) := by push_cast; rfl
    have h2 : (((S * L : Nat) : Int) * B) = ((S * L * B : Nat) : Int) := by push_cast; rfl
    have h3 : (((S * L * B : Nat) : Int) * E) = ((S * L * B * E : Nat) : Int) := by push_cast; rfl
    rw [CI.mul_ok (a := (S : Int)) (by rw [h1]; constructor <;> omega), h1, CI.mul_ok (by rw [h2]; constructor <;> omega), h2,
      CI.mul_ok (by rw [h3]; constructor <;> omega), h3]
  unfold construct create
  rw [cassert_bind (by simp only [Bool.and_eq_true, decide_eq_true_eq]; exact ⟨⟨by omega, by omega⟩, hr.1⟩),
    cassert_bind (typeOk_iff.2 hr.2.1)]
  have e4 : releaseIf raw m = .ok (raw, m) := by unfold releaseIf; rw [if_pos hr.2.2]; rfl
  rw [bind_ok e4, e1, ev_bind eds]
  have e5 : ∀ (p : Nat) (n : Int), orZeros (some p) n m = .ok (some p, m) := fun _ _ => rfl
  rw [bind_ok (e5 _ _), bind_ok (e5 _ _), tagOf_code]
  rfl

/-- `conv` makes, in suitable storage, a new cube with the same elements and wavelengths in order `b` from one in order `a` -/
def Spec.HyConverts (conv : HyMat → HyMat → M HyMat) (a b : Layout) : Prop :=
  ∀ (raw : HyMat), Lucky raw → ∀ (m : Mem) (o : HyMat) (S L B E : Nat) (dt : Int) (v : Nat → Nat → Nat → Nat → UInt8) (w : Nat → UInt8),
    m.WF → IsHyMat m o a S L B dt E v w → S * L * B * E ≤ 2147483647 →
    ∃ o' m', conv o raw m = .ok (o', m') ∧ IsHyMat m' o' b S L B dt E v w ∧ FreshHy m o' ∧ Frame m m' ∧ m'.WF

theorem HyRun.converts {conv : HyMat → HyMat → M HyMat} {a b : Layout} (h : HyRun conv a b) : HyConverts conv a b := by
  intro raw hr m o S L B E dt v w hm ho hN
  obtain ⟨hE, hS, hL, hB, _⟩ := id ho
  exact ⟨_, _, h raw hr m o S L B E dt v w hm ho hN, newHy_is hm b hS hL hB hE, newHy_fresh b, hyMem_frame, hyMem_WF hm⟩

/-- **C52, partial**, conversions: each of the six functions preserves all elements and wavelengths, if the storage of its result
passes the tests of the constructor.  Missing: other storage, see `C52_refuted_constructor`. -/
theorem C52_conversions_partial :
    HyConverts HyMat.bil2bsq .bil .bsq ∧ HyConverts HyMat.bil2bip .bil .bip ∧ HyConverts HyMat.bsq2bil .bsq .bil ∧
    HyConverts HyMat.bsq2bip .bsq .bip ∧ HyConverts HyMat.bip2bsq .bip .bsq ∧ HyConverts HyMat.bip2bil .bip .bil :=
  ⟨bil2bsq_hy.converts, bil2bip_hy.converts, bsq2bil_hy.converts, bsq2bip_hy.converts, bip2bsq_hy.converts, bip2bil_hy.converts⟩

/-! ### C68 -/

/-- **C68**: conversion in place preserves all elements and the wavelengths of every cube, for every pair of orders; it changes nothing
but the data block of the cube, and releases its temporary storage. -/
theorem C68_convertTo {m : Mem} (hm : m.WF) {o : HyMat} {a : Layout} (b : Layout) {S L B E : Nat} {dt : Int}
    {v : Nat → Nat → Nat → Nat → UInt8} {w : Nat → UInt8} (ho : IsHyMat m o a S L B dt E v w) (hN : S * L * B * E ≤ 2147483647) :
    ∃ o' m', convertTo o b.code m = .ok (o', m') ∧ IsHyMat m' o' b S L B dt E v w ∧ o'.data = o.data ∧ o'.wavelength = o.wavelength ∧
      (∀ h, o.data ≠ some h → m'.blk h = m.blk h) ∧ m'.hm = m.hm ∧ m'.sm = m.sm ∧ m'.WF := by
  obtain ⟨m', h1, h2, h3, h4, h5, h6, h7⟩ := convertTo_run hm b ho hN
  exact ⟨_, m', h1, h2, rfl, rfl, h3, h4, h5, h7⟩

/-- **C68**, there and back: two conversions that end in the first order give the same bytes. -/
theorem C68_there_and_back {m : Mem} (hm : m.WF) {o : HyMat} {a : Layout} (b : Layout) {S L B E : Nat} {dt : Int}
    {v : Nat → Nat → Nat → Nat → UInt8} {w : Nat → UInt8} (ho : IsHyMat m o a S L B dt E v w) (hN : S * L * B * E ≤ 2147483647) :
    ∃ o' m', (convertTo o b.code >>= fun o1 => convertTo o1 a.code) m = .ok (o', m') ∧ o' = o ∧ (∀ h, m'.blk h = m.blk h) := by
  obtain ⟨m1, h1, h2, h3, h4, h5, h6, h7⟩ := convertTo_run hm b ho hN
  obtain ⟨m2, k1, k2, k3, k4, k5, k6, k7⟩ := convertTo_run h7 a h2 hN
  rw [bind_ok h1]
  refine ⟨_, m2, k1, ?_, ?_⟩
  · have f1 := ho.format
    have f2 := ho.interleave
    cases o
    simp_all
  · obtain ⟨hE, hS, hL, hB, i5, i6, i7, i8, i9, i10, i11, i12, d, wb, f, x1, x2, x3, x4, x5, x6⟩ := ho
    obtain ⟨_, _, _, _, _, _, _, _, _, _, _, _, d', wb', f', y1, y2, y3, y4, y5, y6⟩ := k2
    intro h
    by_cases hh : o.data = some h
    · have e1 : h = d := by rw [x1] at hh; exact (Option.some.inj hh).symm
      have e2 : h = d' := by have := hh.symm.trans y1; exact Option.some.inj this
      rw [bytes_iff] at x4 y4
      subst e1
      subst e2
      rw [show m2.blk h = _ from y4, show m.blk h = _ from x4]
      congr 1
      apply tab_congr
      intro p hp
      obtain ⟨i, j, k, hi, hj, hk, l1, l2⟩ := byte_cover a hp
      have t := y6 i j k (p - a.pos S L B i j k * E) hi hj hk (by omega)
      have t' := x6 i j k (p - a.pos S L B i j k * E) hi hj hk (by omega)
      rw [show a.pos S L B i j k * E + (p - a.pos S L B i j k * E) = p by omega] at t t'
      rw [t, t']
    · rw [k3 h hh, h3 h hh]

/-- **C68, partial**, parts of a cube: in suitable storage, `range` makes a new cube with the elements and wavelengths of the part. -/
theorem C68_range_partial {raw : HyMat} (hr : Lucky raw) {m : Mem} (hm : m.WF) {o : HyMat} {lay : Layout} {S L B E : Nat} {dt : Int}
    {v : Nat → Nat → Nat → Nat → UInt8} {w : Nat → UInt8} (ho : IsHyMat m o lay S L B dt E v w) (hN : S * L * B * E ≤ 2147483647)
    {r0 c0 b0 r1 c1 b1 : Nat} (hr1 : r0 < r1) (hc1 : c0 < c1) (hb1 : b0 < b1) (hL : r1 ≤ L) (hS : c1 ≤ S) (hB : b1 ≤ B) :
    ∃ o' m', range o raw r0 c0 b0 r1 c1 b1 m = .ok (o', m') ∧
      IsHyMat m' o' lay (c1 - c0) (r1 - r0) (b1 - b0) dt E (fun i j k t => v (r0 + i) (c0 + j) (b0 + k) t) (fun t => w (b0 * 4 + t)) ∧
      FreshHy m o' ∧ Frame m m' ∧ m'.WF := by
  have := range_run hr hm ho hN (r0 := r0) (c0 := c0) (b0 := b0) (L' := r1 - r0) (S' := c1 - c0) (B' := b1 - b0) (by omega) (by omega)
    (by omega) (by omega) (by omega) (by omega)
  rw [show r0 + (r1 - r0) = r1 by omega, show c0 + (c1 - c0) = c1 by omega, show b0 + (b1 - b0) = b1 by omega] at this
  exact ⟨_, _, this, newHy_is hm lay (by omega) (by omega) (by omega) ho.size, newHy_fresh lay, hyMem_frame, hyMem_WF hm⟩

/-- an object with which all hypotheses hold, storage that passes the tests, and storage that does not -/
example (lay : Layout) : (∃ m o, m.WF ∧ IsHyMat m o lay 2 3 4 2 2 (fun i j k t => UInt8.ofNat (50 * i + 20 * j + 4 * k + t)) (fun t => UInt8.ofNat t)) ∧
    Lucky ⟨0, 0, 7, 1, 0, [], none, none, 0, 0⟩ ∧ (⟨0, 0, 0, 0, 0, [], none, none, 0, 0⟩ : HyMat).bands ≤ 0 := by
  have hm : Mem.empty.WF := by intro h _; exact ⟨rfl, rfl, rfl⟩
  exact ⟨⟨_, _, hyMem_WF hm, newHy_is hm lay (by decide) (by decide) (by decide) rfl⟩, ⟨by decide, by decide, rfl⟩, by decide⟩

/-- the hypotheses about given blocks can be met -/
example : ∃ (m : Mem) (d wb : Nat) (f w : Nat → UInt8), d ≠ wb ∧ Bytes m d (2 * 3 * 4 * 2) f ∧ Bytes m wb (4 * 4) w ∧ f 5 = 5 := by
  have hm : Mem.empty.WF := by intro h _; exact ⟨rfl, rfl, rfl⟩
  obtain ⟨d, wb, f, _, _, h1, h2, h3, h4⟩ :=
    (newHy_is hm .bip (dt := 2) (v := fun i j k t => UInt8.ofNat ((((i * 2 + j) * 4) + k) * 2 + t)) (w := fun t => UInt8.ofNat t) (S := 2) (L := 3) (B := 4)
      (by decide) (by decide) (by decide) rfl).store
  exact ⟨_, d, wb, f, _, h1, h2, h3, h4 0 0 2 1 (by decide) (by decide) (by decide) (by decide)⟩

end HyperCV
