/- The C++ class of cubes. -/
import Verif.Spec.HyMat
import Verif.Proof.Interleave
import Mathlib.Tactic.IntervalCases

namespace HyperCV
open Spec HyMat

theorem typeOk_iff {d : Int} : typeOk d = true ↔ (elemBytes d).isSome = true := by
  constructor
  · intro h
    simp only [typeOk, Bool.or_eq_true, decide_eq_true_eq] at h
    rcases h with (((((((h | h) | h) | h) | h) | h) | h) | h) | h <;> subst h <;> rfl
  · intro h
    unfold elemBytes at h
    split at h <;> first | rfl | exact absurd h (by simp)

theorem tagOf_code (lay : Layout) : tagOf lay.code = lay.tag := by cases lay <;> rfl

theorem code_inj {a b : Layout} : a.code = b.code ↔ a = b := by cases a <;> cases b <;> decide

theorem zeros_run {n : Nat} (m : Mem) : zeros (n : Int) m = .ok (m.next, m.grow n fun _ => 0) := by
  unfold zeros
  rw [if_neg (by omega), bind_ok (malloc_run _ _), Int.toNat_natCast]
  have := memset_ok (off := 0) (k := n) (v := 0) (grow_holds m n (m.junk m.next)) (by omega)
  rw [bind_ok (show memset m.next 0 0 (n : Int) _ = _ from this), grow_put]
  refine congrArg (fun x => Except.ok (m.next, x)) (grow_congr _ _ ?_)
  intro i hi
  simp [hi]

/-- memory with the storage of a new object -/
def hyMem (m : Mem) (N B : Nat) (f w : Nat → UInt8) : Mem := (m.grow N f).grow (4 * B) w

/-- a new object -/
def newHy (m : Mem) (S L B : Nat) (dt : Int) (E : Nat) (lay : Layout) : HyMat :=
  ⟨L, S, B, dt, lay.code, lay.tag, some m.next, some (m.next + 1), E, ((S * L * B * E : Nat) : Int)⟩

section

variable {m : Mem} {N B : Nat} {f w : Nat → UInt8}

theorem hyMem_data (hm : m.WF) : Holds (hyMem m N B f w) m.next N f := Holds.grow (grow_WF hm _ _) (grow_holds m N f)

theorem hyMem_wave : Holds (hyMem m N B f w) (m.next + 1) (4 * B) w := grow_holds (m.grow N f) _ _

theorem hyMem_WF (hm : m.WF) : (hyMem m N B f w).WF := grow_WF (grow_WF hm _ _) _ _

theorem hyMem_put_data (g : Nat → UInt8) : (hyMem m N B f w).put m.next N g = hyMem m N B g w := by
  unfold hyMem
  rw [← put_grow_comm _ (by simp), grow_put]

theorem hyMem_put_wave (g : Nat → UInt8) : (hyMem m N B f w).put (m.next + 1) (4 * B) g = hyMem m N B f g := by
  unfold hyMem
  exact grow_put (m.grow N f) _ _ _ _

theorem hyMem_frame : Frame m (hyMem m N B f w) := by
  intro h hh
  refine ⟨?_, rfl, rfl⟩
  unfold hyMem
  rw [grow_blk_ne _ _ _ (by simp; omega), grow_blk_ne _ _ _ (by omega)]

theorem hyMem_old (hm : m.WF) {h n : Nat} {g : Nat → UInt8} (hh : Holds m h n g) : Holds (hyMem m N B f w) h n g :=
  Holds.grow (grow_WF hm _ _) (Holds.grow hm hh)

end

/-- the constructor with arguments, in storage with suitable contents -/
theorem construct_run {raw : HyMat} (hr : Lucky raw) {S L B E : Nat} {dt : Int} (lay : Layout) (m : Mem)
    (hS : 0 < S) (hL : 0 < L) (hB : 0 < B) (hE : elemBytes dt = some E) (hN : S * L * B * E ≤ 2147483647) :
    construct raw S L B dt lay.code none none m
      = .ok (newHy m S L B dt E lay, hyMem m (S * L * B * E) B (fun _ => 0) (fun _ => 0)) := by
  obtain ⟨e1, e2, e3⟩ := get_elemsize_eq hE
  have hSLB : S * L * B ≤ 2147483647 := le_trans (Nat.le_mul_of_pos_right _ e2) hN
  have hSL : S * L ≤ 2147483647 := le_trans (Nat.le_mul_of_pos_right _ hB) hSLB
  have eds : (CI.lit (S : Int) * CI.lit (L : Int) * CI.lit (B : Int) * CI.lit (E : Int) : CI) = CI.lit ((S * L * B * E : Nat) : Int) := by
    have h1 : ((S : Int) * L) = ((S * L : Nat) : Int) := by push_cast; rfl
    have h2 : (((S * L : Nat) : Int) * B) = ((S * L * B : Nat) : Int) := by push_cast; rfl
    have h3 : (((S * L * B : Nat) : Int) * E) = ((S * L * B * E : Nat) : Int) := by push_cast; rfl
    rw [CI.mul_ok (a := (S : Int)) (by rw [h1]; constructor <;> omega), h1, CI.mul_ok (by rw [h2]; constructor <;> omega), h2,
      CI.mul_ok (by rw [h3]; constructor <;> omega), h3]
  unfold construct create
  rw [cassert_bind (by simp only [Bool.and_eq_true, decide_eq_true_eq]; exact ⟨⟨by omega, by omega⟩, hr.1⟩),
    cassert_bind (typeOk_iff.2 hr.2.1)]
  have e4 : releaseIf raw m = .ok (raw, m) := by unfold releaseIf; rw [if_pos hr.2.2]; rfl
  rw [bind_ok e4, e1, ev_bind eds]
  have e5 : orZeros none ((S * L * B * E : Nat) : Int) m = .ok (some m.next, m.grow (S * L * B * E) fun _ => 0) := by
    show (zeros _ >>= _) m = _
    rw [bind_ok (zeros_run m)]; rfl
  rw [bind_ok e5]
  have e6 : orZeros none ((B : Int) * 4) (m.grow (S * L * B * E) fun _ => 0)
      = .ok (some (m.next + 1), hyMem m (S * L * B * E) B (fun _ => 0) (fun _ => 0)) := by
    show (zeros _ >>= _) _ = _
    rw [show ((B : Int) * 4) = ((4 * B : Nat) : Int) by push_cast; ring, bind_ok (zeros_run _)]; rfl
  rw [bind_ok e6]
  unfold newHy
  rw [tagOf_code]
  rfl

theorem newHy_is {m : Mem} (hm : m.WF) {S L B E : Nat} {dt : Int} (lay : Layout) {v : Nat → Nat → Nat → Nat → UInt8} {w : Nat → UInt8}
    (hS : 0 < S) (hL : 0 < L) (hB : 0 < B) (hE : elemBytes dt = some E) :
    IsHyMat (hyMem m (S * L * B * E) B (cubeBytes lay S L B E v) w) (newHy m S L B dt E lay) lay S L B dt E v w :=
  ⟨hE, hS, hL, hB, rfl, rfl, rfl, rfl, rfl, rfl, rfl, rfl, m.next, m.next + 1, _, rfl, rfl, by omega, bytes_iff.2 (hyMem_data hm),
    bytes_iff.2 hyMem_wave, fun _ _ _ _ hi hj hk ht => cubeBytes_at lay hi hj hk ht⟩

theorem newHy_fresh {m : Mem} {S L B E : Nat} {dt : Int} (lay : Layout) : FreshHy m (newHy m S L B dt E lay) := by
  rintro h (hh | hh)
  · cases hh; exact le_refl _
  · cases hh; omega

theorem moveElem_fills {m : Mem} {s d N Ns E d0 s0 : Nat} {f new : Nat → UInt8}
    (hs : Holds m s Ns f) (hne : s ≠ d) (hd : d0 + E ≤ N) (hs0 : s0 + E ≤ Ns)
    (hnew : ∀ t, t < E → new (d0 + t) = f (s0 + t)) :
    Fills (moveElem d (d0 : Int) s (s0 : Int) (E : Int)) m d N new (fun p => d0 ≤ p ∧ p < d0 + E) := by
  unfold moveElem
  refine Fills.congr (new := new) (Fills.loop (P := fun t p => p = d0 + t) ?_) ?_ (fun _ _ _ => rfl)
  · intro t ht
    have e1 : ((s0 : Int) + (t : Int)) = ((s0 + t : Nat) : Int) := by push_cast; rfl
    have e2 : ((d0 : Int) + (t : Int)) = ((d0 + t : Nat) : Int) := by push_cast; rfl
    rw [e1, e2]
    apply Fills.bind (a := f (s0 + t))
    · intro g
      exact load_ok (hs.put_ne hne) (by omega)
    · exact Fills.store (by omega) (hnew t ht).symm
  · intro p hp
    constructor
    · rintro ⟨t, ht, rfl⟩; omega
    · intro h; exact ⟨p - d0, by omega, by omega⟩

theorem hyMove_fills {m : Mem} {s d S L B E i j k : Nat} (a b : Layout) {f : Nat → UInt8}
    (hs : Holds m s (S * L * B * E) f) (hne : s ≠ d)
    {v : Nat → Nat → Nat → Nat → UInt8}
    (hv : ∀ i j k t, i < L → j < S → k < B → t < E → f (a.pos S L B i j k * E + t) = v i j k t)
    (hi : i < L) (hj : j < S) (hk : k < B) :
    Fills (moveElem d ((b.pos S L B i j k * E : Nat) : Int) s ((a.pos S L B i j k * E : Nat) : Int) (E : Int))
      m d (S * L * B * E) (cubeBytes b S L B E v)
      (fun p => b.pos S L B i j k * E ≤ p ∧ p < b.pos S L B i j k * E + E) := by
  apply moveElem_fills hs hne (byte_lt b hi hj hk) (byte_lt a hi hj hk)
  intro t ht
  rw [cubeBytes_at b hi hj hk ht, hv i j k t hi hj hk ht]

theorem copyWaveLength_run {m m1 : Mem} {o : HyMat} {d s n Ns off k : Nat} {f g : Nat → UInt8} (ho : o.wavelength = some d)
    (hs : Holds m s Ns f) (hd : Holds m d n g) (hne : s ≠ d) (hk : 0 < k) (h1 : k * 4 ≤ n) (h2 : (off + k) * 4 ≤ Ns)
    (hm1 : m1 = m.put d n (fun p => if p < k * 4 then f (off * 4 + p) else g p)) :
    copyWaveLength o (some s) (off : Int) (k : Int) m = .ok ((), m1) := by
  unfold copyWaveLength
  rw [ho]
  dsimp only
  rw [if_neg (by omega)]
  have e1 : ((off : Int) * 4) = ((off * 4 : Nat) : Int) := by push_cast; rfl
  have e2 : ((k : Int) * 4) = ((k * 4 : Nat) : Int) := by push_cast; rfl
  rw [e1, e2]
  have := memcpy_ok (doff := 0) (soff := off * 4) (k := k * 4) hs hd hne (by omega) (by omega)
  rw [show memcpy d 0 s ((off * 4 : Nat) : Int) ((k * 4 : Nat) : Int) m = _ from this, hm1]
  refine congrArg (fun x => Except.ok ((), x)) (put_congr _ _ _ ?_)
  intro p _
  simp

/-- the tail of a conversion routine: construct the result, fill it, copy the wavelengths -/
theorem hyConv_tail {raw : HyMat} (hr : Lucky raw) {m : Mem} (hm : m.WF) {S L B E : Nat} {dt : Int} (b : Layout)
    {wb : Nat} {w : Nat → UInt8} {v : Nat → Nat → Nat → Nat → UInt8}
    (hS : 0 < S) (hL : 0 < L) (hB : 0 < B) (hE : elemBytes dt = some E) (hN : S * L * B * E ≤ 2147483647)
    (hwb : Holds m wb (4 * B) w) (loops : HyMat → M Unit) (P : Nat → Prop) (hP : ∀ p, p < S * L * B * E → P p)
    (hl : Fills (loops (newHy m S L B dt E b)) (hyMem m (S * L * B * E) B (fun _ => 0) (fun _ => 0)) m.next (S * L * B * E)
      (cubeBytes b S L B E v) P) :
    (do
      let dst ← construct raw S L B dt b.code none none
      loops dst
      copyWaveLength dst (some wb) 0 B
      pure dst : M HyMat) m
    = .ok (newHy m S L B dt E b, hyMem m (S * L * B * E) B (cubeBytes b S L B E v) w) := by
  rw [bind_ok (construct_run hr b m hS hL hB hE hN)]
  rw [bind_ok (hl.total hP (hyMem_data hm)), hyMem_put_data]
  have hlt := hwb.lt_next hm
  have := copyWaveLength_run (o := newHy m S L B dt E b) (off := 0) (k := B) rfl
    (hyMem_old (N := S * L * B * E) (B := B) (f := cubeBytes b S L B E v) (w := fun _ => 0) hm hwb) hyMem_wave (by omega) hB (by omega) (by omega) rfl
  rw [bind_ok (show copyWaveLength _ (some wb) 0 (B : Int) _ = _ from this), hyMem_put_wave]
  refine congrArg (fun x => Except.ok (_, x)) ?_
  unfold hyMem
  apply grow_congr
  intro i hi
  simp; intro h; omega

/-- what a conversion routine does -/
def HyRun (conv : HyMat → HyMat → M HyMat) (a b : Layout) : Prop :=
  ∀ (raw : HyMat), Lucky raw → ∀ (m : Mem) (o : HyMat) (S L B E : Nat) (dt : Int) (v : Nat → Nat → Nat → Nat → UInt8) (w : Nat → UInt8),
    m.WF → IsHyMat m o a S L B dt E v w → S * L * B * E ≤ 2147483647 →
    conv o raw m = .ok (newHy m S L B dt E b, hyMem m (S * L * B * E) B (cubeBytes b S L B E v) w)

theorem bil2bsq_hy : HyRun HyMat.bil2bsq .bil .bsq := by
  rintro raw hr m o S L B E dt v w hm ⟨hE, hS, hL, hB, h5, h6, h7, h8, h9, h10, h11, h12, d, wb, f, x1, x2, x3, x4, x5, x6⟩ hN
  rw [bytes_iff] at x4 x5
  have hE0 : 0 < E := (get_elemsize_eq hE).2.1
  have hN0 : 0 < S * L * B * E := by positivity
  unfold HyMat.bil2bsq
  rw [cassert_bind (by simp only [HyMat.empty, x1, h12, reduceCtorEq, decide_false, Bool.false_or, Bool.not_eq_true', decide_eq_false_iff_not]; omega)]
  rw [cassert_bind (by rw [h9]; decide), h5, h6, h7, h8, h11, x1, x2]
  have hdlt := x4.lt_next hm
  refine hyConv_tail hr hm .bsq hS hL hB hE hN x5 (fun dst => _) _ ?_ (by
    refine nest3 (P := fun k i j p => Layout.bsq.pos S L B i j k * E ≤ p ∧ p < Layout.bsq.pos S L B i j k * E + E) ?_
    intro k i j hk hi hj
    apply Fills.bind (fun g => ev_ok (eval_bil hi hj hk hE0 hN) _)
    apply Fills.bind (fun g => ev_ok (eval_bsq hi hj hk hE0 hN) _)
    exact hyMove_fills .bil .bsq (hyMem_old hm x4) (by omega) x6 hi hj hk)
  intro p hp
  obtain ⟨i, j, k, hi, hj, hk, h⟩ := byte_cover .bsq hp
  exact ⟨k, hk, i, hi, j, hj, h⟩

theorem bil2bip_hy : HyRun HyMat.bil2bip .bil .bip := by
  rintro raw hr m o S L B E dt v w hm ⟨hE, hS, hL, hB, h5, h6, h7, h8, h9, h10, h11, h12, d, wb, f, x1, x2, x3, x4, x5, x6⟩ hN
  rw [bytes_iff] at x4 x5
  have hE0 : 0 < E := (get_elemsize_eq hE).2.1
  have hN0 : 0 < S * L * B * E := by positivity
  unfold HyMat.bil2bip
  rw [cassert_bind (by simp only [HyMat.empty, x1, h12, reduceCtorEq, decide_false, Bool.false_or, Bool.not_eq_true', decide_eq_false_iff_not]; omega)]
  rw [cassert_bind (by rw [h9]; decide), h5, h6, h7, h8, h11, x1, x2]
  have hdlt := x4.lt_next hm
  refine hyConv_tail hr hm .bip hS hL hB hE hN x5 (fun dst => _) _ ?_ (by
    refine nest3 (P := fun i j k p => Layout.bip.pos S L B i j k * E ≤ p ∧ p < Layout.bip.pos S L B i j k * E + E) ?_
    intro i j k hi hj hk
    apply Fills.bind (fun g => ev_ok (eval_bil hi hj hk hE0 hN) _)
    apply Fills.bind (fun g => ev_ok (eval_bip hi hj hk hE0 hN) _)
    exact hyMove_fills .bil .bip (hyMem_old hm x4) (by omega) x6 hi hj hk)
  intro p hp
  obtain ⟨i, j, k, hi, hj, hk, h⟩ := byte_cover .bip hp
  exact ⟨i, hi, j, hj, k, hk, h⟩

theorem bsq2bil_hy : HyRun HyMat.bsq2bil .bsq .bil := by
  rintro raw hr m o S L B E dt v w hm ⟨hE, hS, hL, hB, h5, h6, h7, h8, h9, h10, h11, h12, d, wb, f, x1, x2, x3, x4, x5, x6⟩ hN
  rw [bytes_iff] at x4 x5
  have hE0 : 0 < E := (get_elemsize_eq hE).2.1
  have hN0 : 0 < S * L * B * E := by positivity
  unfold HyMat.bsq2bil
  rw [if_neg (by rw [h9]; decide)]
  rw [cassert_bind (by rw [h9]; decide), h5, h6, h7, h8, h11, x1, x2]
  have hdlt := x4.lt_next hm
  refine hyConv_tail hr hm .bil hS hL hB hE hN x5 (fun dst => _) _ ?_ (by
    refine nest3 (P := fun i k j p => Layout.bil.pos S L B i j k * E ≤ p ∧ p < Layout.bil.pos S L B i j k * E + E) ?_
    intro i k j hi hk hj
    apply Fills.bind (fun g => ev_ok (eval_bsq hi hj hk hE0 hN) _)
    apply Fills.bind (fun g => ev_ok (eval_bil hi hj hk hE0 hN) _)
    exact hyMove_fills .bsq .bil (hyMem_old hm x4) (by omega) x6 hi hj hk)
  intro p hp
  obtain ⟨i, j, k, hi, hj, hk, h⟩ := byte_cover .bil hp
  exact ⟨i, hi, k, hk, j, hj, h⟩

theorem bsq2bip_hy : HyRun HyMat.bsq2bip .bsq .bip := by
  rintro raw hr m o S L B E dt v w hm ⟨hE, hS, hL, hB, h5, h6, h7, h8, h9, h10, h11, h12, d, wb, f, x1, x2, x3, x4, x5, x6⟩ hN
  rw [bytes_iff] at x4 x5
  have hE0 : 0 < E := (get_elemsize_eq hE).2.1
  have hN0 : 0 < S * L * B * E := by positivity
  unfold HyMat.bsq2bip
  rw [if_neg (by rw [h9]; decide)]
  rw [cassert_bind (by rw [h9]; decide), h5, h6, h7, h8, h11, x1, x2]
  have hdlt := x4.lt_next hm
  refine hyConv_tail hr hm .bip hS hL hB hE hN x5 (fun dst => _) _ ?_ (by
    refine nest3 (P := fun i j k p => Layout.bip.pos S L B i j k * E ≤ p ∧ p < Layout.bip.pos S L B i j k * E + E) ?_
    intro i j k hi hj hk
    apply Fills.bind (fun g => ev_ok (eval_bsq hi hj hk hE0 hN) _)
    apply Fills.bind (fun g => ev_ok (eval_bip hi hj hk hE0 hN) _)
    exact hyMove_fills .bsq .bip (hyMem_old hm x4) (by omega) x6 hi hj hk)
  intro p hp
  obtain ⟨i, j, k, hi, hj, hk, h⟩ := byte_cover .bip hp
  exact ⟨i, hi, j, hj, k, hk, h⟩

theorem bip2bsq_hy : HyRun HyMat.bip2bsq .bip .bsq := by
  rintro raw hr m o S L B E dt v w hm ⟨hE, hS, hL, hB, h5, h6, h7, h8, h9, h10, h11, h12, d, wb, f, x1, x2, x3, x4, x5, x6⟩ hN
  rw [bytes_iff] at x4 x5
  have hE0 : 0 < E := (get_elemsize_eq hE).2.1
  have hN0 : 0 < S * L * B * E := by positivity
  unfold HyMat.bip2bsq
  rw [if_neg (by rw [h9]; decide)]
  rw [cassert_bind (by rw [h9]; decide), h5, h6, h7, h8, h11, x1, x2]
  have hdlt := x4.lt_next hm
  refine hyConv_tail hr hm .bsq hS hL hB hE hN x5 (fun dst => _) _ ?_ (by
    refine nest3 (P := fun i j k p => Layout.bsq.pos S L B i j k * E ≤ p ∧ p < Layout.bsq.pos S L B i j k * E + E) ?_
    intro i j k hi hj hk
    apply Fills.bind (fun g => ev_ok (eval_bip hi hj hk hE0 hN) _)
    apply Fills.bind (fun g => ev_ok (eval_bsq hi hj hk hE0 hN) _)
    exact hyMove_fills .bip .bsq (hyMem_old hm x4) (by omega) x6 hi hj hk)
  intro p hp
  obtain ⟨i, j, k, hi, hj, hk, h⟩ := byte_cover .bsq hp
  exact ⟨i, hi, j, hj, k, hk, h⟩

theorem bip2bil_hy : HyRun HyMat.bip2bil .bip .bil := by
  rintro raw hr m o S L B E dt v w hm ⟨hE, hS, hL, hB, h5, h6, h7, h8, h9, h10, h11, h12, d, wb, f, x1, x2, x3, x4, x5, x6⟩ hN
  rw [bytes_iff] at x4 x5
  have hE0 : 0 < E := (get_elemsize_eq hE).2.1
  have hN0 : 0 < S * L * B * E := by positivity
  unfold HyMat.bip2bil
  rw [if_neg (by rw [h9]; decide)]
  rw [cassert_bind (by rw [h9]; decide), h5, h6, h7, h8, h11, x1, x2]
  have hdlt := x4.lt_next hm
  refine hyConv_tail hr hm .bil hS hL hB hE hN x5 (fun dst => _) _ ?_ (by
    refine nest3 (P := fun i j k p => Layout.bil.pos S L B i j k * E ≤ p ∧ p < Layout.bil.pos S L B i j k * E + E) ?_
    intro i j k hi hj hk
    apply Fills.bind (fun g => ev_ok (eval_bip hi hj hk hE0 hN) _)
    apply Fills.bind (fun g => ev_ok (eval_bil hi hj hk hE0 hN) _)
    exact hyMove_fills .bip .bil (hyMem_old hm x4) (by omega) x6 hi hj hk)
  intro p hp
  obtain ⟨i, j, k, hi, hj, hk, h⟩ := byte_cover .bil hp
  exact ⟨i, hi, j, hj, k, hk, h⟩

theorem index_eval (lay : Layout) {S L B E i j k : Nat} (hi : i < L) (hj : j < S) (hk : k < B) (hE : 0 < E)
    (hN : S * L * B * E ≤ 2147483647) :
    index lay.code S L B E i j k = CI.lit ((lay.pos S L B i j k * E : Nat) : Int) := by
  cases lay
  · exact eval_bsq hi hj hk hE hN
  · exact eval_bil hi hj hk hE hN
  · exact eval_bip hi hj hk hE hN

theorem code_range (lay : Layout) : 0 ≤ lay.code ∧ lay.code ≤ 2 := by cases lay <;> decide

/-- conversion in place -/
theorem convertTo_run {m : Mem} (hm : m.WF) {o : HyMat} {a : Layout} (b : Layout) {S L B E : Nat} {dt : Int}
    {v : Nat → Nat → Nat → Nat → UInt8} {w : Nat → UInt8} (ho : IsHyMat m o a S L B dt E v w) (hN : S * L * B * E ≤ 2147483647) :
    ∃ m', convertTo o b.code m = .ok ({ o with format := b.code, interleave := b.tag }, m') ∧
      IsHyMat m' { o with format := b.code, interleave := b.tag } b S L B dt E v w ∧
      (∀ h, o.data ≠ some h → m'.blk h = m.blk h) ∧ m'.hm = m.hm ∧ m'.sm = m.sm ∧ m.next ≤ m'.next ∧ m'.WF := by
  obtain ⟨hE, hS, hL, hB, h5, h6, h7, h8, h9, h10, h11, h12, d, wb, f, x1, x2, x3, x4, x5, x6⟩ := ho
  rw [bytes_iff] at x4 x5
  have hE0 : 0 < E := (get_elemsize_eq hE).2.1
  have hN0 : 0 < S * L * B * E := by positivity
  have hdlt := x4.lt_next hm
  have hwlt := x5.lt_next hm
  by_cases hab : a = b
  · subst hab
    refine ⟨m, ?_, ?_, fun _ _ => rfl, rfl, rfl, le_refl _, hm⟩
    · unfold convertTo
      rw [if_pos h9.symm]
      have : ({ o with format := a.code, interleave := a.tag } : HyMat) = o := by cases o; simp_all
      rw [this]; rfl
    · exact ⟨hE, hS, hL, hB, h5, h6, h7, h8, rfl, rfl, h11, h12, d, wb, f, x1, x2, x3, bytes_iff.2 x4, bytes_iff.2 x5, x6⟩
  · have hca := code_range a
    have hcb := code_range b
    set m1 := m.grow (S * L * B * E) (m.junk m.next) with hm1
    have x4' : Holds m1 d (S * L * B * E) f := Holds.grow hm x4
    set m2 := m1.put m.next (S * L * B * E) (cubeBytes b S L B E v) with hm2
    have x4'' : Holds m2 d (S * L * B * E) f := x4'.put_ne (by omega)
    have hn2 : Holds m2 m.next (S * L * B * E) (cubeBytes b S L B E v) := holds_put _ _ _ _
    set m3 := m2.put d (S * L * B * E) (cubeBytes b S L B E v) with hm3
    have hn3 : Holds m3 m.next (S * L * B * E) (cubeBytes b S L B E v) := hn2.put_ne (by omega)
    have b3 : ∀ h, h ≠ d → h ≠ m.next → m3.blk h = m.blk h := by
      intro h k1 k2
      rw [hm3, put_blk_ne _ _ _ k1, hm2, put_blk_ne _ _ _ k2, hm1, grow_blk_ne _ _ _ k2]
    have b4 : ∀ h, h ≠ d → (m3.setBlk m.next none).blk h = m.blk h := by
      intro h k1
      by_cases k2 : h = m.next
      · subst k2
        simp only [Mem.setBlk, if_true]
        exact (hm _ (le_refl _)).1.symm
      · simp only [Mem.setBlk, if_neg k2]
        exact b3 h k1 k2
    refine ⟨m3.setBlk m.next none, ?_, ?_, ?_, rfl, rfl, ?_, ?_⟩
    · unfold convertTo
      rw [if_neg (by rw [h9, code_inj]; exact fun e => hab e.symm), h12, if_neg (by omega), bind_ok (malloc_run _ _), Int.toNat_natCast,
        if_neg (by rw [h9]; rintro ⟨h | h | h | h, _⟩ <;> omega), h5, h6, h7, h9, h11, x1]
      have hF : Fills (forI 0 (L : Int) fun i => forI 0 (S : Int) fun j => forI 0 (B : Int) fun k => do
          let srcIndex ← ev (index a.code S L B E i j k)
          let dstIndex ← ev (index b.code S L B E i j k)
          let src ← usePtr (some d)
          moveElem m.next dstIndex src srcIndex E) m1 m.next (S * L * B * E) (cubeBytes b S L B E v)
          (fun p => ∃ i, i < L ∧ ∃ j, j < S ∧ ∃ k, k < B ∧ (b.pos S L B i j k * E ≤ p ∧ p < b.pos S L B i j k * E + E)) := by
        refine nest3 (P := fun i j k p => b.pos S L B i j k * E ≤ p ∧ p < b.pos S L B i j k * E + E) ?_
        intro i j k hi hj hk
        apply Fills.bind (fun g => ev_ok (index_eval a hi hj hk hE0 hN) _)
        apply Fills.bind (fun g => ev_ok (index_eval b hi hj hk hE0 hN) _)
        exact hyMove_fills a b x4' (by omega) x6 hi hj hk
      have hF2 := hF.total (by
        intro p hp
        obtain ⟨i, j, k, hi, hj, hk, h⟩ := byte_cover b hp
        exact ⟨i, hi, j, hj, k, hk, h⟩) (grow_holds m _ _)
      rw [bind_ok hF2, ← hm2]
      have hcp : copyData o (some m.next) ((S * L * B * E : Nat) : Int) m2 = .ok ((), m3) := by
        unfold copyData
        rw [x1]
        dsimp only
        rw [if_neg (by omega)]
        have := memcpy_ok (doff := 0) (soff := 0) (k := S * L * B * E) hn2 x4'' (by omega) (by omega) (by omega)
        rw [show memcpy d 0 m.next 0 ((S * L * B * E : Nat) : Int) m2 = _ from this]
        refine congrArg (fun x => Except.ok ((), x)) (put_congr _ _ _ ?_)
        intro p hp
        simp [hp]
      rw [bind_ok hcp]
      have hfr : free m.next m3 = .ok ((), m3.setBlk m.next none) := by
        unfold free
        rw [show m3.blk m.next = _ from hn3]
      rw [bind_ok hfr, if_pos hcb, tagOf_code]
      cases o
      rfl
    · refine ⟨hE, hS, hL, hB, h5, h6, h7, h8, rfl, rfl, h11, h12, d, wb, cubeBytes b S L B E v, x1, x2, x3, bytes_iff.2 ?_, bytes_iff.2 ?_, ?_⟩
      · have : Holds m3 d (S * L * B * E) (cubeBytes b S L B E v) := holds_put _ _ _ _
        unfold Holds at this ⊢
        simp only [Mem.setBlk, if_neg (show d ≠ m.next by omega)]
        exact this
      · unfold Holds at x5 ⊢
        rw [b4 wb (fun e => x3 e.symm)]
        exact x5
      · intro i j k t hi hj hk ht
        exact cubeBytes_at b hi hj hk ht
    · intro h hh
      exact b4 h (fun e => hh (by rw [x1, e]))
    · show m.next ≤ m.next + 1
      omega
    · intro h hh
      have hh' : m.next + 1 ≤ h := hh
      refine ⟨?_, (hm h (by omega)).2⟩
      rw [b4 h (by omega)]
      exact (hm h (by omega)).1

/-- positions inside a part of a cube -/
theorem rangeIndex_eval (lay : Layout) {S L B S' L' B' E i j k r0 c0 b0 : Nat} (hi : i < L') (hj : j < S') (hk : k < B') (hE : 0 < E)
    (hS : c0 + S' ≤ S) (hL : r0 + L' ≤ L) (hB : b0 + B' ≤ B) (hN : S * L * B * E ≤ 2147483647) :
    rangeIndex lay.code S' L' B' E r0 c0 b0 ((r0 : Int) + (i : Int)) ((c0 : Int) + (j : Int)) ((b0 : Int) + (k : Int))
      = CI.lit ((lay.pos S' L' B' i j k * E : Nat) : Int) := by
  have hSLB : S * L * B ≤ 2147483647 := le_trans (Nat.le_mul_of_pos_right _ hE) hN
  have hle : S' * L' * B' ≤ S * L * B := Nat.mul_le_mul (Nat.mul_le_mul (by omega) (by omega)) (by omega)
  have hN' : S' * L' * B' * E ≤ 2147483647 := le_trans (Nat.mul_le_mul_right _ hle) hN
  have d1 : (CI.lit ((r0 : Int) + (i : Int)) - CI.lit (r0 : Int) : CI) = CI.lit (i : Int) := by
    have hL1 : L ≤ S * L * B := by
      calc L ≤ S * L := Nat.le_mul_of_pos_left _ (by omega)
        _ ≤ S * L * B := Nat.le_mul_of_pos_right _ (by omega)
    rw [CI.sub_ok (by constructor <;> omega)]; congr 1; omega
  have d2 : (CI.lit ((c0 : Int) + (j : Int)) - CI.lit (c0 : Int) : CI) = CI.lit (j : Int) := by
    have hS1 : S ≤ S * L * B := by
      calc S ≤ S * L := Nat.le_mul_of_pos_right _ (by omega)
        _ ≤ S * L * B := Nat.le_mul_of_pos_right _ (by omega)
    rw [CI.sub_ok (by constructor <;> omega)]; congr 1; omega
  have d3 : (CI.lit ((b0 : Int) + (k : Int)) - CI.lit (b0 : Int) : CI) = CI.lit (k : Int) := by
    have hB1 : B ≤ S * L * B := Nat.le_mul_of_pos_left _ (Nat.mul_pos (by omega) (by omega))
    rw [CI.sub_ok (by constructor <;> omega)]; congr 1; omega
  have key : ∀ (X P : Nat) (c y q : Nat), P = X + y → (X + y) * E ≤ 2147483647 → X + (c + y) ≤ 2147483647 →
      (CI.lit (X : Int) + CI.lit ((c : Int) + (y : Int)) - CI.lit (c : Int) : CI) * CI.lit (E : Int) = CI.lit ((P * E : Nat) : Int) := by
    intro X P c y q hP hb h2
    have h3 : X + y ≤ (X + y) * E := Nat.le_mul_of_pos_right _ hE
    have e1 : (X : Int) + ((c : Int) + (y : Int)) = ((X + (c + y) : Nat) : Int) := by push_cast; rfl
    have e2 : ((X + (c + y) : Nat) : Int) - (c : Int) = ((X + y : Nat) : Int) := by push_cast; ring
    have e3 : ((X + y : Nat) : Int) * (E : Int) = ((P * E : Nat) : Int) := by rw [hP]; push_cast; rfl
    rw [CI.add_ok (by rw [e1]; constructor <;> omega), e1, CI.sub_ok (by rw [e2]; constructor <;> omega), e2,
      CI.mul_ok (by rw [e3, hP]; constructor <;> omega), e3]
  have hb := byte_lt lay (E := E) hi hj hk
  cases lay
  · show ((CI.lit _ - CI.lit _) * CI.lit _ * CI.lit _ + (CI.lit _ - CI.lit _) * CI.lit _ + CI.lit _ - CI.lit _) * CI.lit _ = _
    rw [d3, d1]
    have hX : (k * S' * L' + i * S') + j = Layout.bsq.pos S' L' B' i j k := by simp only [Layout.pos]; ring
    have hX2 : (k * S' * L' + i * S') + (c0 + j) ≤ S * L * B := by
      have t1 : k * S' * L' + i * S' = (k * L' + i) * S' := by ring
      have t2 : k * L' + i + 1 ≤ B' * L' := by have := mix_lt hk hi; omega
      have t3 : (k * L' + i) * S' + S ≤ (k * L' + i + 1) * S := by
        have := Nat.mul_le_mul_left (k * L' + i) (show S' ≤ S by omega)
        nlinarith
      have t4 : (k * L' + i + 1) * S ≤ B * L * S := Nat.mul_le_mul_right _ (le_trans t2 (Nat.mul_le_mul (by omega) (by omega)))
      have t5 : B * L * S = S * L * B := by ring
      omega
    have eX : (CI.lit (k : Int) * CI.lit (S' : Int) * CI.lit (L' : Int) + CI.lit (i : Int) * CI.lit (S' : Int) : CI)
        = CI.lit ((k * S' * L' + i * S' : Nat) : Int) := by
      have h : k * S' * L' + i * S' < 2147483648 := by omega
      have hS0 : 0 < S' := by omega
      have hL0 : 0 < L' := by omega
      ci_down
    rw [eX]
    refine key _ _ c0 j 0 hX.symm ?_ (by omega)
    rw [hX]; omega
  · show ((CI.lit _ - CI.lit _) * CI.lit _ * CI.lit _ + (CI.lit _ - CI.lit _) * CI.lit _ + CI.lit _ - CI.lit _) * CI.lit _ = _
    rw [d1, d3]
    have hX : (i * S' * B' + k * S') + j = Layout.bil.pos S' L' B' i j k := by simp only [Layout.pos]; ring
    have hX2 : (i * S' * B' + k * S') + (c0 + j) ≤ S * L * B := by
      have t1 : i * S' * B' + k * S' = (i * B' + k) * S' := by ring
      have t2 : i * B' + k + 1 ≤ L' * B' := by have := mix_lt hi hk; omega
      have t3 : (i * B' + k) * S' + S ≤ (i * B' + k + 1) * S := by
        have := Nat.mul_le_mul_left (i * B' + k) (show S' ≤ S by omega)
        nlinarith
      have t4 : (i * B' + k + 1) * S ≤ L * B * S := Nat.mul_le_mul_right _ (le_trans t2 (Nat.mul_le_mul (by omega) (by omega)))
      have t5 : L * B * S = S * L * B := by ring
      omega
    have eX : (CI.lit (i : Int) * CI.lit (S' : Int) * CI.lit (B' : Int) + CI.lit (k : Int) * CI.lit (S' : Int) : CI)
        = CI.lit ((i * S' * B' + k * S' : Nat) : Int) := by
      have h : i * S' * B' + k * S' < 2147483648 := by omega
      have hS0 : 0 < S' := by omega
      have hB0 : 0 < B' := by omega
      ci_down
    rw [eX]
    refine key _ _ c0 j 0 hX.symm ?_ (by omega)
    rw [hX]; omega
  · show ((CI.lit _ - CI.lit _) * CI.lit _ * CI.lit _ + (CI.lit _ - CI.lit _) * CI.lit _ + CI.lit _ - CI.lit _) * CI.lit _ = _
    rw [d1, d2]
    have hX : (i * S' * B' + j * B') + k = Layout.bip.pos S' L' B' i j k := by simp only [Layout.pos]; ring
    have hX2 : (i * S' * B' + j * B') + (b0 + k) ≤ S * L * B := by
      have t1 : i * S' * B' + j * B' = (i * S' + j) * B' := by ring
      have t2 : i * S' + j + 1 ≤ L' * S' := by have := mix_lt hi hj; omega
      have t3 : (i * S' + j) * B' + B ≤ (i * S' + j + 1) * B := by
        have := Nat.mul_le_mul_left (i * S' + j) (show B' ≤ B by omega)
        nlinarith
      have t4 : (i * S' + j + 1) * B ≤ L * S * B := Nat.mul_le_mul_right _ (le_trans t2 (Nat.mul_le_mul (by omega) (by omega)))
      have t5 : L * S * B = S * L * B := by ring
      omega
    have eX : (CI.lit (i : Int) * CI.lit (S' : Int) * CI.lit (B' : Int) + CI.lit (j : Int) * CI.lit (B' : Int) : CI)
        = CI.lit ((i * S' * B' + j * B' : Nat) : Int) := by
      have h : i * S' * B' + j * B' < 2147483648 := by omega
      have hS0 : 0 < S' := by omega
      have hB0 : 0 < B' := by omega
      ci_down
    rw [eX]
    refine key _ _ b0 k 0 hX.symm ?_ (by omega)
    rw [hX]; omega

/-- three nested filling loops over parts -/
theorem hyNest3_from {n1 n2 n3 : Nat} {l1 l2 l3 : Nat} {body : Int → Int → Int → M Unit} {m : Mem} {d N : Nat}
    {new : Nat → UInt8} {P : Nat → Nat → Nat → Nat → Prop}
    (h : ∀ a b c, a < n1 → b < n2 → c < n3 →
      Fills (body ((l1 : Int) + (a : Int)) ((l2 : Int) + (b : Int)) ((l3 : Int) + (c : Int))) m d N new (P a b c)) :
    Fills (forI (l1 : Int) ((l1 + n1 : Nat) : Int) fun a => forI (l2 : Int) ((l2 + n2 : Nat) : Int) fun b =>
        forI (l3 : Int) ((l3 + n3 : Nat) : Int) fun c => body a b c)
      m d N new (fun p => ∃ a, a < n1 ∧ ∃ b, b < n2 ∧ ∃ c, c < n3 ∧ P a b c p) := by
  apply Fills.loop_from (n := n1) (P := fun a p => ∃ b, b < n2 ∧ ∃ c, c < n3 ∧ P a b c p) (by push_cast; rfl)
  intro a ha
  apply Fills.loop_from (n := n2) (P := fun b p => ∃ c, c < n3 ∧ P a b c p) (by push_cast; rfl)
  intro b hb
  apply Fills.loop_from (n := n3) (P := fun c p => P a b c p) (by push_cast; rfl)
  intro c hc
  exact h a b c ha hb hc

/-- the part of a cube -/
theorem range_run {raw : HyMat} (hr : Lucky raw) {m : Mem} (hm : m.WF) {o : HyMat} {lay : Layout} {S L B E : Nat} {dt : Int}
    {v : Nat → Nat → Nat → Nat → UInt8} {w : Nat → UInt8} (ho : IsHyMat m o lay S L B dt E v w) (hN : S * L * B * E ≤ 2147483647)
    {r0 c0 b0 L' S' B' : Nat} (hL' : 0 < L') (hS' : 0 < S') (hB' : 0 < B') (hr0 : r0 + L' ≤ L) (hc0 : c0 + S' ≤ S) (hb0 : b0 + B' ≤ B) :
    range o raw r0 c0 b0 ((r0 + L' : Nat) : Int) ((c0 + S' : Nat) : Int) ((b0 + B' : Nat) : Int) m
      = .ok (newHy m S' L' B' dt E lay, hyMem m (S' * L' * B' * E) B'
          (cubeBytes lay S' L' B' E fun i j k t => v (r0 + i) (c0 + j) (b0 + k) t) (fun t => w (b0 * 4 + t))) := by
  obtain ⟨hE, hS, hL, hB, h5, h6, h7, h8, h9, h10, h11, h12, d, wb, f, x1, x2, x3, x4, x5, x6⟩ := ho
  rw [bytes_iff] at x4 x5
  have hE0 : 0 < E := (get_elemsize_eq hE).2.1
  have hdlt := x4.lt_next hm
  have hwlt := x5.lt_next hm
  have hSLB : S * L * B ≤ 2147483647 := le_trans (Nat.le_mul_of_pos_right _ hE0) hN
  have hSL : S * L ≤ 2147483647 := le_trans (Nat.le_mul_of_pos_right _ hB) hSLB
  have hL1 : L ≤ S * L := Nat.le_mul_of_pos_left _ hS
  have hS1 : S ≤ S * L := Nat.le_mul_of_pos_right _ hL
  have hB1 : B ≤ S * L * B := Nat.le_mul_of_pos_left _ (Nat.mul_pos hS hL)
  have hle : S' * L' * B' ≤ S * L * B := Nat.mul_le_mul (Nat.mul_le_mul (by omega) (by omega)) (by omega)
  have hN' : S' * L' * B' * E ≤ 2147483647 := le_trans (Nat.mul_le_mul_right _ hle) hN
  unfold HyMat.range
  rw [cassert_bind (by simp only [Bool.and_eq_true, decide_eq_true_eq]; omega)]
  rw [ev_bind (a := (S' : Int)) (by rw [CI.sub_ok (by constructor <;> omega)]; congr 1; omega),
    ev_bind (a := (L' : Int)) (by rw [CI.sub_ok (by constructor <;> omega)]; congr 1; omega),
    ev_bind (a := (B' : Int)) (by rw [CI.sub_ok (by constructor <;> omega)]; congr 1; omega)]
  rw [h8, h9, bind_ok (construct_run hr lay m hS' hL' hB' hE hN'), h5, h6, h7, h11, x1, x2]
  dsimp only
  set m1 := hyMem m (S' * L' * B' * E) B' (fun _ => 0) (fun _ => 0) with hm1
  have x4' : Holds m1 d (S * L * B * E) f := hyMem_old hm x4
  have key : ∀ i j k, i < L' → j < S' → k < B' → Fills (do
      let srcIndex ← ev (index lay.code S L B E ((r0 : Int) + (i : Int)) ((c0 : Int) + (j : Int)) ((b0 : Int) + (k : Int)))
      let dstIndex ← ev (rangeIndex lay.code S' L' B' E r0 c0 b0 ((r0 : Int) + (i : Int)) ((c0 : Int) + (j : Int)) ((b0 : Int) + (k : Int)))
      let src ← usePtr (some d)
      let d ← usePtr (newHy m S' L' B' dt E lay).data
      moveElem d dstIndex src srcIndex E) m1 m.next (S' * L' * B' * E)
      (cubeBytes lay S' L' B' E fun i j k t => v (r0 + i) (c0 + j) (b0 + k) t)
      (fun p => lay.pos S' L' B' i j k * E ≤ p ∧ p < lay.pos S' L' B' i j k * E + E) := by
    intro i j k hi hj hk
    have ei : ((r0 : Int) + (i : Int)) = ((r0 + i : Nat) : Int) := by push_cast; rfl
    have ej : ((c0 : Int) + (j : Int)) = ((c0 + j : Nat) : Int) := by push_cast; rfl
    have ek : ((b0 : Int) + (k : Int)) = ((b0 + k : Nat) : Int) := by push_cast; rfl
    have i1 := rangeIndex_eval lay hi hj hk hE0 hc0 hr0 hb0 hN
    rw [ei, ej, ek] at i1 ⊢
    apply Fills.bind (fun g => ev_ok (index_eval lay (show r0 + i < L by omega) (show c0 + j < S by omega) (show b0 + k < B by omega) hE0 hN) _)
    apply Fills.bind (fun g => ev_ok i1 _)
    refine moveElem_fills x4' (by omega) (byte_lt lay hi hj hk) (byte_lt lay (by omega) (by omega) (by omega)) ?_
    intro t ht
    rw [cubeBytes_at lay hi hj hk ht, x6 _ _ _ _ (by omega) (by omega) (by omega) ht]
  have cover : ∀ p, p < S' * L' * B' * E → ∃ i j k, i < L' ∧ j < S' ∧ k < B' ∧
      lay.pos S' L' B' i j k * E ≤ p ∧ p < lay.pos S' L' B' i j k * E + E := fun p hp => byte_cover lay hp
  have tail : (do
      copyWaveLength (newHy m S' L' B' dt E lay) (some wb) (b0 : Int) (B' : Int)
      pure (newHy m S' L' B' dt E lay) : M HyMat)
      (m1.put m.next (S' * L' * B' * E) (cubeBytes lay S' L' B' E fun i j k t => v (r0 + i) (c0 + j) (b0 + k) t))
      = .ok (newHy m S' L' B' dt E lay, hyMem m (S' * L' * B' * E) B'
          (cubeBytes lay S' L' B' E fun i j k t => v (r0 + i) (c0 + j) (b0 + k) t) (fun t => w (b0 * 4 + t))) := by
    rw [hm1, hyMem_put_data]
    have := copyWaveLength_run (o := newHy m S' L' B' dt E lay) (off := b0) (k := B') rfl
      (hyMem_old (N := S' * L' * B' * E) (B := B') (f := cubeBytes lay S' L' B' E fun i j k t => v (r0 + i) (c0 + j) (b0 + k) t)
        (w := fun _ => 0) hm x5) hyMem_wave (by omega) hB' (by omega) (by omega) rfl
    rw [bind_ok this, hyMem_put_wave]
    refine congrArg (fun x => Except.ok (_, x)) ?_
    unfold hyMem
    apply grow_congr
    intro i hi
    rw [if_pos (by omega)]
  cases lay
  · rw [if_neg (by decide), if_neg (by decide), if_pos (by decide)]
    have hF := (hyNest3_from (l1 := b0) (l2 := r0) (l3 := c0) (n1 := B') (n2 := L') (n3 := S')
      (body := fun (K : Int) (I : Int) (J : Int) => do
        let srcIndex ← ev (index Layout.bsq.code S L B E I J K)
        let dstIndex ← ev (rangeIndex Layout.bsq.code S' L' B' E r0 c0 b0 I J K)
        let src ← usePtr (some d)
        let d ← usePtr (newHy m S' L' B' dt E .bsq).data
        moveElem d dstIndex src srcIndex E)
      (fun k i j hk hi hj => key i j k hi hj hk)).total (by
        intro p hp
        obtain ⟨i, j, k, hi, hj, hk, h⟩ := cover p hp
        exact ⟨k, hk, i, hi, j, hj, h⟩) (hyMem_data hm)
    rw [bind_ok hF]
    exact tail
  · rw [if_pos (by decide)]
    have hF := (hyNest3_from (l1 := r0) (l2 := b0) (l3 := c0) (n1 := L') (n2 := B') (n3 := S')
      (body := fun (I : Int) (K : Int) (J : Int) => do
        let srcIndex ← ev (index Layout.bil.code S L B E I J K)
        let dstIndex ← ev (rangeIndex Layout.bil.code S' L' B' E r0 c0 b0 I J K)
        let src ← usePtr (some d)
        let d ← usePtr (newHy m S' L' B' dt E .bil).data
        moveElem d dstIndex src srcIndex E)
      (fun i k j hi hk hj => key i j k hi hj hk)).total (by
        intro p hp
        obtain ⟨i, j, k, hi, hj, hk, h⟩ := cover p hp
        exact ⟨i, hi, k, hk, j, hj, h⟩) (hyMem_data hm)
    rw [bind_ok hF]
    exact tail
  · rw [if_neg (by decide), if_pos (by decide)]
    have hF := (hyNest3_from (l1 := r0) (l2 := c0) (l3 := b0) (n1 := L') (n2 := S') (n3 := B')
      (body := fun (I : Int) (J : Int) (K : Int) => do
        let srcIndex ← ev (index Layout.bip.code S L B E I J K)
        let dstIndex ← ev (rangeIndex Layout.bip.code S' L' B' E r0 c0 b0 I J K)
        let src ← usePtr (some d)
        let d ← usePtr (newHy m S' L' B' dt E .bip).data
        moveElem d dstIndex src srcIndex E)
      (fun i j k hi hj hk => key i j k hi hj hk)).total (by
        intro p hp
        obtain ⟨i, j, k, hi, hj, hk, h⟩ := cover p hp
        exact ⟨i, hi, j, hj, k, hk, h⟩) (hyMem_data hm)
    rw [bind_ok hF]
    exact tail

end HyperCV
