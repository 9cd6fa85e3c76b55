/- filter2D. -/
import Verif.Model.Filter2D
import Verif.Proof.Gaussian

namespace HyperCV
open Spec

theorem setS_self {m : Mem} {p : Nat} {h : SimpleMat} (hp : m.sm p = some h) : setS p h m = .ok ((), m) := by
  rw [setS_ok hp]
  refine congrArg (fun x => Except.ok ((), x)) ?_
  apply Mem.ext' <;> try rfl
  funext q
  show (if q = p then some h else m.sm q) = m.sm q
  split
  · rename_i e; rw [e, hp]
  · rfl

/-- the terms of the correlation at (`i`, `j`), in the order of the kernel -/
structure Corr where
  K : Nat → Nat
  kr : Nat
  kc : Nat
  gR : Int → Nat
  gC : Int → Nat
  px : Nat → Nat → Nat → UInt8

/-- the product for tap number `t` -/
def Corr.term (a : Corr) (i j c t : Nat) : FV :=
  f32.mul (f32.decode (a.K t))
    (f32.ofInt ((a.px (a.gR ((i:Int) + (t / a.kc : Nat) - (a.kr / 2 : Nat))) (a.gC ((j:Int) + (t % a.kc : Nat) - (a.kc / 2 : Nat))) c).toNat : Int))

/-- element of the destination after `t` taps -/
def Corr.acc (a : Corr) (old : Nat → Nat → Nat → Nat) (i j c : Nat) : Nat → Nat
  | 0 => old i j c
  | t + 1 => f32.encode (f32.add (f32.decode (Corr.acc a old i j c t)) (a.term i j c t))

/-- pixel (`i`, `j`) replaced by `v` -/
def pixSet (i j : Nat) (v : Nat → Nat) (g : Nat → Nat → Nat → Nat) : Nat → Nat → Nat → Nat :=
  fun i' j' c' => if i' = i ∧ j' = j then v c' else g i' j' c'

theorem Corr.acc_lt {a : Corr} {old : Nat → Nat → Nat → Nat} {i j c t : Nat} (h : old i j c < 256 ^ 4) : a.acc old i j c t < 256 ^ 4 := by
  cases t with
  | zero => exact h
  | succ t => exact f32_encode_lt (good_add _ _ _)

theorem HoldsN.putP_ne {m : Mem} {h w n d w' R C ch : Nat} {a : Nat → Nat} {b : Nat → Nat → Nat → Nat} (hh : HoldsN m h w n a)
    (hne : h ≠ d) : HoldsN (m.putP d w' R C ch b) h w n a := hh.putN_ne hne

theorem Holds.putP_ne {m : Mem} {h n d w' R C ch : Nat} {f : Nat → UInt8} {b : Nat → Nat → Nat → Nat} (hh : Holds m h n f)
    (hne : h ≠ d) : Holds (m.putP d w' R C ch b) h n f := hh.put_ne hne

section
variable {m : Mem} {sd dd kd R C ch : Nat} {bt : Int} {a : Corr} {old : Nat → Nat → Nat → Nat} {s d : SimpleMat}

theorem filterTap_run {N : Nat} (hN : R * C * ch ≤ N) (hs : Holds m sd N (imgBytes C ch 1 (fun i j c _ => a.px i j c)))
    (hk : HoldsN m kd 4 (a.kr * a.kc) a.K) (hne1 : sd ≠ dd) (hne2 : kd ≠ dd) (hch : ch = 1 ∨ ch = 3)
    (hb : R * C * ch ≤ 2147483647) (hb2 : a.kr * a.kc ≤ 2147483647)
    (hR : TapOK bt R (a.kr / 2) a.gR) (hC : TapOK bt C (a.kc / 2) a.gC)
    {i j x y : Nat} (hi : i < R) (hj : j < C) (hx : x < a.kr) (hy : y < a.kc) (hold : FitsP 4 R C ch old)
    {g : Nat → Nat → Nat → Nat}
    (s2 : s.cols = C) (s3 : s.channels = ch) (s4 : s.data = sd) (d4 : d.data = dd) :
    filterTap s d kd a.kc i j x y (a.gR ((i:Int) + x - (a.kr / 2 : Nat)) : Nat) (a.gC ((j:Int) + y - (a.kc / 2 : Nat)) : Nat)
        (m.putP dd 4 R C ch (pixSet i j (fun c => a.acc old i j c (x * a.kc + y)) g))
      = .ok ((), m.putP dd 4 R C ch (pixSet i j (fun c => a.acc old i j c (x * a.kc + y + 1)) g)) := by
  obtain ⟨-, r2⟩ := hR ((i:Int) + x - (a.kr / 2 : Nat)) (by omega) (by omega)
  obtain ⟨-, c2⟩ := hC ((j:Int) + y - (a.kc / 2 : Nat)) (by omega) (by omega)
  have hT := mix_lt hx hy
  unfold filterTap
  rw [s2, s3, s4, d4, if_pos (by omega)]
  have run := forI_run (n := ch) (body := fun c => do
      let p ← ev (CI.lit (i:Int) * (C:Int) * (ch:Int) + CI.lit (j:Int) * (ch:Int) + c)
      let q ← ev (CI.lit ((a.gR ((i:Int) + x - (a.kr / 2 : Nat)) : Nat) : Int) * (C:Int) * (ch:Int)
        + CI.lit ((a.gC ((j:Int) + y - (a.kc / 2 : Nat)) : Nat) : Int) * (ch:Int) + c)
      let r ← ev (CI.lit (x:Int) * (a.kc:Int) + (y:Int))
      let k ← loadN 4 kd r
      let v ← load sd q
      let old ← loadN 4 dd p
      storeN 4 dd p (f32.encode (f32.add (f32.decode old) (f32.mul (f32.decode k) (f32.ofInt (v.toNat : Int))))))
    (fun c' => m.putP dd 4 R C ch (pixSet i j (fun c => a.acc old i j c (if c < c' then x * a.kc + y + 1 else x * a.kc + y)) g)) (by
      intro c hc
      beta_reduce
      have e3 : (CI.lit (x:Int) * CI.lit (a.kc:Int) + CI.lit (y:Int) : CI) = CI.lit ((x * a.kc + y : Nat) : Int) := by
        have h2 : x * a.kc ≤ 2147483647 := by omega
        rw [CI.mul_ok (by constructor <;> ((try norm_cast) <;> omega)), CI.add_ok (by constructor <;> ((try norm_cast) <;> omega))]
        push_cast; rfl
      rw [bind_ok (ev_ok (eval_img hi hj hc hb) _), bind_ok (ev_ok (eval_img r2 c2 hc hb) _), bind_ok (ev_ok e3 _),
        bind_ok ((hk.putP_ne hne2).load hT), bind_ok (load_ok (hs.putP_ne hne1) (lt_of_lt_of_le (img8_lt r2 c2 hc) hN)), imgBytes_at8 c2 hc]
      have hl : loadN 4 dd (((i * C + j) * ch + c : Nat) : Int)
          (m.putP dd 4 R C ch (pixSet i j (fun c' => a.acc old i j c' (if c' < c then x * a.kc + y + 1 else x * a.kc + y)) g))
          = .ok (a.acc old i j c (x * a.kc + y), m.putP dd 4 R C ch (pixSet i j (fun c' => a.acc old i j c' (if c' < c then x * a.kc + y + 1 else x * a.kc + y)) g)) := by
        refine loadN_val (holds_put _ _ _ _) (slot_le (img8_lt hi hj hc)) ?_ (Corr.acc_lt (hold i j c hi hj hc))
        intro t ht
        rw [encN_at _ ht, pxF_at _ hj hc]
        unfold pixSet
        rw [if_pos ⟨rfl, rfl⟩]
        beta_reduce
        rw [if_neg (by omega)]
      rw [bind_ok hl, storeP_put hi hj hc]
      refine congrArg (fun x => Except.ok ((), x)) (putP_congr m ?_)
      intro i' j' c' hi' hj' hc'
      unfold pixSet
      by_cases e : i' = i ∧ j' = j
      · obtain ⟨rfl, rfl⟩ := e
        by_cases e2 : c' = c
        · subst e2
          rw [if_pos ⟨rfl, rfl, rfl⟩, if_pos ⟨rfl, rfl⟩]
          beta_reduce
          rw [if_pos (by omega)]
          rw [Nat.mod_eq_of_lt (f32_encode_lt (good_add _ _ _))]
          show _ = f32.encode _
          unfold Corr.term
          rw [mix_div hy, mix_mod hy]
        · rw [if_neg (by omega), if_pos ⟨rfl, rfl⟩, if_pos ⟨rfl, rfl⟩]
          beta_reduce
          congr 1
          by_cases e3 : c' < c
          · rw [if_pos e3, if_pos (by omega)]
          · rw [if_neg e3, if_neg (by omega)]
      · rw [if_neg (by omega), if_neg e, if_neg e])
  beta_reduce at run
  refine Eq.trans ?_ (run.trans ?_)
  · congr 1
  · refine congrArg (fun x => Except.ok ((), x)) (putP_congr m ?_)
    intro i' j' c' hi' hj' hc'
    unfold pixSet
    split
    · beta_reduce; rw [if_pos hc']
    · rfl

theorem filterPixel_run {N : Nat} (hN : R * C * ch ≤ N) (hs : Holds m sd N (imgBytes C ch 1 (fun i j c _ => a.px i j c)))
    (hk : HoldsN m kd 4 (a.kr * a.kc) a.K) (hne1 : sd ≠ dd) (hne2 : kd ≠ dd) (hch : ch = 1 ∨ ch = 3)
    (hb : R * C * ch ≤ 2147483647) (hb2 : a.kr * a.kc ≤ 2147483647) (hRk : R + a.kr ≤ 2147483647) (hCk : C + a.kc ≤ 2147483647)
    (hR : TapOK bt R (a.kr / 2) a.gR) (hC : TapOK bt C (a.kc / 2) a.gC)
    {i j : Nat} (hi : i < R) (hj : j < C) (hold : FitsP 4 R C ch old)
    {g : Nat → Nat → Nat → Nat} (s1 : s.rows = R)
    (s2 : s.cols = C) (s3 : s.channels = ch) (s4 : s.data = sd) (d4 : d.data = dd) :
    filterPixel s d kd a.kr a.kc bt i j (m.putP dd 4 R C ch (pixSet i j (fun c => old i j c) g))
      = .ok ((), m.putP dd 4 R C ch (pixSet i j (fun c => a.acc old i j c (a.kr * a.kc)) g)) := by
  unfold filterPixel
  have run := forI_run (n := a.kr) (body := fun x => do
      let p ← ev (CI.lit (i:Int) + CI.lit x - CI.lit ((a.kr:Int) / 2))
      let index_i ← tapIndex p s.rows bt
      filterRow s d kd a.kc bt i j x index_i)
    (fun x => m.putP dd 4 R C ch (pixSet i j (fun c => a.acc old i j c (x * a.kc)) g)) (by
      intro x hx
      beta_reduce
      have e0 : ((a.kr:Int) / 2) = (a.kr / 2 : Nat) := by omega
      have e1 : (CI.lit (i:Int) + CI.lit (x:Int) - CI.lit ((a.kr:Int) / 2) : CI) = CI.lit ((i:Int) + x - (a.kr / 2 : Nat)) := by
        rw [e0, CI.add_ok (by constructor <;> omega), CI.sub_ok (by constructor <;> omega)]
      obtain ⟨r1, r2⟩ := hR ((i:Int) + x - (a.kr / 2 : Nat)) (by omega) (by omega)
      rw [bind_ok (ev_ok e1 _), s1, bind_ok (tapIndex_ok r1 _)]
      unfold filterRow
      have run2 := forI_run (n := a.kc) (body := fun y => do
          let p ← ev (CI.lit (j:Int) + CI.lit y - CI.lit ((a.kc:Int) / 2))
          let index_j ← tapIndex p s.cols bt
          filterTap s d kd a.kc i j x y (a.gR ((i:Int) + x - (a.kr / 2 : Nat)) : Nat) index_j)
        (fun y => m.putP dd 4 R C ch (pixSet i j (fun c => a.acc old i j c (x * a.kc + y)) g)) (by
          intro y hy
          beta_reduce
          have e0 : ((a.kc:Int) / 2) = (a.kc / 2 : Nat) := by omega
          have e1 : (CI.lit (j:Int) + CI.lit (y:Int) - CI.lit ((a.kc:Int) / 2) : CI) = CI.lit ((j:Int) + y - (a.kc / 2 : Nat)) := by
            rw [e0, CI.add_ok (by constructor <;> omega), CI.sub_ok (by constructor <;> omega)]
          obtain ⟨c1, c2⟩ := hC ((j:Int) + y - (a.kc / 2 : Nat)) (by omega) (by omega)
          rw [bind_ok (ev_ok e1 _), s2, bind_ok (tapIndex_ok c1 _)]
          exact filterTap_run hN hs hk hne1 hne2 hch hb hb2 hR hC hi hj hx hy hold s2 s3 s4 d4)
      beta_reduce at run2
      rw [Nat.add_zero] at run2
      rw [run2, Nat.succ_mul])
  beta_reduce at run
  rw [Nat.zero_mul] at run
  exact run

theorem filter_run {N : Nat} (hN : R * C * ch ≤ N) (hs : Holds m sd N (imgBytes C ch 1 (fun i j c _ => a.px i j c)))
    (hk : HoldsN m kd 4 (a.kr * a.kc) a.K) (hd : HoldsP m dd 4 R C ch old) (hne1 : sd ≠ dd) (hne2 : kd ≠ dd) (hch : ch = 1 ∨ ch = 3)
    (hb : R * C * ch ≤ 2147483647) (hb2 : a.kr * a.kc ≤ 2147483647) (hRk : R + a.kr ≤ 2147483647) (hCk : C + a.kc ≤ 2147483647)
    (hR : TapOK bt R (a.kr / 2) a.gR) (hC : TapOK bt C (a.kc / 2) a.gC)
    (s1 : s.rows = R) (s2 : s.cols = C) (s3 : s.channels = ch) (s4 : s.data = sd) (d4 : d.data = dd) :
    (forI 0 s.rows fun i => forI 0 s.cols fun j => filterPixel s d kd a.kr a.kc bt i j) m
      = .ok ((), m.putP dd 4 R C ch (fun i j c => a.acc old i j c (a.kr * a.kc))) := by
  rw [s1, s2]
  refine pixels_run (body := fun i j => filterPixel s d kd a.kr a.kc bt i j) hd ?_
  intro i j hi hj
  have step := filterPixel_run (bt := bt) (s := s) (d := d) (old := old) (g := mixP i j (fun i j c => a.acc old i j c (a.kr * a.kc)) old) hN hs hk hne1 hne2 hch hb hb2 hRk hCk hR hC hi hj hd.fits s1 s2 s3 s4 d4
  have z0 : m.putP dd 4 R C ch (pixSet i j (fun c => old i j c) (mixP i j (fun i j c => a.acc old i j c (a.kr * a.kc)) old))
      = m.putP dd 4 R C ch (mixP i j (fun i j c => a.acc old i j c (a.kr * a.kc)) old) := by
    apply putP_congr
    intro i' j' c' _ _ _
    unfold pixSet mixP
    by_cases e : i' = i ∧ j' = j
    · obtain ⟨rfl, rfl⟩ := e
      rw [if_pos ⟨rfl, rfl⟩, if_neg (by omega)]
    · rw [if_neg e]
  have z1 : m.putP dd 4 R C ch (pixSet i j (fun c => a.acc old i j c (a.kr * a.kc)) (mixP i j (fun i j c => a.acc old i j c (a.kr * a.kc)) old))
      = m.putP dd 4 R C ch (mixP i (j+1) (fun i j c => a.acc old i j c (a.kr * a.kc)) old) := by
    apply putP_congr
    intro i' j' c' _ _ _
    unfold pixSet mixP
    by_cases e : i' = i ∧ j' = j
    · obtain ⟨rfl, rfl⟩ := e
      rw [if_pos ⟨rfl, rfl⟩, if_pos (by omega)]
    · rw [if_neg e]
      by_cases hd : i' < i ∨ (i' = i ∧ j' < j)
      · rw [if_pos hd, if_pos (by omega)]
      · rw [if_neg hd, if_neg (by omega)]
  rw [z0, z1] at step
  exact step

/-! ### Destinations that are too small -/

theorem loadBytes_oob {m : Mem} {h N : Nat} {f : Nat → UInt8} (hm : Holds m h N f) :
    ∀ (w i : Nat), 0 < w → N < i + w → loadBytes h w (i : Int) m = .error (.ub .oob) := by
  intro w
  induction w with
  | zero => intro i h0; omega
  | succ w ih =>
    intro i _ hi
    unfold loadBytes
    by_cases h1 : i < N
    · rw [bind_ok (load_ok hm h1)]
      have := ih (i+1) (by omega) (by omega)
      push_cast at this
      exact bind_err this
    · exact bind_err (load_oob hm (by omega))

theorem loadN_oob {m : Mem} {h N w i : Nat} {f : Nat → UInt8} (hm : Holds m h N f) (hw : 0 < w) (hi : N < i * w + w) :
    loadN w h (i : Int) m = .error (.ub .oob) := by
  unfold loadN
  have e : (i : Int) * (w : Int) = ((i * w : Nat) : Int) := by push_cast; rfl
  rw [e]
  exact bind_err (loadBytes_oob hm w (i * w) hw hi)

/-- what the loops need in memory -/
def FilterMem (a : Corr) (sd kd dd R C ch N : Nat) (m : Mem) : Prop :=
  Holds m sd (R * C * ch) (imgBytes C ch 1 (fun i j c _ => a.px i j c)) ∧ HoldsN m kd 4 (a.kr * a.kc) a.K ∧ ∃ g, Holds m dd N g

/-- channel `c` of a tap: fails where the destination ends, otherwise keeps the rest of memory -/
theorem filterTap_outcome {N : Nat} (hne1 : sd ≠ dd) (hne2 : kd ≠ dd) (hch : ch = 1 ∨ ch = 3)
    (hb : R * C * ch ≤ 2147483647) (hb2 : a.kr * a.kc ≤ 2147483647) {i j x y gi gj : Nat} (hi : i < R) (hj : j < C)
    (hx : x < a.kr) (hy : y < a.kc) (hgi : gi < R) (hgj : gj < C)
    (s2 : s.cols = C) (s3 : s.channels = ch) (s4 : s.data = sd) (d4 : d.data = dd) :
    (∀ m, FilterMem a sd kd dd R C ch N m → filterTap s d kd a.kc i j x y gi gj m = .error (.ub .oob) ∨
      ∃ m', filterTap s d kd a.kc i j x y gi gj m = .ok ((), m') ∧ FilterMem a sd kd dd R C ch N m') ∧
    (N < R * C * ch * 4 → i = R - 1 → j = C - 1 → ∀ m, FilterMem a sd kd dd R C ch N m →
      filterTap s d kd a.kc i j x y gi gj m = .error (.ub .oob)) := by
  have hT := mix_lt hx hy
  have e3 : (CI.lit (x:Int) * CI.lit (a.kc:Int) + CI.lit (y:Int) : CI) = CI.lit ((x * a.kc + y : Nat) : Int) := by
    have h2 : x * a.kc ≤ 2147483647 := by omega
    rw [CI.mul_ok (by constructor <;> ((try norm_cast) <;> omega)), CI.add_ok (by constructor <;> ((try norm_cast) <;> omega))]
    push_cast; rfl
  let body : Int → M Unit := fun c => do
      let p ← ev (CI.lit (i:Int) * (C:Int) * (ch:Int) + CI.lit (j:Int) * (ch:Int) + c)
      let q ← ev (CI.lit (gi : Int) * (C:Int) * (ch:Int) + CI.lit (gj : Int) * (ch:Int) + c)
      let r ← ev (CI.lit (x:Int) * (a.kc:Int) + (y:Int))
      let k ← loadN 4 kd r
      let v ← load sd q
      let old ← loadN 4 dd p
      storeN 4 dd p (f32.encode (f32.add (f32.decode old) (f32.mul (f32.decode k) (f32.ofInt (v.toNat : Int)))))
  have hbody : ∀ m, filterTap s d kd a.kc i j x y gi gj m = forI 0 (ch:Int) body m := by
    intro m
    unfold filterTap
    rw [s2, s3, s4, d4, if_pos (by omega)]
  have step : ∀ c m, c < ch → FilterMem a sd kd dd R C ch N m →
      (N < ((i * C + j) * ch + c) * 4 + 4 → body c m = .error (.ub .oob)) ∧
      (body c m = .error (.ub .oob) ∨ ∃ m', body c m = .ok ((), m') ∧ FilterMem a sd kd dd R C ch N m') := by
    rintro c m hc ⟨q1, q2, g, q3⟩
    have pre : ∀ (rest : Nat → UInt8 → M Unit), (do
        let p ← ev (CI.lit (i:Int) * (C:Int) * (ch:Int) + CI.lit (j:Int) * (ch:Int) + (c:Int))
        let q ← ev (CI.lit (gi : Int) * (C:Int) * (ch:Int) + CI.lit (gj : Int) * (ch:Int) + (c:Int))
        let r ← ev (CI.lit (x:Int) * (a.kc:Int) + (y:Int))
        let k ← loadN 4 kd r
        let v ← load sd q
        rest k v : M Unit) m = rest (a.K (x * a.kc + y)) (a.px gi gj c) m := by
      intro rest
      rw [bind_ok (ev_ok (eval_img hi hj hc hb) _), bind_ok (ev_ok (eval_img hgi hgj hc hb) _), bind_ok (ev_ok e3 _),
        bind_ok (q2.load hT), bind_ok (load_ok q1 (img8_lt hgi hgj hc)), imgBytes_at8 hgj hc]
    have eb : body c m = (do
        let old ← loadN 4 dd (((i * C + j) * ch + c : Nat) : Int)
        storeN 4 dd (((i * C + j) * ch + c : Nat) : Int) (f32.encode (f32.add (f32.decode old) (f32.mul (f32.decode (a.K (x * a.kc + y))) (f32.ofInt ((a.px gi gj c).toNat : Int))))) : M Unit) m := by
      show (do
        let p ← ev (CI.lit (i:Int) * (C:Int) * (ch:Int) + CI.lit (j:Int) * (ch:Int) + (c:Int))
        let q ← ev (CI.lit (gi : Int) * (C:Int) * (ch:Int) + CI.lit (gj : Int) * (ch:Int) + (c:Int))
        let r ← ev (CI.lit (x:Int) * (a.kc:Int) + (y:Int))
        let k ← loadN 4 kd r
        let v ← load sd q
        let old ← loadN 4 dd p
        storeN 4 dd p (f32.encode (f32.add (f32.decode old) (f32.mul (f32.decode k) (f32.ofInt (v.toNat : Int))))) : M Unit) m = _
      rw [bind_ok (ev_ok (eval_img hi hj hc hb) _), bind_ok (ev_ok (eval_img hgi hgj hc hb) _), bind_ok (ev_ok e3 _),
        bind_ok (q2.load hT), bind_ok (load_ok q1 (img8_lt hgi hgj hc)), imgBytes_at8 hgj hc]
    have hfail : N < ((i * C + j) * ch + c) * 4 + 4 → body c m = .error (.ub .oob) := fun hlt => by
      rw [eb]
      exact bind_err (loadN_oob q3 (by decide) hlt)
    refine ⟨hfail, ?_⟩
    by_cases hlt : N < ((i * C + j) * ch + c) * 4 + 4
    · exact Or.inl (hfail hlt)
    · right
      rw [eb, bind_ok (loadN_ok q3 (by omega))]
      have st := (storeN_fills (m := m) (d := dd) (N := N) (w := 4) (i := (i * C + j) * ch + c)
        (v := f32.encode (f32.add (f32.decode (leNat (tab 4 fun t => g (((i * C + j) * ch + c) * 4 + t)))) (f32.mul (f32.decode (a.K (x * a.kc + y))) (f32.ofInt ((a.px gi gj c).toNat : Int)))))
        (new := fun p => leByte (f32.encode (f32.add (f32.decode (leNat (tab 4 fun t => g (((i * C + j) * ch + c) * 4 + t)))) (f32.mul (f32.decode (a.K (x * a.kc + y))) (f32.ofInt ((a.px gi gj c).toNat : Int))))) (p - ((i * C + j) * ch + c) * 4))
        (by omega) (by intro t ht; simp)).run q3
      exact ⟨_, st, q1.put_ne hne1, q2.put_ne hne2, _, holds_put _ _ _ _⟩
  constructor
  · intro m hm
    rw [hbody]
    exact forI_outcome (FilterMem a sd kd dd R C ch N) (fun c hc m hm => (step c m hc hm).2) hm
  · intro hN hi' hj' m hm
    rw [hbody]
    refine forI_fails (k := ch - 1) (FilterMem a sd kd dd R C ch N) (fun c hc m hm => (step c m hc hm).2) (by omega) ?_ hm
    intro m hm
    refine (step (ch - 1) m (by omega) hm).1 ?_
    refine lt_of_lt_of_le hN ?_
    have e1 : i * C + j + 1 = R * C := by
      have : R = i + 1 := by omega
      rw [this, Nat.succ_mul]; omega
    have e2 : (i * C + j) * ch + (ch - 1) + 1 = R * C * ch := by
      rw [← e1, Nat.succ_mul]; omega
    omega

theorem filter_small {N : Nat} (hne1 : sd ≠ dd) (hne2 : kd ≠ dd) (hch : ch = 1 ∨ ch = 3)
    (hb : R * C * ch ≤ 2147483647) (hb2 : a.kr * a.kc ≤ 2147483647) (hRk : R + a.kr ≤ 2147483647) (hCk : C + a.kc ≤ 2147483647)
    (hR0 : 0 < R) (hC0 : 0 < C) (hkr : 0 < a.kr) (hkc : 0 < a.kc)
    (hR : TapOK bt R (a.kr / 2) a.gR) (hC : TapOK bt C (a.kc / 2) a.gC) (hN : N < R * C * ch * 4)
    (s1 : s.rows = R) (s2 : s.cols = C) (s3 : s.channels = ch) (s4 : s.data = sd) (d4 : d.data = dd)
    (hm : FilterMem a sd kd dd R C ch N m) :
    (forI 0 s.rows fun i => forI 0 s.cols fun j => filterPixel s d kd a.kr a.kc bt i j) m = .error (.ub .oob) := by
  have row : ∀ i j x gi, i < R → j < C → x < a.kr → gi < R →
      (∀ m, FilterMem a sd kd dd R C ch N m → filterRow s d kd a.kc bt i j x gi m = .error (.ub .oob) ∨
        ∃ m', filterRow s d kd a.kc bt i j x gi m = .ok ((), m') ∧ FilterMem a sd kd dd R C ch N m') ∧
      (i = R - 1 → j = C - 1 → ∀ m, FilterMem a sd kd dd R C ch N m → filterRow s d kd a.kc bt i j x gi m = .error (.ub .oob)) := by
    intro i j x gi hi hj hx hgi
    have pre : ∀ y m, y < a.kc → ∃ gj, gj < C ∧ (do
          let p ← ev (CI.lit (j:Int) + CI.lit (y:Int) - CI.lit ((a.kc:Int) / 2))
          let index_j ← tapIndex p s.cols bt
          filterTap s d kd a.kc i j x (y:Int) gi index_j : M Unit) m = filterTap s d kd a.kc i j x y gi gj m := by
      intro y m hy
      have e0 : ((a.kc:Int) / 2) = (a.kc / 2 : Nat) := by omega
      have e1 : (CI.lit (j:Int) + CI.lit (y:Int) - CI.lit ((a.kc:Int) / 2) : CI) = CI.lit ((j:Int) + y - (a.kc / 2 : Nat)) := by
        rw [e0, CI.add_ok (by constructor <;> omega), CI.sub_ok (by constructor <;> omega)]
      obtain ⟨c1, c2⟩ := hC ((j:Int) + y - (a.kc / 2 : Nat)) (by omega) (by omega)
      refine ⟨_, c2, ?_⟩
      rw [bind_ok (ev_ok e1 _), s2, bind_ok (tapIndex_ok c1 _)]
    constructor
    · intro m hm
      refine forI_outcome (FilterMem a sd kd dd R C ch N) ?_ hm
      intro y hy m hm
      obtain ⟨gj, h1, h2⟩ := pre y m hy
      rw [h2]
      exact (filterTap_outcome hne1 hne2 hch hb hb2 hi hj hx hy hgi h1 s2 s3 s4 d4).1 m hm
    · intro hi' hj' m hm
      refine forI_fails (k := 0) (FilterMem a sd kd dd R C ch N) ?_ hkc ?_ hm
      · intro y hy m hm
        obtain ⟨gj, h1, h2⟩ := pre y m hy
        rw [h2]
        exact (filterTap_outcome hne1 hne2 hch hb hb2 hi hj hx hy hgi h1 s2 s3 s4 d4).1 m hm
      · intro m hm
        obtain ⟨gj, h1, h2⟩ := pre 0 m hkc
        rw [h2]
        exact (filterTap_outcome hne1 hne2 hch hb hb2 hi hj hx hkc hgi h1 s2 s3 s4 d4).2 hN hi' hj' m hm
  have pixel : ∀ i j, i < R → j < C →
      (∀ m, FilterMem a sd kd dd R C ch N m → filterPixel s d kd a.kr a.kc bt i j m = .error (.ub .oob) ∨
        ∃ m', filterPixel s d kd a.kr a.kc bt i j m = .ok ((), m') ∧ FilterMem a sd kd dd R C ch N m') ∧
      (i = R - 1 → j = C - 1 → ∀ m, FilterMem a sd kd dd R C ch N m → filterPixel s d kd a.kr a.kc bt i j m = .error (.ub .oob)) := by
    intro i j hi hj
    have pre : ∀ x m, x < a.kr → ∃ gi, gi < R ∧ (do
          let p ← ev (CI.lit (i:Int) + CI.lit (x:Int) - CI.lit ((a.kr:Int) / 2))
          let index_i ← tapIndex p s.rows bt
          filterRow s d kd a.kc bt i j (x:Int) index_i : M Unit) m = filterRow s d kd a.kc bt i j x gi m := by
      intro x m hx
      have e0 : ((a.kr:Int) / 2) = (a.kr / 2 : Nat) := by omega
      have e1 : (CI.lit (i:Int) + CI.lit (x:Int) - CI.lit ((a.kr:Int) / 2) : CI) = CI.lit ((i:Int) + x - (a.kr / 2 : Nat)) := by
        rw [e0, CI.add_ok (by constructor <;> omega), CI.sub_ok (by constructor <;> omega)]
      obtain ⟨c1, c2⟩ := hR ((i:Int) + x - (a.kr / 2 : Nat)) (by omega) (by omega)
      refine ⟨_, c2, ?_⟩
      rw [bind_ok (ev_ok e1 _), s1, bind_ok (tapIndex_ok c1 _)]
    constructor
    · intro m hm
      refine forI_outcome (FilterMem a sd kd dd R C ch N) ?_ hm
      intro x hx m hm
      obtain ⟨gi, h1, h2⟩ := pre x m hx
      rw [h2]
      exact (row i j x gi hi hj hx h1).1 m hm
    · intro hi' hj' m hm
      refine forI_fails (k := 0) (FilterMem a sd kd dd R C ch N) ?_ hkr ?_ hm
      · intro x hx m hm
        obtain ⟨gi, h1, h2⟩ := pre x m hx
        rw [h2]
        exact (row i j x gi hi hj hx h1).1 m hm
      · intro m hm
        obtain ⟨gi, h1, h2⟩ := pre 0 m hkr
        rw [h2]
        exact (row i j 0 gi hi hj hkr h1).2 hi' hj' m hm
  rw [s1, s2]
  refine forI_fails (k := R - 1) (FilterMem a sd kd dd R C ch N) ?_ (by omega) ?_ hm
  · intro i hi m hm
    exact forI_outcome (FilterMem a sd kd dd R C ch N) (fun j hj m hm => (pixel i j hi hj).1 m hm) hm
  · intro m hm
    exact forI_fails (k := C - 1) (FilterMem a sd kd dd R C ch N) (fun j hj m hm => (pixel (R-1) j (by omega) hj).1 m hm) (by omega)
      (fun m hm => (pixel (R-1) (C-1) (by omega) (by omega)).2 rfl rfl m hm) hm

end

end HyperCV
