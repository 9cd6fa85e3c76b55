/- The separable filter for arbitrary kernels: every `float` operation as it happens. -/
import Verif.Props.Gaussian

namespace HyperCV
open Spec

namespace Spec
/-- a `float` limited to 0..255; NaN stays -/
def clampByte : FV → FV
  | .nan => .nan
  | .inf s => if s = true then .fin false 0 else .fin false 255
  | .fin s q => if q < 0 then .fin false 0 else if 255 < q then .fin false 255 else .fin s q

/-- the sum of the products of the `w` `float`s with bit patterns `k` and the `float`s `x`, in `float`, from left to right -/
def sumFloat (w : Nat) (k : Nat → Nat) (x : Nat → FV) : FV :=
  (List.range w).foldl (fun v b => f32.add v (f32.mul (f32.decode (k b)) (x b))) (.fin false 0)

/-- the horizontal sum at (`i`, `j`) in the image continued by `e`, limited to 0..255 -/
def rowFloat (e : Extension) (C w : Nat) (kx : Nat → Nat) (px : Nat → Nat → Nat → UInt8) (i j c : Nat) : FV :=
  clampByte (sumFloat w kx fun b => f32.ofInt ((px i (e.index ((j:Int) + b - (w / 2 : Nat)) C).toNat c).toNat : Int))

/-- the vertical sum of the horizontal sums, limited to 0..255 -/
def sepFloat (e : Extension) (R C w h : Nat) (kx ky : Nat → Nat) (px : Nat → Nat → Nat → UInt8) (i j c : Nat) : FV :=
  clampByte (sumFloat h ky fun a => rowFloat e C w kx px (e.index ((i:Int) + a - (h / 2 : Nat)) R).toNat j c)
end Spec

theorem clampF_eq (v : FV) : clampF v = clampByte v := by
  cases v with
  | nan => rfl
  | inf s => cases s <;> rfl
  | fin s q => simp [clampF, clampByte, FV.lt]

theorem sumFloat_succ (w : Nat) (k : Nat → Nat) (x : Nat → FV) :
    sumFloat (w + 1) k x = f32.add (sumFloat w k x) (f32.mul (f32.decode (k w)) (x w)) := by
  unfold sumFloat
  rw [List.range_succ, List.foldl_append]
  rfl

theorem sumFloat_good (w : Nat) (k : Nat → Nat) (x : Nat → FV) : f32.Good (sumFloat w k x) := by
  cases w with
  | zero => exact ⟨rep_zero _, fun _ => by simp⟩
  | succ w => rw [sumFloat_succ]; exact good_add _ _ _

theorem clampByte_good {v : FV} (h : f32.Good v) : f32.Good (clampByte v) := by
  have z : f32.Good (.fin false 0) := ⟨rep_zero _, fun _ => by simp⟩
  have b : f32.Good (.fin false 255) := by
    refine ⟨?_, fun _ => by simp⟩
    have := rep32_int (n := 255) (by decide)
    exact_mod_cast this
  cases v with
  | nan => exact h
  | inf s => cases s <;> assumption
  | fin s q =>
    unfold clampByte
    dsimp only
    split
    · exact z
    · split
      · exact b
      · exact h

/-- accumulators with values `a` -/
def fsums (ch : Nat) (a : Nat → FV) : Int → FV := fun c => if 0 ≤ c ∧ c < ch then a c.toNat else .fin false 0

theorem fsums_at {ch c : Nat} {a : Nat → FV} (hc : c < ch) : fsums ch a c = a c := by
  unfold fsums; rw [if_pos (by omega)]; simp

theorem fsums_congr {ch : Nat} {a b : Nat → FV} (h : ∀ c, c < ch → a c = b c) : fsums ch a = fsums ch b := by
  funext c
  unfold fsums
  by_cases hc : 0 ≤ c ∧ c < ch
  · rw [if_pos hc, if_pos hc, h _ (by omega)]
  · rw [if_neg hc, if_neg hc]

theorem fsums_zero (ch : Nat) : fsums ch (fun _ => .fin false 0) = fun _ => FV.fin false 0 := by
  funext c; unfold fsums; simp

theorem fsums_set {ch c : Nat} {a : Nat → FV} {v : FV} (hc : c < ch) :
    setAt (fsums ch a) c v = fsums ch (fun c' => if c' = c then v else a c') := by
  funext c'
  unfold setAt fsums
  by_cases e : c' = c
  · rw [if_pos e, if_pos (by omega)]
    beta_reduce
    rw [if_pos (by omega)]
  · rw [if_neg e]
    by_cases h2 : 0 ≤ c' ∧ c' < ch
    · rw [if_pos h2, if_pos h2]
      beta_reduce
      rw [if_neg (by omega)]
    · rw [if_neg h2, if_neg h2]

theorem fchan_run {ch : Nat} {a a' : Nat → FV} {m : Mem} {body : Int → (Int → FV) → M (Int → FV)}
    (h : ∀ c s, c < ch → s (c:Int) = a c → body c s m = .ok (setAt s c (a' c), m)) :
    forA 0 (ch:Int) (fsums ch a) body m = .ok (fsums ch a', m) := by
  have r := forA_run (n := ch) (body := body) (fun _ => m) (fun k => fsums ch (fun c => if c < k then a' c else a c)) (by
    intro c hc
    beta_reduce
    rw [h c _ hc (by rw [fsums_at hc, if_neg (by omega)]), fsums_set hc]
    refine congrArg (fun x => Except.ok (x, m)) (fsums_congr ?_)
    intro c' _
    by_cases e : c' = c
    · rw [if_pos e, if_pos (by omega), e]
    · rw [if_neg e]
      by_cases e2 : c' < c
      · rw [if_pos e2, if_pos (by omega)]
      · rw [if_neg e2, if_neg (by omega)])
  beta_reduce at r
  rw [fsums_congr (b := a) (fun c _ => if_neg (by omega)), fsums_congr (a := fun c => if c < ch then a' c else a c) (b := a') (fun c hc => if_pos hc)] at r
  exact r

/-- the horizontal sum with source columns `g` -/
def rowF (w : Nat) (kx : Nat → Nat) (g : Int → Nat) (px : Nat → Nat → Nat → UInt8) (i j c n : Nat) : FV :=
  sumFloat n kx fun b => f32.ofInt ((px i (g ((j:Int) + b - (w / 2 : Nat))) c).toNat : Int)

theorem gaussRowTap_any {m : Mem} {sd kd R C ch i j k w : Nat} {bt : Int} {g : Int → Nat} {px : Nat → Nat → Nat → UInt8} {kx : Nat → Nat}
    {s : SimpleMat} (hs : Holds m sd (R * C * ch) (imgBytes C ch 1 (fun i j c _ => px i j c)))
    (hkx : HoldsN m kd 4 w kx) (hb : R * C * ch ≤ 2147483647) (hC' : C + w ≤ 2147483647)
    (hC : TapOK bt C (w / 2) g) (hi : i < R) (hj : j < C) (hk : k < w)
    (s2 : s.cols = C) (s3 : s.channels = ch) (s4 : s.data = sd) :
    gaussRowTap s kd (w : Int) bt i j k (fsums ch fun c => rowF w kx g px i j c k) m
      = .ok (fsums ch fun c => rowF w kx g px i j c (k+1), m) := by
  unfold gaussRowTap
  have e0 : ((w : Int) / 2) = ((w / 2 : Nat) : Int) := by omega
  have e1 : (CI.lit (j:Int) + CI.lit (k:Int) - CI.lit ((w : Int) / 2) : CI) = CI.lit ((j:Int) + k - (w / 2 : Nat)) := by
    rw [e0, CI.add_ok (by constructor <;> omega), CI.sub_ok (by constructor <;> omega)]
  obtain ⟨r1, r2⟩ := hC ((j:Int) + k - (w / 2 : Nat)) (by omega) (by omega)
  rw [bind_ok (ev_ok e1 _), s2, s3, s4, bind_ok (tapIndex_ok r1 m)]
  refine fchan_run ?_
  intro c sm hc hsm
  rw [bind_ok (hkx.load hk), bind_ok (ev_ok (eval_img hi r2 hc hb) _), bind_ok (load_ok hs (img8_lt hi r2 hc)), imgBytes_at8 r2 hc, hsm]
  unfold rowF
  rw [sumFloat_succ]
  rfl

/-- elements of the intermediate image -/
def tbitsF (w : Nat) (kx : Nat → Nat) (g : Int → Nat) (px : Nat → Nat → Nat → UInt8) (i j c : Nat) : Nat :=
  f32.encode (clampByte (rowF w kx g px i j c w))

theorem tbitsF_lt {w : Nat} {kx : Nat → Nat} {g : Int → Nat} {px : Nat → Nat → Nat → UInt8} {i j c : Nat} : tbitsF w kx g px i j c < 256 ^ 4 :=
  f32_encode_lt (clampByte_good (sumFloat_good _ _ _))

theorem tbitsF_dec {w : Nat} {kx : Nat → Nat} {g : Int → Nat} {px : Nat → Nat → Nat → UInt8} {i j c : Nat} :
    f32.decode (tbitsF w kx g px i j c) = clampByte (rowF w kx g px i j c w) :=
  f32_dec_enc (clampByte_good (sumFloat_good _ _ _))

theorem gaussRow_any {m : Mem} {sd kd td R C ch i j w : Nat} {bt : Int} {g : Int → Nat} {px : Nat → Nat → Nat → UInt8} {kx : Nat → Nat}
    {s t : SimpleMat} (hs : Holds m sd (R * C * ch) (imgBytes C ch 1 (fun i j c _ => px i j c)))
    (hkx : HoldsN m kd 4 w kx) (hb : R * C * ch ≤ 2147483647) (hC' : C + w ≤ 2147483647)
    (hC : TapOK bt C (w / 2) g) (hi : i < R) (hj : j < C) (hne1 : sd ≠ td) (hne2 : kd ≠ td)
    (s2 : s.cols = C) (s3 : s.channels = ch) (s4 : s.data = sd) (t2 : t.cols = C) (t3 : t.data = td) :
    Fills (gaussRow s t kd (w : Int) bt i j) m td (R * C * ch * 4) (encN 4 (pxF C ch (tbitsF w kx g px)))
      (fun p => ∃ c, c < ch ∧ ((i * C + j) * ch + c) * 4 ≤ p ∧ p < ((i * C + j) * ch + c) * 4 + 4) := by
  unfold gaussRow
  refine Fills.bind (a := fsums ch fun c => rowF w kx g px i j c w) ?_ ?_
  · intro g'
    have r := forA_run (n := w) (body := fun k sum => gaussRowTap s kd (w : Int) bt i j k sum)
      (fun _ => m.put td (R * C * ch * 4) g') (fun k => fsums ch fun c => rowF w kx g px i j c k)
      (fun k hk => gaussRowTap_any (hs.put_ne hne1) (hkx.put_ne hne2) hb hC' hC hi hj hk s2 s3 s4)
    beta_reduce at r
    have z : (fsums ch fun c => rowF w kx g px i j c 0) = fun _ => FV.fin false 0 := by
      rw [← fsums_zero ch]; rfl
    rw [z] at r
    exact r
  rw [s3, t2, t3]
  refine Fills.loop (P := fun c p => ((i * C + j) * ch + c) * 4 ≤ p ∧ p < ((i * C + j) * ch + c) * 4 + 4) ?_
  intro c hc
  refine Fills.bind (fun g => ev_ok (eval_img hi hj hc hb) _) ?_
  rw [fsums_at hc, clampF_eq]
  refine storeN_fills (slot_le (img8_lt hi hj hc)) ?_
  intro t' ht
  rw [encN_at _ ht, pxF_at _ hj hc]
  rfl

/-- the vertical sum with source rows `g'` -/
def colF (w h : Nat) (kx ky : Nat → Nat) (g g' : Int → Nat) (px : Nat → Nat → Nat → UInt8) (i j c n : Nat) : FV :=
  sumFloat n ky fun a => clampByte (rowF w kx g px (g' ((i:Int) + a - (h / 2 : Nat))) j c w)

theorem gaussColTap_any {m : Mem} {td kd R C ch i j k w h : Nat} {bt : Int} {g g' : Int → Nat} {px : Nat → Nat → Nat → UInt8}
    {kx ky : Nat → Nat} {s t : SimpleMat} (ht : HoldsP m td 4 R C ch (tbitsF w kx g px))
    (hky : HoldsN m kd 4 h ky) (hb : R * C * ch ≤ 2147483647) (hR' : R + h ≤ 2147483647)
    (hR : TapOK bt R (h / 2) g') (hi : i < R) (hj : j < C) (hk : k < h)
    (s1 : s.rows = R) (s3 : s.channels = ch) (t2 : t.cols = C) (t3 : t.data = td) :
    gaussColTap s t kd (h : Int) bt j i k (fsums ch fun c => colF w h kx ky g g' px i j c k) m
      = .ok (fsums ch fun c => colF w h kx ky g g' px i j c (k+1), m) := by
  unfold gaussColTap
  have e0 : ((h : Int) / 2) = ((h / 2 : Nat) : Int) := by omega
  have e1 : (CI.lit (i:Int) + CI.lit (k:Int) - CI.lit ((h : Int) / 2) : CI) = CI.lit ((i:Int) + k - (h / 2 : Nat)) := by
    rw [e0, CI.add_ok (by constructor <;> omega), CI.sub_ok (by constructor <;> omega)]
  obtain ⟨r1, r2⟩ := hR ((i:Int) + k - (h / 2 : Nat)) (by omega) (by omega)
  rw [bind_ok (ev_ok e1 _), s1, s3, t2, t3, bind_ok (tapIndex_ok r1 m)]
  refine fchan_run ?_
  intro c sm hc hsm
  rw [bind_ok (hky.load hk), bind_ok (ev_ok (eval_img r2 hj hc hb) _), bind_ok (ht.load r2 hj hc), tbitsF_dec, hsm]
  unfold colF
  rw [sumFloat_succ]
  rfl

theorem gaussCol_any {m : Mem} {td kd dd R C ch i j w h : Nat} {bt : Int} {g g' : Int → Nat} {px : Nat → Nat → Nat → UInt8}
    {kx ky : Nat → Nat} {s t d : SimpleMat} (ht : HoldsP m td 4 R C ch (tbitsF w kx g px))
    (hky : HoldsN m kd 4 h ky) (hb : R * C * ch ≤ 2147483647) (hR' : R + h ≤ 2147483647)
    (hR : TapOK bt R (h / 2) g') (hi : i < R) (hj : j < C) (hne1 : td ≠ dd) (hne2 : kd ≠ dd)
    (s1 : s.rows = R) (s3 : s.channels = ch) (t2 : t.cols = C) (t3 : t.data = td) (d2 : d.cols = C) (d3 : d.data = dd) :
    Fills (gaussCol s t d kd (h : Int) bt j i) m dd (R * C * ch)
      (imgBytes C ch 1 (fun i j c _ => saturate_cast_float2uchar (clampByte (colF w h kx ky g g' px i j c h))))
      (fun p => ∃ c, c < ch ∧ p = (i * C + j) * ch + c) := by
  unfold gaussCol
  refine Fills.bind (a := fsums ch fun c => colF w h kx ky g g' px i j c h) ?_ ?_
  · intro g''
    have r := forA_run (n := h) (body := fun k sum => gaussColTap s t kd (h : Int) bt j i k sum)
      (fun _ => m.put dd (R * C * ch) g'') (fun k => fsums ch fun c => colF w h kx ky g g' px i j c k)
      (fun k hk => gaussColTap_any (HoldsN.put_ne ht hne1) (hky.put_ne hne2) hb hR' hR hi hj hk s1 s3 t2 t3)
    beta_reduce at r
    have z : (fsums ch fun c => colF w h kx ky g g' px i j c 0) = fun _ => FV.fin false 0 := by
      rw [← fsums_zero ch]; rfl
    rw [z] at r
    exact r
  rw [s3, d2, d3]
  refine Fills.loop (P := fun c p => p = (i * C + j) * ch + c) ?_
  intro c hc
  refine Fills.bind (fun g => ev_ok (eval_img hi hj hc hb) _) ?_
  rw [fsums_at hc, clampF_eq]
  refine Fills.store (img8_lt hi hj hc) ?_
  rw [imgBytes_at8 hj hc]

end HyperCV
