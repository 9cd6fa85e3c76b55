/- Proofs about the linear stretch of cubes. -/
import Verif.Model.LinearTension
import Verif.Proof.Radiometric
import Verif.Proof.FloatOps

namespace HyperCV
open Spec

/-- the extremes found among the first `n` values -/
def scanV (v : Nat → FV) : Nat → FV × FV
  | 0 => (.fin false 0, .fin false 1000000000)
  | n + 1 => linStep (scanV v n) (v n)

theorem eval_bsq1 {S L B i j k : Nat} (hi : i < L) (hj : j < S) (hk : k < B) (hN : S * L * B ≤ 2147483647) :
    (CI.lit (k:Int) * CI.lit (S:Int) * CI.lit (L:Int) + CI.lit (i:Int) * CI.lit (S:Int) + CI.lit (j:Int) : CI)
      = CI.lit ((Layout.bsq.pos S L B i j k : Nat) : Int) := by
  have e : Layout.bsq.pos S L B i j k = k * S * L + i * S + j := by simp only [Layout.pos]; ring
  have hb := pos_lt .bsq hi hj hk
  rw [e] at hb ⊢
  have h : k * S * L + i * S + j < 2147483648 := by omega
  have hS : 0 < S := by omega
  have hL : 0 < L := by omega
  ci_down

/-- the values of band `k` in storage order -/
def bandV (S : Nat) (a : Nat → Nat → Nat → Nat) (k e : Nat) : FV := f32.decode (a (e / S) (e % S) k)

/-- the extremes of band `k` -/
def bandX (S L : Nat) (a : Nat → Nat → Nat → Nat) (k : Nat) : FV × FV := scanV (bandV S a k) (L * S)

theorem bsq_loadF {m : Mem} {d S L B : Nat} {a : Nat → Nat → Nat → Nat} (h : HoldsN m d 4 (S * L * B) (flatA .bsq S L B a))
    {i j k : Nat} (hi : i < L) (hj : j < S) (hk : k < B) :
    loadF d ((Layout.bsq.pos S L B i j k : Nat) : Int) m = .ok (f32.decode (a i j k), m) := by
  have := loadF_arr h (pos_lt .bsq hi hj hk)
  rw [Int.zero_add] at this
  rw [this, flatA_pos .bsq a hi hj hk]

theorem linScan_run {m : Mem} {b : HyperMat} {S L B : Nat} {a : Nat → Nat → Nat → Nat} (hS : b.samples = S) (hL : b.lines = L)
    (h : HoldsN m b.data 4 (S * L * B) (flatA .bsq S L B a)) (hN : S * L * B ≤ 2147483647) {k : Nat} (hk : k < B) :
    linScan b (k:Int) m = .ok (bandX S L a k, m) := by
  unfold linScan
  rw [hS, hL]
  obtain ⟨s', e1, e2⟩ := taps_inv (a := L) (b := S) (m := m) (s0 := (FV.fin false 0, FV.fin false 1000000000))
    (body := fun i j s => do
      let p ← ev (CI.lit (k:Int) * CI.lit (S:Int) * CI.lit (L:Int) + CI.lit i * CI.lit (S:Int) + CI.lit j)
      let tmp ← loadF b.data p
      pure (linStep s tmp)) (fun x y s => s = scanV (bandV S a k) (x * S + y)) (by simp [scanV]) (by
    rintro i j s hi hj rfl
    refine ⟨scanV (bandV S a k) (i * S + (j + 1)), ?_, rfl⟩
    rw [ev_bind (eval_bsq1 hi hj hk hN), bind_ok (bsq_loadF h hi hj hk)]
    have e : bandV S a k (i * S + j) = f32.decode (a i j k) := by
      unfold bandV; rw [mix_div hj, mix_mod hj]
    show Except.ok (linStep (scanV (bandV S a k) (i * S + j)) (f32.decode (a i j k)), m) = _
    rw [← e]; rfl) (by
    rintro x s _ rfl
    congr 1; ring)
  rw [e1, e2]
  rfl

/-- the byte for an element -/
def linOut (S L : Nat) (a : Nat → Nat → Nat → Nat) (i j k : Nat) : Option UInt8 :=
  linByte (linM (bandX S L a k)) (linN (bandX S L a k)) (f32.decode (a i j k))

section
variable {m : Mem} {p q S L B : Nat} {a : Nat → Nat → Nat → Nat} {b : Nat → Nat → Nat → Nat → UInt8} {w w' : Nat → UInt8}

/-- up to the loops -/
theorem linear_front (hs : IsCubeN m p .bsq S L B 4 4 a w) (hd : IsCube m q .bsq S L B 1 1 b w') :
    ∃ sh dh : HyperMat, m.hm p = some sh ∧ m.hm q = some dh ∧ HoldsN m sh.data 4 (S * L * B) (flatA .bsq S L B a) ∧
      sh.samples = S ∧ sh.lines = L ∧ (∃ f, Holds m dh.data (S * L * B * 1) f) ∧
      hyper_mat_linear_tension (some p) (some q) m = (forI 0 (B:Int) fun k => do
        let s ← linScan sh k
        forI 0 (L:Int) fun i =>
          forI 0 (S:Int) fun j => do
            let p ← ev (CI.lit k * CI.lit (S:Int) * CI.lit (L:Int) + CI.lit i * CI.lit (S:Int) + CI.lit j)
            let tmp ← loadF sh.data p
            let v ← orConv (linByte (linM s) (linN s) tmp)
            store dh.data p v) m := by
  obtain ⟨sh, wb, h1, h2, h3, h4, h5, h6, h7, h8⟩ := cube_flat hs
  obtain ⟨hE', _, _, _, dh, wb', f', g1, g2, g3, g4, g5, g6, g7, g8, g9, g10, g11⟩ := hd
  rw [bytes_iff] at g9
  refine ⟨sh, dh, h1, g1, h8, h2, h3, ⟨f', g9⟩, ?_⟩
  unfold hyper_mat_linear_tension
  rw [bind_ok (show derefH (some p) m = _ from getH_ok h1), cassert_bind (by
    rw [decide_eq_true_eq]
    unfold HyperMat.tagMem
    rw [h6]
    exact (cmpstr_tag_tag .bsq .bsq _).2 rfl), bind_ok (show derefH (some q) m = _ from getH_ok g1), cassert_bind (by
    rw [decide_eq_true_eq, h2, h3, h4, g2, g3, g4]
    exact ⟨rfl, rfl, rfl⟩), cassert_bind (by rw [decide_eq_true_eq, g5]), h2, h3, h4]

theorem linear_run (hs : IsCubeN m p .bsq S L B 4 4 a w) (hd : IsCube m q .bsq S L B 1 1 b w') (hN : S * L * B ≤ 2147483647)
    (hsep : Separate m p q) {r : Nat → Nat → Nat → UInt8} (hr : ∀ i j k, i < L → j < S → k < B → linOut S L a i j k = some (r i j k)) :
    ∃ hdr, m.hm q = some hdr ∧ hyper_mat_linear_tension (some p) (some q) m
      = .ok ((), m.put hdr.data (S * L * B * 1) (cubeBytes .bsq S L B 1 fun i j k _ => r i j k)) := by
  obtain ⟨sh, dh, h1, g1, h2, h3, h4, ⟨f, hf⟩, e⟩ := linear_front hs hd
  refine ⟨dh, g1, ?_⟩
  have hne : sh.data ≠ dh.data := by
    intro e
    exact hsep sh.data ⟨Or.inr ⟨sh, h1, Or.inl rfl⟩, Or.inr ⟨dh, g1, Or.inl e⟩⟩
  rw [e]
  have hF : Fills (forI 0 (B:Int) fun k => do
        let s ← linScan sh k
        forI 0 (L:Int) fun i =>
          forI 0 (S:Int) fun j => do
            let p ← ev (CI.lit k * CI.lit (S:Int) * CI.lit (L:Int) + CI.lit i * CI.lit (S:Int) + CI.lit j)
            let tmp ← loadF sh.data p
            let v ← orConv (linByte (linM s) (linN s) tmp)
            store dh.data p v) m dh.data (S * L * B * 1) (cubeBytes .bsq S L B 1 fun i j k _ => r i j k)
      (fun x => ∃ k, k < B ∧ ∃ i, i < L ∧ ∃ j, j < S ∧ x = Layout.bsq.pos S L B i j k) := by
    apply Fills.loop (P := fun k x => ∃ i, i < L ∧ ∃ j, j < S ∧ x = Layout.bsq.pos S L B i j k)
    intro k hk
    apply Fills.bind (fun g => linScan_run h3 h4 (h2.put_ne hne) hN hk)
    apply Fills.loop (P := fun i x => ∃ j, j < S ∧ x = Layout.bsq.pos S L B i j k)
    intro i hi
    apply Fills.loop (P := fun j x => x = Layout.bsq.pos S L B i j k)
    intro j hj
    apply Fills.bind (fun g => ev_ok (eval_bsq1 hi hj hk hN) _)
    apply Fills.bind (fun g => bsq_loadF (h2.put_ne hne) hi hj hk)
    apply Fills.bind (a := r i j k)
    · intro g
      have := hr i j k hi hj hk
      unfold linOut at this
      rw [this]; rfl
    · apply Fills.store (by have := pos_lt .bsq hi hj hk; omega)
      have := cubeBytes_at .bsq (E := 1) (v := fun i j k _ => r i j k) hi hj hk Nat.zero_lt_one
      rw [Nat.mul_one, Nat.add_zero] at this
      rw [this]
  refine hF.total ?_ hf
  intro x hx
  obtain ⟨i, j, k, hi, hj, hk, b1, b2⟩ := byte_cover .bsq hx
  exact ⟨k, hk, i, hi, j, hj, by omega⟩

theorem linear_fail (hs : IsCubeN m p .bsq S L B 4 4 a w) (hd : IsCube m q .bsq S L B 1 1 b w') (hN : S * L * B ≤ 2147483647)
    (hsep : Separate m p q) {i j k : Nat} (hi : i < L) (hj : j < S) (hk : k < B) (hr : linOut S L a i j k = none) :
    hyper_mat_linear_tension (some p) (some q) m = .error (.ub .fpConv) := by
  obtain ⟨sh, dh, h1, g1, h2, h3, h4, ⟨f, hf⟩, e⟩ := linear_front hs hd
  have hne : sh.data ≠ dh.data := by
    intro e
    exact hsep sh.data ⟨Or.inr ⟨sh, h1, Or.inl rfl⟩, Or.inr ⟨dh, g1, Or.inl e⟩⟩
  rw [e]
  have pix : ∀ k, k < B → ∀ i, i < L → ∀ j, j < S → ∀ m', (∃ g, m' = m.put dh.data (S * L * B * 1) g) →
      (do
        let p ← ev (CI.lit (k:Int) * CI.lit (S:Int) * CI.lit (L:Int) + CI.lit (i:Int) * CI.lit (S:Int) + CI.lit (j:Int))
        let tmp ← loadF sh.data p
        let v ← orConv (linByte (linM (bandX S L a k)) (linN (bandX S L a k)) tmp)
        store dh.data p v : M Unit) m' = match linOut S L a i j k with
          | none => .error (.ub .fpConv)
          | some v => store dh.data ((Layout.bsq.pos S L B i j k : Nat) : Int) v m' := by
    rintro k hk i hi j hj _ ⟨g, rfl⟩
    rw [ev_bind (eval_bsq1 hi hj hk hN), bind_ok (bsq_loadF (h2.put_ne hne) hi hj hk)]
    unfold linOut
    cases linByte (linM (bandX S L a k)) (linN (bandX S L a k)) (f32.decode (a i j k)) <;> rfl
  have step : ∀ k, k < B → ∀ i, i < L → ∀ j, j < S → ∀ m', (∃ g, m' = m.put dh.data (S * L * B * 1) g) →
      (do
        let p ← ev (CI.lit (k:Int) * CI.lit (S:Int) * CI.lit (L:Int) + CI.lit (i:Int) * CI.lit (S:Int) + CI.lit (j:Int))
        let tmp ← loadF sh.data p
        let v ← orConv (linByte (linM (bandX S L a k)) (linN (bandX S L a k)) tmp)
        store dh.data p v : M Unit) m' = .error (.ub .fpConv) ∨ ∃ m'', (do
        let p ← ev (CI.lit (k:Int) * CI.lit (S:Int) * CI.lit (L:Int) + CI.lit (i:Int) * CI.lit (S:Int) + CI.lit (j:Int))
        let tmp ← loadF sh.data p
        let v ← orConv (linByte (linM (bandX S L a k)) (linN (bandX S L a k)) tmp)
        store dh.data p v : M Unit) m' = .ok ((), m'') ∧ ∃ g, m'' = m.put dh.data (S * L * B * 1) g := by
    intro k hk i hi j hj m' hm'
    rw [pix k hk i hi j hj m' hm']
    cases linOut S L a i j k with
    | none => exact Or.inl rfl
    | some v =>
      obtain ⟨g, rfl⟩ := hm'
      have := pos_lt .bsq hi hj hk
      exact Or.inr ⟨_, store_put (by omega), _, rfl⟩
  have row : ∀ k, k < B → ∀ i, i < L → ∀ m', (∃ g, m' = m.put dh.data (S * L * B * 1) g) → _ :=
    fun k hk i hi m' hm' => forI_outcome (n := S) (e := .ub .fpConv) (body := fun j => do
        let p ← ev (CI.lit (k:Int) * CI.lit (S:Int) * CI.lit (L:Int) + CI.lit (i:Int) * CI.lit (S:Int) + CI.lit j)
        let tmp ← loadF sh.data p
        let v ← orConv (linByte (linM (bandX S L a k)) (linN (bandX S L a k)) tmp)
        store dh.data p v) (fun m' => ∃ g, m' = m.put dh.data (S * L * B * 1) g)
      (fun j hj m' hm' => step k hk i hi j hj m' hm') hm'
  refine forI_fails (n := B) (k := k) (fun m' => ∃ g, m' = m.put dh.data (S * L * B * 1) g) ?_ hk ?_ ⟨f, hf.put_self.symm⟩
  · rintro k hk m' ⟨g, rfl⟩
    rw [bind_ok (linScan_run h3 h4 (h2.put_ne hne) hN hk)]
    exact forI_outcome (n := L) (fun m' => ∃ g, m' = m.put dh.data (S * L * B * 1) g) (row k hk) ⟨g, rfl⟩
  · rintro m' ⟨g, rfl⟩
    rw [bind_ok (linScan_run h3 h4 (h2.put_ne hne) hN hk)]
    refine forI_fails (n := L) (k := i) (fun m' => ∃ g, m' = m.put dh.data (S * L * B * 1) g) (row k hk) hi ?_ ⟨g, rfl⟩
    intro m' hm'
    refine forI_fails (n := S) (k := j) (fun m' => ∃ g, m' = m.put dh.data (S * L * B * 1) g) (step k hk i hi) hj ?_ hm'
    intro m' hm'
    rw [pix k hk i hi j hj m' hm', hr]

end

/-! ### The values -/

theorem lt_is {u v : FV} {x y : ℚ} (hu : u.Is x) (hv : v.Is y) : FV.lt u v = decide (x < y) := by
  obtain ⟨s, rfl⟩ := hu
  obtain ⟨s', rfl⟩ := hv
  rfl

theorem feq_is {u v : FV} {x y : ℚ} (hu : u.Is x) (hv : v.Is y) : FV.feq u v = decide (x = y) := by
  obtain ⟨s, rfl⟩ := hu
  obtain ⟨s', rfl⟩ := hv
  rfl

/-- the extremes found: the largest of the values and 0, the smallest of the values and 1000000000 -/
theorem scanV_spec {v : Nat → FV} {y : Nat → ℚ} : ∀ n, (∀ e, e < n → (v e).Is (y e)) → ∃ mx mn, (scanV v n).1.Is mx ∧ (scanV v n).2.Is mn ∧
    (0 ≤ mx ∧ (∀ e, e < n → y e ≤ mx) ∧ (mx = 0 ∨ ∃ e, e < n ∧ mx = y e)) ∧
    (mn ≤ 1000000000 ∧ (∀ e, e < n → mn ≤ y e) ∧ (mn = 1000000000 ∨ ∃ e, e < n ∧ mn = y e)) := by
  intro n
  induction n with
  | zero => exact fun _ => ⟨0, 1000000000, ⟨_, rfl⟩, ⟨_, rfl⟩, ⟨le_refl _, fun e he => absurd he (Nat.not_lt_zero e), Or.inl rfl⟩,
      ⟨le_refl _, fun e he => absurd he (Nat.not_lt_zero e), Or.inl rfl⟩⟩
  | succ n ih =>
    intro h
    obtain ⟨mx, mn, h1, h2, ⟨a1, a2, a3⟩, ⟨b1, b2, b3⟩⟩ := ih fun e he => h e (by omega)
    have hn := h n (by omega)
    have e1 : (scanV v (n + 1)).1 = if FV.lt (scanV v n).1 (v n) then v n else (scanV v n).1 := rfl
    have e2 : (scanV v (n + 1)).2 = if FV.lt (v n) (scanV v n).2 then v n else (scanV v n).2 := rfl
    rw [e1, e2, lt_is h1 hn, lt_is hn h2]
    refine ⟨if mx < y n then y n else mx, if y n < mn then y n else mn, ?_, ?_, ⟨?_, ?_, ?_⟩, ⟨?_, ?_, ?_⟩⟩
    · by_cases hc : mx < y n <;> simp [hc, h1, hn]
    · by_cases hc : y n < mn <;> simp [hc, h2, hn]
    · split <;> linarith
    · intro e he
      rcases Nat.lt_succ_iff_lt_or_eq.1 he with he | rfl
      · have := a2 e he
        split <;> linarith
      · split <;> linarith
    · split
      · exact Or.inr ⟨n, by omega, rfl⟩
      · rcases a3 with a3 | ⟨e, he, a3⟩
        · exact Or.inl a3
        · exact Or.inr ⟨e, by omega, a3⟩
    · split <;> linarith
    · intro e he
      rcases Nat.lt_succ_iff_lt_or_eq.1 he with he | rfl
      · have := b2 e he
        split <;> linarith
      · split <;> linarith
    · split
      · exact Or.inr ⟨n, by omega, rfl⟩
      · rcases b3 with b3 | ⟨e, he, b3⟩
        · exact Or.inl b3
        · exact Or.inr ⟨e, by omega, b3⟩

/-- the same for a band -/
theorem bandX_spec {S L : Nat} {a : Nat → Nat → Nat → Nat} {k : Nat} {x : Nat → Nat → ℚ} (hS : 0 < S)
    (h : ∀ i j, i < L → j < S → (f32.decode (a i j k)).Is (x i j)) : ∃ mx mn, (bandX S L a k).1.Is mx ∧ (bandX S L a k).2.Is mn ∧
    (0 ≤ mx ∧ (∀ i j, i < L → j < S → x i j ≤ mx) ∧ (mx = 0 ∨ ∃ i j, i < L ∧ j < S ∧ mx = x i j)) ∧
    (mn ≤ 1000000000 ∧ (∀ i j, i < L → j < S → mn ≤ x i j) ∧ (mn = 1000000000 ∨ ∃ i j, i < L ∧ j < S ∧ mn = x i j)) := by
  have key : ∀ e, e < L * S → e / S < L ∧ e % S < S := fun e he => ⟨(Nat.div_lt_iff_lt_mul hS).2 he, Nat.mod_lt _ hS⟩
  have key2 : ∀ i j, i < L → j < S → i * S + j < L * S := fun i j hi hj => by nlinarith
  obtain ⟨mx, mn, h1, h2, ⟨a1, a2, a3⟩, ⟨b1, b2, b3⟩⟩ := scanV_spec (v := bandV S a k) (y := fun e => x (e / S) (e % S)) (L * S)
    (fun e he => h _ _ (key e he).1 (key e he).2)
  refine ⟨mx, mn, h1, h2, ⟨a1, ?_, ?_⟩, ⟨b1, ?_, ?_⟩⟩
  · intro i j hi hj
    have := a2 _ (key2 i j hi hj)
    rwa [mix_div hj, mix_mod hj] at this
  · rcases a3 with a3 | ⟨e, he, a3⟩
    · exact Or.inl a3
    · exact Or.inr ⟨_, _, (key e he).1, (key e he).2, a3⟩
  · intro i j hi hj
    have := b2 _ (key2 i j hi hj)
    rwa [mix_div hj, mix_mod hj] at this
  · rcases b3 with b3 | ⟨e, he, b3⟩
    · exact Or.inl b3
    · exact Or.inr ⟨_, _, (key e he).1, (key e he).2, b3⟩

/-- the byte for the integer `res` and the value `q` -/
def linPick (res : ℤ) (q : ℚ) : UInt8 := if res ≤ 0 then (if q = 0 then 0 else 1) else if 255 ≤ res then 255 else uchar res

theorem linByte_is {m n tmp : FV} {q r : ℚ} (ht : tmp.Is q) (h : (f32.add (f32.mul tmp m) n).Is r) (hr : -2147483648 ≤ tq r ∧ tq r ≤ 2147483647) :
    linByte m n tmp = some (linPick (tq r) q) := by
  unfold linByte linPick
  rw [trunc_is h, if_pos hr, feq_is ht (⟨false, rfl⟩ : FV.Is _ 0)]
  simp only [decide_eq_true_eq]

theorem linByte_some {m n tmp : FV} {c : UInt8} (h : linByte m n tmp = some c) :
    ∃ q μ ν, tmp.Is q ∧ m.Is μ ∧ n.Is ν ∧ c = linPick (tq (f32.rv (f32.rv (q * μ) + ν))) q := by
  unfold linByte at h
  cases ht : (f32.add (f32.mul tmp m) n).trunc with
  | none => rw [ht] at h; cases h
  | some res =>
    rw [ht] at h
    obtain ⟨r, ⟨s, h1⟩, h2⟩ := trunc_some ht
    obtain ⟨x, ν, ⟨s', h3⟩, h4, h5⟩ := add_fin_inv h1
    obtain ⟨q, μ, h6, h7, h8⟩ := mul_fin_inv h3
    refine ⟨q, μ, ν, h6, h7, h4, ?_⟩
    have h := (Option.some.inj h).symm
    rw [h, h2, h5, h8, feq_is h6 (⟨false, rfl⟩ : FV.Is _ 0)]
    unfold linPick
    simp only [decide_eq_true_eq]

theorem uchar_small {n : ℤ} (h0 : 0 ≤ n) (h : n < 256) : ((uchar n).toNat : ℤ) = n := by
  unfold uchar
  rw [Int.emod_eq_of_lt h0 h]
  have : n.toNat < 256 := by omega
  rw [UInt8.toNat_ofNat']
  rw [Nat.mod_eq_of_lt this]; omega

theorem linPick_val (res : ℤ) (q : ℚ) :
    ((linPick res q).toNat : ℤ) = if res ≤ 0 then (if q = 0 then 0 else 1) else if 255 ≤ res then 255 else res := by
  unfold linPick
  split
  · split <;> rfl
  · split
    · rfl
    · exact uchar_small (by omega) (by omega)

theorem linPick_mono {r r' : ℤ} {q q' : ℚ} (h : r ≤ r') (hq : q' ≠ 0 ∨ q = 0) : linPick r q ≤ linPick r' q' := by
  rw [UInt8.le_iff_toNat_le]
  have h1 := linPick_val r q
  have h2 := linPick_val r' q'
  generalize (linPick r q).toNat = u at *
  generalize (linPick r' q').toNat = u' at *
  rcases hq with hq | hq
  · rw [if_neg hq] at h2
    by_cases c1 : r ≤ 0 <;> by_cases c2 : r' ≤ 0 <;> by_cases c3 : 255 ≤ r <;> by_cases c4 : 255 ≤ r' <;>
      by_cases c5 : q = 0 <;> simp only [c1, c2, c3, c4, c5, if_true, if_false] at h1 h2 <;> omega
  · rw [if_pos hq] at h1
    by_cases c1 : r ≤ 0 <;> by_cases c2 : r' ≤ 0 <;> by_cases c3 : 255 ≤ r <;> by_cases c4 : 255 ≤ r' <;>
      by_cases c5 : q' = 0 <;> simp only [c1, c2, c3, c4, c5, if_true, if_false] at h1 h2 <;> omega

theorem linPick_zero {r : ℤ} {q : ℚ} (h : linPick r q = 0) : q = 0 := by
  have h1 := linPick_val r q
  rw [h] at h1
  by_contra hq
  rw [if_neg hq] at h1
  have e : ((0 : UInt8).toNat : ℤ) = 0 := rfl
  rw [e] at h1
  by_cases c1 : r ≤ 0 <;> by_cases c2 : 255 ≤ r <;> simp only [c1, c2, if_true, if_false] at h1 <;> omega

theorem is255 : (f32.ofInt 255).Is 255 := by
  have := is_ofInt (F := f32) (n := 255) (rep32_int (by norm_num))
  simpa using this

/-- the factor is not negative -/
theorem linM_nonneg {s : FV × FV} {mx mn μ : ℚ} (h1 : s.1.Is mx) (h2 : s.2.Is mn) (hle : mn ≤ mx) (h : (linM s).Is μ) : 0 ≤ μ := by
  obtain ⟨s1, e1⟩ := h1
  obtain ⟨s2, e2⟩ := h2
  obtain ⟨s3, e3⟩ := is255
  obtain ⟨s4, e4⟩ := h
  unfold linM at e4
  rw [e1, e2, e3] at e4
  have ed : f32.sub (.fin s1 mx) (.fin s2 mn) = f32.round (s1 && !s2) (mx + -mn) := rfl
  rw [ed] at e4
  cases hd : f32.round (s1 && !s2) (mx + -mn) with
  | nan => rw [hd] at e4; cases e4
  | inf t =>
    rw [hd] at e4
    injection e4 with _ e5
    rw [← e5]
  | fin t d =>
    rw [hd] at e4
    have hdv := round_fin_rv hd
    have hd0 : 0 ≤ d := by rw [hdv]; exact rv_nonneg (by linarith)
    have e5 : (if d = 0 then (if (255:ℚ) = 0 then FV.nan else .inf (s3 != t)) else f32.round (s3 != t) (255 / d)) = .fin s4 μ := e4
    by_cases hz : d = 0
    · rw [if_pos hz, if_neg (by norm_num)] at e5
      cases e5
    · rw [if_neg hz] at e5
      rw [round_fin_rv e5]
      exact rv_nonneg (by positivity)

theorem linOut_mono {S L : Nat} {a : Nat → Nat → Nat → Nat} {k : Nat} {x : Nat → Nat → ℚ} (hS : 0 < S)
    (h : ∀ i j, i < L → j < S → (f32.decode (a i j k)).Is (x i j)) {i j i' j' : Nat} (hi : i < L) (hj : j < S) (hi' : i' < L) (hj' : j' < S)
    {c c' : UInt8} (h1 : linOut S L a i j k = some c) (h2 : linOut S L a i' j' k = some c') (hx : x i j ≤ x i' j')
    (hz : x i' j' ≠ 0 ∨ x i j = 0) : c ≤ c' := by
  obtain ⟨mx, mn, a1, a2, ⟨b1, b2, b3⟩, ⟨c1, c2, c3⟩⟩ := bandX_spec hS h
  obtain ⟨q, μ, ν, d1, d2, d3, d4⟩ := linByte_some h1
  obtain ⟨q', μ', ν', e1, e2, e3, e4⟩ := linByte_some h2
  obtain rfl := FV.Is.inj d2 e2
  obtain rfl := FV.Is.inj d3 e3
  obtain rfl := FV.Is.inj d1 (h i j hi hj)
  obtain rfl := FV.Is.inj e1 (h i' j' hi' hj')
  have hμ : 0 ≤ μ := linM_nonneg a1 a2 (le_trans (c2 i j hi hj) (b2 i j hi hj)) d2
  rw [d4, e4]
  refine linPick_mono (tq_mono (rv_mono ?_)) hz
  have := rv_mono (F := f32) (mul_le_mul_of_nonneg_right hx hμ)
  linarith

theorem linOut_zero {S L : Nat} {a : Nat → Nat → Nat → Nat} {i j k : Nat} {q : ℚ} (h : (f32.decode (a i j k)).Is q)
    (h1 : linOut S L a i j k = some 0) : q = 0 := by
  obtain ⟨q', μ, ν, d1, d2, d3, d4⟩ := linByte_some h1
  obtain rfl := FV.Is.inj d1 h
  exact linPick_zero d4.symm

/-- a constant band -/
theorem linOut_constant {S L : Nat} {a : Nat → Nat → Nat → Nat} {i j k : Nat} {c : ℚ} (hi : i < L) (hj : j < S) (h0 : 0 ≤ c) (h1 : c ≤ 1000000000)
    (h : ∀ i j, i < L → j < S → (f32.decode (a i j k)).Is c) : linOut S L a i j k = none := by
  obtain ⟨mx, mn, a1, a2, ⟨b1, b2, b3⟩, ⟨c1, c2, c3⟩⟩ := bandX_spec (x := fun _ _ => c) (by omega) h
  have hmx : mx = c := by
    have := b2 i j hi hj
    rcases b3 with b3 | ⟨_, _, _, _, b3⟩
    · linarith
    · exact b3
  have hmn : mn = c := by
    have := c2 i j hi hj
    rcases c3 with c3 | ⟨_, _, _, _, c3⟩
    · linarith
    · exact c3
  cases hb : linOut S L a i j k with
  | none => rfl
  | some b =>
    exfalso
    obtain ⟨q', μ, ν, d1, ⟨t, d2⟩, d3, d4⟩ := linByte_some hb
    obtain ⟨s1, e1⟩ := a1
    obtain ⟨s2, e2⟩ := a2
    obtain ⟨s3, e3⟩ := is255
    unfold linM at d2
    rw [e1, e2, e3, hmx, hmn] at d2
    have ed : f32.sub (.fin s1 c) (.fin s2 c) = .fin (s1 && !s2) 0 := by
      show f32.round _ (c + -c) = _
      rw [add_neg_cancel]; exact round_zero
    rw [ed] at d2
    cases d2

/-! ### Bounds for data of limited size -/

theorem grep_int {n : ℤ} (h : |n| ≤ 16777216) : f32.GRep n := (rep32_int h).g

theorem lt_max {q b : ℚ} (h : |q| ≤ b) (hb : b ≤ 2 ^ 127) : |q| < 2 ^ (2 ^ (f32.w - 1)) := by
  have e : (2:ℚ) ^ (2 ^ (f32.w - 1)) = 2 ^ 128 := rfl
  rw [e]
  have : (2:ℚ) ^ 127 < 2 ^ 128 := by norm_num
  linarith

theorem rv_abs_le {q b : ℚ} (hb : f32.GRep b) (h : |q| ≤ b) : |f32.rv q| ≤ b := by
  rw [abs_le] at h ⊢
  exact ⟨rv_ge (GRep.neg hb) h.1, rv_le hb h.2⟩

/-- what is computed for values between 0 and 8000000 that differ by at least 1 -/
theorem lin_values {s : FV × FV} {mx mn : ℚ} (h1 : s.1.Is mx) (h2 : s.2.Is mn) (hmn : 0 ≤ mn) (hmx : mx ≤ 8000000) (hd : mn + 1 ≤ mx)
    {tmp : FV} {q : ℚ} (ht : tmp.Is q) (hq : mn ≤ q) (hq' : q ≤ mx) :
    ∃ D μ c ν : ℚ, D = f32.rv (mx - mn) ∧ 1 ≤ D ∧ μ = f32.rv (255 / D) ∧ c = f32.rv (mn * 255) ∧ ν = f32.rv (c / D) ∧
      linByte (linM s) (linN s) tmp = some (linPick (tq (f32.rv (f32.rv (q * μ) - ν))) q) := by
  have g8 : f32.GRep (8000000:ℚ) := by have := grep_int (n := 8000000) (by norm_num); exact_mod_cast this
  have g1 : f32.GRep (1:ℚ) := by have := grep_int (n := 1) (by norm_num); exact_mod_cast this
  have g255 : f32.GRep (255:ℚ) := by have := grep_int (n := 255) (by norm_num); exact_mod_cast this
  have gB : f32.GRep (2040000000:ℚ) := by
    refine ⟨3984375, 9, by norm_num, by decide, by decide⟩
  set D := f32.rv (mx - mn) with hD
  have hD1 : 1 ≤ D := rv_ge g1 (by linarith)
  have hD8 : D ≤ 8000000 := rv_le g8 (by linarith)
  have iD : (f32.sub s.1 s.2).Is D := rnd_sub h1 h2 (lt_max (b := 8000000) (by rw [abs_le]; constructor <;> linarith) (by norm_num))
  have hA : 0 ≤ 255 / D := by positivity
  have hA' : 255 / D ≤ 255 := by rw [div_le_iff₀ (by linarith)]; linarith
  set μ := f32.rv (255 / D) with hμ
  have hμ0 : 0 ≤ μ := rv_nonneg hA
  have hμ1 : μ ≤ 255 := rv_le g255 hA'
  have iμ : (linM s).Is μ := rnd_div is255 iD (by linarith) (lt_max (b := 255) (by rw [abs_le]; constructor <;> linarith) (by norm_num))
  set c := f32.rv (mn * 255) with hc
  have hc0 : 0 ≤ c := rv_nonneg (by positivity)
  have hc1 : c ≤ 2040000000 := rv_le gB (by linarith)
  have ecn : f32.rv (-mn * 255) = -c := by rw [hc, ← rv_neg]; congr 1; ring
  have ic : (f32.mul s.2.neg (f32.ofInt 255)).Is (-c) := by
    rw [← ecn]
    exact rnd_mul (is_neg h2) is255 (by rw [ecn, abs_neg]; exact lt_max (b := 2040000000) (by rw [abs_le]; constructor <;> linarith) (by norm_num))
  have hcD : 0 ≤ c / D := by positivity
  have hcD' : c / D ≤ 2040000000 := by
    rw [div_le_iff₀ (by linarith)]
    nlinarith
  set ν := f32.rv (c / D) with hν
  have hν0 : 0 ≤ ν := rv_nonneg hcD
  have hν1 : ν ≤ 2040000000 := rv_le gB hcD'
  have evn : f32.rv (-c / D) = -ν := by rw [neg_div, rv_neg]
  have iν : (linN s).Is (-ν) := by
    rw [← evn]
    exact rnd_div ic iD (by linarith) (by rw [evn, abs_neg]; exact lt_max (b := 2040000000) (by rw [abs_le]; constructor <;> linarith) (by norm_num))
  have hp0 : 0 ≤ q * μ := mul_nonneg (by linarith) hμ0
  have hp1 : q * μ ≤ 2040000000 := by nlinarith
  have hP0 : 0 ≤ f32.rv (q * μ) := rv_nonneg hp0
  have hP1 : f32.rv (q * μ) ≤ 2040000000 := rv_le gB hp1
  have iP : (f32.mul tmp (linM s)).Is (f32.rv (q * μ)) := rnd_mul ht iμ (lt_max (b := 2040000000) (by rw [abs_le]; constructor <;> linarith) (by norm_num))
  have hr : |f32.rv (f32.rv (q * μ) + -ν)| ≤ 2040000000 := rv_abs_le gB (by rw [abs_le]; constructor <;> linarith)
  have iR : (f32.add (f32.mul tmp (linM s)) (linN s)).Is (f32.rv (f32.rv (q * μ) + -ν)) := rnd_add iP iν (lt_max hr (by norm_num))
  refine ⟨D, μ, c, ν, rfl, hD1, rfl, rfl, rfl, ?_⟩
  rw [sub_eq_add_neg]
  rw [abs_le] at hr
  refine linByte_is ht iR ⟨?_, ?_⟩
  · refine le_tq ?_
    push_cast; linarith [hr.1]
  · refine tq_le ?_
    push_cast; linarith [hr.2]

theorem lin_accuracy {mx mn q D μ c ν : ℚ} (hmn : 0 ≤ mn) (hmx : mx ≤ 4095) (hd : mn + 1 ≤ mx) (hq : mn ≤ q) (hq' : q ≤ mx)
    (eD : D = f32.rv (mx - mn)) (hD1 : 1 ≤ D) (eμ : μ = f32.rv (255 / D)) (ec : c = f32.rv (mn * 255)) (eν : ν = f32.rv (c / D)) :
    |f32.rv (f32.rv (q * μ) - ν) - 255 * (q - mn) / (mx - mn)| ≤ 2 / 5 := by
  have hd1 : 1 ≤ mx - mn := by linarith
  set d := mx - mn with hd'
  have k0 : |D - d| ≤ d / 2 ^ 24 + 1 / 2 ^ 100 := by
    have := rv_abs d
    rw [abs_of_pos (show 0 < d by linarith)] at this
    rw [eD]; exact this
  set A := 255 / D with hA
  have hA0 : 0 ≤ A := by positivity
  have hA1 : A ≤ 255 := by rw [hA, div_le_iff₀ (by linarith)]; linarith
  have k1 : |μ - A| ≤ A / 2 ^ 24 + 1 / 2 ^ 100 := by
    have := rv_abs A
    rw [abs_of_nonneg hA0] at this
    rw [eμ]; exact this
  have hq0 : 0 ≤ q := by linarith
  have hq1 : q ≤ 4095 := by linarith
  -- the product
  have hqA : q * A ≤ 1044225 := by nlinarith
  have hqA0 : 0 ≤ q * A := by positivity
  have k2 : |q * μ - q * A| ≤ 1044225 / 2 ^ 24 + 4095 / 2 ^ 100 := by
    rw [← mul_sub, abs_mul, abs_of_nonneg hq0]
    calc q * |μ - A| ≤ q * (A / 2 ^ 24 + 1 / 2 ^ 100) := mul_le_mul_of_nonneg_left k1 hq0
      _ = q * A / 2 ^ 24 + q / 2 ^ 100 := by ring
      _ ≤ _ := by
        have : q * A / 2 ^ 24 ≤ 1044225 / 2 ^ 24 := div_le_div_of_nonneg_right hqA (by norm_num)
        have : q / 2 ^ 100 ≤ 4095 / 2 ^ 100 := div_le_div_of_nonneg_right hq1 (by norm_num)
        linarith
  have hqm : |q * μ| ≤ 1044226 := by
    rw [abs_le] at k2 ⊢
    norm_num at k2 ⊢
    constructor <;> linarith [k2.1, k2.2]
  have k3 : |f32.rv (q * μ) - q * μ| ≤ 1044226 / 2 ^ 24 + 1 / 2 ^ 100 := by
    refine le_trans (rv_abs _) ?_
    have := div_le_div_of_nonneg_right hqm (show (0:ℚ) ≤ 2 ^ 24 by norm_num)
    linarith
  -- the offset
  have k4 : |c - mn * 255| ≤ 1044225 / 2 ^ 24 + 1 / 2 ^ 100 := by
    rw [ec]
    refine le_trans (rv_abs _) ?_
    have : |mn * 255| ≤ 1044225 := by rw [abs_of_nonneg (by positivity)]; linarith
    have := div_le_div_of_nonneg_right this (show (0:ℚ) ≤ 2 ^ 24 by norm_num)
    linarith
  have k5 : |c / D - mn * A| ≤ 1044225 / 2 ^ 24 + 1 / 2 ^ 100 := by
    have e : c / D - mn * A = (c - mn * 255) / D := by rw [hA]; ring
    rw [e, abs_div, abs_of_pos (show 0 < D by linarith), div_le_iff₀ (by linarith)]
    have : 0 ≤ |c - mn * 255| := abs_nonneg _
    nlinarith
  have hmA : mn * A ≤ 1044225 := by nlinarith
  have hmA0 : 0 ≤ mn * A := by positivity
  have hcD : |c / D| ≤ 1044226 := by
    rw [abs_le] at k5 ⊢
    norm_num at k5 ⊢
    constructor <;> linarith [k5.1, k5.2]
  have k6 : |ν - c / D| ≤ 1044226 / 2 ^ 24 + 1 / 2 ^ 100 := by
    rw [eν]
    refine le_trans (rv_abs _) ?_
    have := div_le_div_of_nonneg_right hcD (show (0:ℚ) ≤ 2 ^ 24 by norm_num)
    linarith
  -- the exact factor
  have k7 : |(q - mn) * A - 255 * (q - mn) / d| ≤ 255 / 2 ^ 23 := by
    have hqd : q - mn ≤ d := by linarith
    have e : (q - mn) * A - 255 * (q - mn) / d = (255 * (q - mn) / d) * ((d - D) / D) := by
      rw [hA]
      have : D ≠ 0 := by linarith
      have : d ≠ 0 := by linarith
      field_simp
    have h1 : 255 * (q - mn) / d ≤ 255 := by rw [div_le_iff₀ (by linarith)]; linarith
    have h2 : 0 ≤ 255 * (q - mn) / d := div_nonneg (by linarith) (by linarith)
    have h3 : |(d - D) / D| ≤ 1 / 2 ^ 23 := by
      rw [abs_div, abs_of_pos (show 0 < D by linarith), div_le_iff₀ (by linarith), abs_sub_comm]
      rw [abs_le] at k0
      rw [abs_le]
      norm_num at k0 ⊢
      constructor <;> linarith [k0.1, k0.2]
    rw [e, abs_mul, abs_of_nonneg h2]
    have h4 : 0 ≤ |(d - D) / D| := abs_nonneg _
    calc _ ≤ 255 * (1 / 2 ^ 23 : ℚ) := mul_le_mul h1 h3 h4 (by norm_num)
      _ = _ := by ring
  set s := f32.rv (q * μ) - ν with hs
  have k8 : |s - 255 * (q - mn) / d| ≤ 2 / 5 - 1 / 1000 := by
    rw [abs_le] at k2 k3 k5 k6 k7 ⊢
    norm_num at k2 k3 k5 k6 k7 ⊢
    constructor <;> linarith [k2.1, k2.2, k3.1, k3.2, k5.1, k5.2, k6.1, k6.2, k7.1, k7.2]
  have hE : 255 * (q - mn) / d ≤ 255 := by rw [div_le_iff₀ (by linarith)]; linarith
  have hE0 : 0 ≤ 255 * (q - mn) / d := div_nonneg (by linarith) (by linarith)
  have hsb : |s| ≤ 256 := by
    rw [abs_le] at k8 ⊢
    constructor <;> linarith [k8.1, k8.2]
  have k9 : |f32.rv s - s| ≤ 1 / 1000 := by
    refine le_trans (rv_abs _) ?_
    have := div_le_div_of_nonneg_right hsb (show (0:ℚ) ≤ 2 ^ 24 by norm_num)
    norm_num at this ⊢
    linarith
  rw [abs_le] at k8 k9 ⊢
  constructor <;> linarith [k8.1, k8.2, k9.1, k9.2]

theorem linPick_close {r q E : ℚ} (h : |r - E| ≤ 2 / 5) (h0 : 0 ≤ E) (h1 : E ≤ 255) : |((linPick (tq r) q).toNat : ℚ) - E| ≤ 7 / 5 := by
  have hv := linPick_val (tq r) q
  have hc := tq_close r
  rw [abs_lt] at hc
  rw [abs_le] at h ⊢
  have e : ((linPick (tq r) q).toNat : ℚ) = (((linPick (tq r) q).toNat : ℤ) : ℚ) := by push_cast; rfl
  rw [e, hv]
  by_cases c1 : tq r ≤ 0
  · rw [if_pos c1]
    have : (tq r : ℚ) ≤ 0 := by exact_mod_cast c1
    split
    · push_cast; constructor <;> linarith [h.1, h.2]
    · push_cast; constructor <;> linarith [h.1, h.2]
  · rw [if_neg c1]
    by_cases c2 : 255 ≤ tq r
    · rw [if_pos c2]
      have h3 : (255 : ℚ) ≤ tq r := by exact_mod_cast c2
      have h4 : (255:ℚ) ≤ r := by
        by_contra hlt
        have : tq r ≤ tq (255 : ℚ) := tq_mono (by linarith)
        have hr0 : 0 ≤ r := by linarith
        have : tq r = ⌊r⌋ := by unfold tq; rw [if_pos hr0]
        have h5 : (⌊r⌋ : ℚ) ≤ r := Int.floor_le r
        rw [this] at h3
        linarith
      push_cast
      constructor <;> linarith [h.1, h.2]
    · rw [if_neg c2]
      constructor <;> linarith [h.1, h.2]

end HyperCV
