/- The addition and the logarithm of float images. -/
import Verif.Model.EdgeEnergy
import Verif.Proof.Filter2D
import Verif.Proof.Spectral

namespace HyperCV
open Spec

/-- three nested loops over consecutive elements -/
theorem flat3_run {R C ch : Nat} {body : Int → Int → Int → M Unit} (F : Nat → Mem)
    (step : ∀ i j k, i < R → j < C → k < ch → body i j k (F ((i * C + j) * ch + k)) = .ok ((), F ((i * C + j) * ch + k + 1))) :
    (forI 0 (R:Int) fun i => forI 0 (C:Int) fun j => forI 0 (ch:Int) fun k => body i j k) (F 0) = .ok ((), F (R * C * ch)) := by
  have top := forI_run (n := R) (body := fun i => forI 0 (C:Int) fun j => forI 0 (ch:Int) fun k => body i j k)
    (fun i => F (i * C * ch)) (by
      intro i hi
      have mid := forI_run (n := C) (body := fun j => forI 0 (ch:Int) fun k => body i j k) (fun j => F ((i * C + j) * ch)) (by
        intro j hj
        have low := forI_run (n := ch) (body := fun k => body i j k) (fun k => F ((i * C + j) * ch + k)) (fun k hk => step i j k hi hj hk)
        beta_reduce at low
        rw [Nat.add_zero] at low
        refine low.trans ?_
        rw [show (i * C + (j + 1)) * ch = (i * C + j) * ch + ch by ring])
      beta_reduce at mid
      rw [Nat.add_zero] at mid
      refine mid.trans ?_
      rw [show (i + 1) * C = i * C + C by ring])
  beta_reduce at top
  rw [Nat.zero_mul, Nat.zero_mul] at top
  exact top

/-- the state of the destination after `p` elements -/
def addMix (p : Nat) (fa fb fd : Nat → Nat) (q : Nat) : Nat :=
  if q < p then f32.encode (f32.add (f32.decode (fa q)) (f32.decode (fb q))) else fd q

section
variable {m : Mem} {ad bd dd NA NB ND n : Nat} {fa fb fd : Nat → Nat}

theorem addMix_lt {p : Nat} (hD : ∀ q, q < ND → fd q < 256 ^ 4) : ∀ q, q < ND → addMix p fa fb fd q < 256 ^ 4 := by
  intro q hq
  unfold addMix
  split
  · exact f32_encode_lt (good_add _ _ _)
  · exact hD q hq

/-- elements that have not been written yet can be read, also from the destination itself -/
theorem add_load {p : Nat} (hA : HoldsN m ad 4 NA fa) (hD : HoldsN m dd 4 ND fd) (hp : p < NA) (hpD : p < ND) :
    loadN 4 ad (p:Int) (m.putN dd 4 ND (addMix p fb fa' fd)) = .ok (fa p, m.putN dd 4 ND (addMix p fb fa' fd)) := by
  by_cases e : ad = dd
  · subst e
    have h1 := hA.load hp
    rw [hD.load hpD] at h1
    have e1 : fd p = fa p := by
      injection h1 with h1
      exact (Prod.mk.inj h1).1
    have := (holdsN_putN m (h := ad) (w := 4) (addMix_lt (p := p) (fa := fb) (fb := fa') hD.2)).load hpD
    rw [this]
    unfold addMix
    rw [if_neg (lt_irrefl _), e1]
  · exact (hA.putN_ne e).load hp

theorem add_step {p : Nat} (hA : HoldsN m ad 4 NA fa) (hB : HoldsN m bd 4 NB fb) (hD : HoldsN m dd 4 ND fd)
    (hpA : p < NA) (hpB : p < NB) (hpD : p < ND) :
    (do
      let v1 ← ldF ad (p:Int)
      let v2 ← ldF bd (p:Int)
      stF dd (p:Int) (f32.add v1 v2) : M Unit) (m.putN dd 4 ND (addMix p fa fb fd)) = .ok ((), m.putN dd 4 ND (addMix (p+1) fa fb fd)) := by
  have l1 : ldF ad (p:Int) (m.putN dd 4 ND (addMix p fa fb fd)) = .ok (f32.decode (fa p), m.putN dd 4 ND (addMix p fa fb fd)) := by
    unfold ldF
    rw [bind_ok (add_load hA hD hpA hpD)]
    rfl
  have l2 : ldF bd (p:Int) (m.putN dd 4 ND (addMix p fa fb fd)) = .ok (f32.decode (fb p), m.putN dd 4 ND (addMix p fa fb fd)) := by
    unfold ldF
    rw [bind_ok (add_load hB hD hpB hpD)]
    rfl
  rw [bind_ok l1, bind_ok l2]
  unfold stF
  rw [storeN_put hpD]
  refine congrArg (fun x => Except.ok ((), x)) (putN_congr m ?_)
  intro q _
  unfold addMix
  by_cases e : q = p
  · subst e
    rw [if_pos rfl, if_pos (by omega), Nat.mod_eq_of_lt (f32_encode_lt (good_add _ _ _))]
  · rw [if_neg e]
    by_cases e2 : q < p
    · rw [if_pos e2, if_pos (by omega)]
    · rw [if_neg e2, if_neg (by omega)]

theorem add_float_run {a b d : SimpleMat} {pa pb pd R1 R2 C1 C2 ch : Nat} (h1 : m.sm pa = some a) (h2 : m.sm pb = some b) (h3 : m.sm pd = some d)
    (hA : HoldsN m a.data 4 NA fa) (hB : HoldsN m b.data 4 NB fb) (hD : HoldsN m d.data 4 ND fd)
    (a1 : a.rows = R1) (a2 : a.cols = C1) (a3 : a.channels = ch) (b1 : b.rows = R2) (b2 : b.cols = C2) (b3 : b.channels = ch)
    (nA : min R1 R2 * min C1 C2 * ch ≤ NA) (nB : min R1 R2 * min C1 C2 * ch ≤ NB) (nD : min R1 R2 * min C1 C2 * ch ≤ ND)
    (hb : min R1 R2 * min C1 C2 * ch ≤ 2147483647) :
    simple_mat_addition_float (some pa) (some pb) (some pd) m
      = .ok ((), m.putN d.data 4 ND (addMix (min R1 R2 * min C1 C2 * ch) fa fb fd)) := by
  unfold simple_mat_addition_float
  rw [show decide (some pa ≠ none ∧ some pb ≠ none ∧ some pd ≠ none) = true by simp, cassert_bind_true]
  rw [show derefS (some pa) = getS pa from rfl, show derefS (some pb) = getS pb from rfl, show derefS (some pd) = getS pd from rfl]
  rw [bind_ok (getS_ok h1), bind_ok (getS_ok h2), show decide (a.channels = b.channels) = true by rw [a3, b3]; simp, cassert_bind_true, bind_ok (getS_ok h3)]
  have e1 : (if a.rows ≥ b.rows then b.rows else a.rows) = ((min R1 R2 : Nat) : Int) := by
    rw [a1, b1]; split <;> omega
  have e2 : (if a.cols ≥ b.cols then b.cols else a.cols) = ((min C1 C2 : Nat) : Int) := by
    rw [a2, b2]; split <;> omega
  simp only [e1, e2, a3]
  have z0 : m.putN d.data 4 ND (addMix 0 fa fb fd) = m := (putN_congr m (fun _ _ => if_neg (by omega))).trans hD.put_self
  have run := flat3_run (R := min R1 R2) (C := min C1 C2) (ch := ch) (body := fun i j k => do
        let ix ← ev (CI.lit i * CI.lit ((min C1 C2 : Nat):Int) * CI.lit (ch:Int) + CI.lit j * CI.lit (ch:Int) + CI.lit k)
        let v1 ← ldF a.data ix
        let v2 ← ldF b.data ix
        stF d.data ix (f32.add v1 v2)) (fun p => m.putN d.data 4 ND (addMix p fa fb fd)) (by
      intro i j k hi hj hk
      beta_reduce
      rw [bind_ok (ev_ok (eval_img hi hj hk hb) _)]
      have := img8_lt hi hj hk
      exact add_step hA hB hD (by omega) (by omega) (by omega))
  rw [z0] at run
  exact run

end

/-- the block `h` has `n` bytes -/
def Sized (m : Mem) (h n : Nat) : Prop := ∃ f, Holds m h n f

theorem sized_put {m : Mem} {h h' n n' : Nat} {g : Nat → UInt8} (hs : Sized m h n) (hd : Sized m h' n') : Sized (m.put h' n' g) h n := by
  obtain ⟨f, hf⟩ := hs
  obtain ⟨f', hf'⟩ := hd
  by_cases e : h = h'
  · subst e
    obtain ⟨rfl, -⟩ := hf.unique hf'
    exact ⟨_, holds_put _ _ _ _⟩
  · exact ⟨_, hf.put_ne e⟩

theorem add_float_small {m : Mem} {a b d : SimpleMat} {pa pb pd R1 R2 C1 C2 ch NA NB ND : Nat} (h1 : m.sm pa = some a) (h2 : m.sm pb = some b)
    (h3 : m.sm pd = some d) (hA : Sized m a.data NA) (hB : Sized m b.data NB) (hD : Sized m d.data (ND * 4))
    (a1 : a.rows = R1) (a2 : a.cols = C1) (a3 : a.channels = ch) (b1 : b.rows = R2) (b2 : b.cols = C2) (b3 : b.channels = ch)
    (nA : min R1 R2 * min C1 C2 * ch * 4 ≤ NA) (nB : min R1 R2 * min C1 C2 * ch * 4 ≤ NB) (nD : ND < min R1 R2 * min C1 C2 * ch)
    (hb : min R1 R2 * min C1 C2 * ch ≤ 2147483647) :
    simple_mat_addition_float (some pa) (some pb) (some pd) m = .error (.ub .oob) := by
  unfold simple_mat_addition_float
  rw [show decide (some pa ≠ none ∧ some pb ≠ none ∧ some pd ≠ none) = true by simp, cassert_bind_true]
  rw [show derefS (some pa) = getS pa from rfl, show derefS (some pb) = getS pb from rfl, show derefS (some pd) = getS pd from rfl]
  rw [bind_ok (getS_ok h1), bind_ok (getS_ok h2), show decide (a.channels = b.channels) = true by rw [a3, b3]; simp, cassert_bind_true, bind_ok (getS_ok h3)]
  have e1 : (if a.rows ≥ b.rows then b.rows else a.rows) = ((min R1 R2 : Nat) : Int) := by
    rw [a1, b1]; split <;> omega
  have e2 : (if a.cols ≥ b.cols then b.cols else a.cols) = ((min C1 C2 : Nat) : Int) := by
    rw [a2, b2]; split <;> omega
  simp only [e1, e2, a3]
  generalize min R1 R2 = R at *
  generalize min C1 C2 = C at *
  let P : Mem → Prop := fun m => Sized m a.data NA ∧ Sized m b.data NB ∧ Sized m d.data (ND * 4)
  have key : ∀ i j k, i < R → j < C → k < ch → ∀ m, P m →
      (ND ≤ (i * C + j) * ch + k → (do
        let ix ← ev (CI.lit (i:Int) * CI.lit (C:Int) * CI.lit (ch:Int) + CI.lit (j:Int) * CI.lit (ch:Int) + CI.lit (k:Int))
        let v1 ← ldF a.data ix
        let v2 ← ldF b.data ix
        stF d.data ix (f32.add v1 v2) : M Unit) m = .error (.ub .oob)) ∧
      ((do
        let ix ← ev (CI.lit (i:Int) * CI.lit (C:Int) * CI.lit (ch:Int) + CI.lit (j:Int) * CI.lit (ch:Int) + CI.lit (k:Int))
        let v1 ← ldF a.data ix
        let v2 ← ldF b.data ix
        stF d.data ix (f32.add v1 v2) : M Unit) m = .error (.ub .oob) ∨ ∃ m', (do
        let ix ← ev (CI.lit (i:Int) * CI.lit (C:Int) * CI.lit (ch:Int) + CI.lit (j:Int) * CI.lit (ch:Int) + CI.lit (k:Int))
        let v1 ← ldF a.data ix
        let v2 ← ldF b.data ix
        stF d.data ix (f32.add v1 v2) : M Unit) m = .ok ((), m') ∧ P m') := by
    rintro i j k hi hj hk m ⟨⟨fa, q1⟩, ⟨fb, q2⟩, ⟨fd, q3⟩⟩
    have hlt := img8_lt hi hj hk
    obtain ⟨v1, l1⟩ : ∃ v1, ldF a.data (((i * C + j) * ch + k : Nat) : Int) m = .ok (v1, m) :=
      ⟨_, by unfold ldF; rw [bind_ok (loadN_ok q1 (by omega))]; rfl⟩
    obtain ⟨v2, l2⟩ : ∃ v2, ldF b.data (((i * C + j) * ch + k : Nat) : Int) m = .ok (v2, m) :=
      ⟨_, by unfold ldF; rw [bind_ok (loadN_ok q2 (by omega))]; rfl⟩
    rw [bind_ok (ev_ok (eval_img hi hj hk hb) _), bind_ok l1, bind_ok l2]
    generalize f32.encode (f32.add v1 v2) = v
    have bad : ND ≤ (i * C + j) * ch + k → stF d.data (((i * C + j) * ch + k : Nat) : Int) (f32.add v1 v2) m = .error (.ub .oob) :=
      fun h => storeN_oob q3 (by decide) h
    refine ⟨bad, ?_⟩
    by_cases hc : ND ≤ (i * C + j) * ch + k
    · exact Or.inl (bad hc)
    · right
      have st := (storeN_fills (m := m) (d := d.data) (N := ND * 4) (w := 4) (i := (i * C + j) * ch + k) (v := f32.encode (f32.add v1 v2))
        (new := fun p => leByte (f32.encode (f32.add v1 v2)) (p - ((i * C + j) * ch + k) * 4)) (by omega) (by intro t ht; simp)).run q3
      exact ⟨_, st, sized_put ⟨_, q1⟩ ⟨_, q3⟩, sized_put ⟨_, q2⟩ ⟨_, q3⟩, _, holds_put _ _ _ _⟩
  have pR : 0 < R := Nat.pos_of_ne_zero (by rintro rfl; simp at nD)
  have pC : 0 < C := Nat.pos_of_ne_zero (by rintro rfl; simp at nD)
  have pch : 0 < ch := Nat.pos_of_ne_zero (by rintro rfl; simp at nD)
  refine forI_fails (k := R - 1) P ?_ (by omega) ?_ (show P m from ⟨hA, hB, hD⟩)
  · intro i hi m hm
    refine forI_outcome P ?_ hm
    intro j hj m hm
    exact forI_outcome P (fun k hk m hm => (key i j k hi hj hk m hm).2) hm
  · intro m hm
    refine forI_fails (k := C - 1) P ?_ (by omega) ?_ hm
    · intro j hj m hm
      exact forI_outcome P (fun k hk m hm => (key (R-1) j k (by omega) hj hk m hm).2) hm
    · intro m hm
      refine forI_fails (k := ch - 1) P (fun k hk m hm => (key (R-1) (C-1) k (by omega) (by omega) hk m hm).2) (by omega) ?_ hm
      intro m hm
      refine (key (R-1) (C-1) (ch-1) (by omega) (by omega) (by omega) m hm).1 ?_
      have e1 : (R - 1) * C + (C - 1) + 1 = R * C := by
        obtain ⟨r, rfl⟩ : ∃ r, R = r + 1 := ⟨R - 1, by omega⟩
        rw [Nat.succ_mul, Nat.add_sub_cancel]; omega
      have e2 : ((R - 1) * C + (C - 1)) * ch + (ch - 1) + 1 = R * C * ch := by
        rw [← e1, Nat.succ_mul]; omega
      omega

/-- the state of the destination of the logarithm after `p` elements -/
def logMix (log : FV → FV) (p : Nat) (fs fd : Nat → Nat) (q : Nat) : Nat :=
  if q < p then f32.encode (f32.conv (log (f64.conv (f32.decode (fs q))))) else fd q

theorem log_run (log : FV → FV) {m : Mem} {s d : SimpleMat} {ps pd R C NS ND : Nat} {fs fd : Nat → Nat} (h1 : m.sm ps = some s) (h2 : m.sm pd = some d)
    (hS : HoldsN m s.data 4 NS fs) (hD : HoldsN m d.data 4 ND fd) (s0 : s.data_type = 4) (d0 : d.data_type = 4)
    (s1 : s.rows = R) (s2 : s.cols = C) (d1 : d.rows = R) (d2 : d.cols = C)
    (nS : R * C ≤ NS) (nD : R * C ≤ ND) (hb : R * C ≤ 2147483647) :
    simple_mat_log log (some ps) (some pd) m = .ok ((), m.putN d.data 4 ND (logMix log (R * C) fs fd)) := by
  unfold simple_mat_log
  rw [show derefS (some ps) = getS ps from rfl, show derefS (some pd) = getS pd from rfl, bind_ok (getS_ok h1), bind_ok (getS_ok h2)]
  rw [show decide (s.data_type = 4 ∧ d.data_type = 4) = true by rw [s0, d0]; simp, cassert_bind_true,
    show decide (s.rows = d.rows ∧ s.cols = d.cols) = true by rw [s1, s2, d1, d2]; simp, cassert_bind_true]
  have e1 : (CI.lit s.rows * CI.lit s.cols : CI) = CI.lit ((R * C : Nat) : Int) := by
    rw [s1, s2, CI.mul_ok (by constructor <;> ((try norm_cast) <;> omega))]
    push_cast; rfl
  rw [bind_ok (ev_ok e1 _)]
  have z0 : m.putN d.data 4 ND (logMix log 0 fs fd) = m := (putN_congr m (fun _ _ => if_neg (by omega))).trans hD.put_self
  have lt : ∀ p q, q < ND → logMix log p fs fd q < 256 ^ 4 := by
    intro p q hq
    unfold logMix
    split
    · exact f32_encode_lt (good_conv _ _)
    · exact hD.2 q hq
  have run := forI_run (n := R * C) (body := fun i => do
      let v ← ldF s.data i
      stF d.data i (f32.conv (log (f64.conv v)))) (fun p => m.putN d.data 4 ND (logMix log p fs fd)) (by
    intro p hp
    beta_reduce
    have l0 : loadN 4 s.data (p:Int) (m.putN d.data 4 ND (logMix log p fs fd)) = .ok (fs p, m.putN d.data 4 ND (logMix log p fs fd)) := by
      by_cases e : s.data = d.data
      · have h1 := hS.load (show p < NS by omega)
        rw [e, hD.load (show p < ND by omega)] at h1
        have e1 : fd p = fs p := by
          injection h1 with h1
          exact (Prod.mk.inj h1).1
        rw [e]
        rw [(holdsN_putN m (h := d.data) (w := 4) (lt p)).load (show p < ND by omega)]
        unfold logMix
        rw [if_neg (lt_irrefl _), e1]
      · exact (hS.putN_ne e).load (by omega)
    have l1 : ldF s.data (p:Int) (m.putN d.data 4 ND (logMix log p fs fd)) = .ok (f32.decode (fs p), m.putN d.data 4 ND (logMix log p fs fd)) := by
      unfold ldF
      rw [bind_ok l0]
      rfl
    rw [bind_ok l1]
    unfold stF
    rw [storeN_put (show p < ND by omega)]
    refine congrArg (fun x => Except.ok ((), x)) (putN_congr m ?_)
    intro q _
    unfold logMix
    by_cases e : q = p
    · subst e
      rw [if_pos rfl, if_pos (by omega), Nat.mod_eq_of_lt (f32_encode_lt (good_conv _ _))]
    · rw [if_neg e]
      by_cases e2 : q < p
      · rw [if_pos e2, if_pos (by omega)]
      · rw [if_neg e2, if_neg (by omega)])
  rw [z0] at run
  exact run

end HyperCV
