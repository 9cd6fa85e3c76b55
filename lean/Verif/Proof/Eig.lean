/- The computation of eigenvectors stays inside its arrays. -/
import Verif.Proof.Arrays
import Verif.Proof.Spectral
import Verif.Proof.Post
import Verif.Proof.Header

namespace HyperCV
open Spec

/-- the two arrays that change -/
def eigEnv (temp vec N : Nat) (ft fv : Nat → Nat) : Env := fun h => if h = temp then some (N, ft) else if h = vec then some (N, fv) else none

/-- the memory differs from `m0` only in the contents of the two arrays -/
def EigInv (m0 : Mem) (temp vec N : Nat) (m : Mem) : Prop :=
  ∃ ft fv, (∀ i, i < N → ft i < 256 ^ 4) ∧ (∀ i, i < N → fv i < 256 ^ 4) ∧ m = m0.arrs (eigEnv temp vec N ft fv)

variable {m0 m : Mem} {temp vec N n : Nat}

theorem eigEnv_t {ft fv : Nat → Nat} : eigEnv temp vec N ft fv temp = some (N, ft) := if_pos rfl
theorem eigEnv_v {ft fv : Nat → Nat} (hne : temp ≠ vec) : eigEnv temp vec N ft fv vec = some (N, fv) := by
  unfold eigEnv; rw [if_neg hne.symm, if_pos rfl]
theorem eigEnv_o {ft fv : Nat → Nat} {h : Nat} (h1 : h ≠ temp) (h2 : h ≠ vec) : eigEnv temp vec N ft fv h = none := by
  unfold eigEnv; rw [if_neg h1, if_neg h2]
theorem eigEnv_set_t {ft fv g : Nat → Nat} : (eigEnv temp vec N ft fv).set temp N g = eigEnv temp vec N g fv := by
  funext x; unfold Env.set eigEnv; split <;> rfl
theorem eigEnv_set_v {ft fv g : Nat → Nat} (hne : temp ≠ vec) : (eigEnv temp vec N ft fv).set vec N g = eigEnv temp vec N ft g := by
  funext x; unfold Env.set eigEnv
  by_cases e : x = vec
  · subst e; simp [hne.symm]
  · simp [e]

theorem inv_ldT (h : EigInv m0 temp vec N m) {i : Nat} (hi : i < N) : ∃ x, ldF temp (i:Int) m = .ok (x, m) := by
  obtain ⟨ft, fv, h1, h2, rfl⟩ := h
  exact ⟨_, arrs_ld eigEnv_t hi (h1 i hi)⟩

theorem inv_ldV (hne : temp ≠ vec) (h : EigInv m0 temp vec N m) {i : Nat} (hi : i < N) : ∃ x, ldF vec (i:Int) m = .ok (x, m) := by
  obtain ⟨ft, fv, h1, h2, rfl⟩ := h
  exact ⟨_, arrs_ld (eigEnv_v hne) hi (h2 i hi)⟩

theorem inv_stT (h : EigInv m0 temp vec N m) {i : Nat} (hi : i < N) (x : FV) (hx : f32.Good x) :
    ∃ m', stF temp (i:Int) x m = .ok ((), m') ∧ EigInv m0 temp vec N m' := by
  obtain ⟨ft, fv, h1, h2, rfl⟩ := h
  refine ⟨_, arrs_st eigEnv_t hi hx, _, fv, ?_, h2, by rw [eigEnv_set_t]⟩
  intro j hj
  beta_reduce
  split
  · exact f32_encode_lt hx
  · exact h1 j hj

theorem inv_stV (hne : temp ≠ vec) (h : EigInv m0 temp vec N m) {i : Nat} (hi : i < N) (x : FV) (hx : f32.Good x) :
    ∃ m', stF vec (i:Int) x m = .ok ((), m') ∧ EigInv m0 temp vec N m' := by
  obtain ⟨ft, fv, h1, h2, rfl⟩ := h
  refine ⟨_, arrs_st (eigEnv_v hne) hi hx, ft, _, h1, ?_, by rw [eigEnv_set_v hne]⟩
  intro j hj
  beta_reduce
  split
  · exact f32_encode_lt hx
  · exact h2 j hj

/-- a loop from `lo` that keeps an invariant -/
theorem forI_keep {lo hi : Nat} {body : Int → M Unit} (P : Mem → Prop)
    (h : ∀ i : Nat, lo ≤ i → i < hi → ∀ m, P m → ∃ m', body (i:Int) m = .ok ((), m') ∧ P m') {m : Mem} (h0 : P m) :
    ∃ m', forI (lo:Int) (hi:Int) body m = .ok ((), m') ∧ P m' := by
  by_cases c : hi ≤ lo
  · exact ⟨m, forA_empty (by omega) m, h0⟩
  · have key : ∀ r i m, i + r = hi → lo ≤ i → P m → ∃ m', forLoop (fun i (_ : Unit) => body i) r (i:Int) () m = .ok ((), m') ∧ P m' := by
      intro r
      induction r with
      | zero => intro i m _ _ hm; exact ⟨m, rfl, hm⟩
      | succ r ih =>
        intro i m hi hlo hm
        obtain ⟨m', e, p⟩ := h i hlo (by omega) m hm
        obtain ⟨m'', e2, p2⟩ := ih (i+1) m' (by omega) (by omega) p
        refine ⟨m'', ?_, p2⟩
        unfold forLoop
        rw [bind_ok e]
        exact e2
    obtain ⟨m', e, p⟩ := key (hi - lo) lo m (by omega) (le_refl _) h0
    refine ⟨m', ?_, p⟩
    unfold forI forA
    have : ((hi:Int) - (lo:Int)).toNat = hi - lo := by omega
    rw [this]
    exact e

/-- a loop with an accumulator that keeps an invariant -/
theorem forA_keep {σ : Type} {lo hi : Nat} {body : Int → σ → M σ} (P : σ → Mem → Prop)
    (h : ∀ i : Nat, lo ≤ i → i < hi → ∀ s m, P s m → ∃ s' m', body (i:Int) s m = .ok (s', m') ∧ P s' m') {m : Mem} {s : σ} (h0 : P s m) :
    ∃ s' m', forA (lo:Int) (hi:Int) s body m = .ok (s', m') ∧ P s' m' := by
  by_cases c : hi ≤ lo
  · exact ⟨s, m, forA_empty (by omega) m, h0⟩
  · have key : ∀ r i s m, i + r = hi → lo ≤ i → P s m → ∃ s' m', forLoop body r (i:Int) s m = .ok (s', m') ∧ P s' m' := by
      intro r
      induction r with
      | zero => intro i s m _ _ hm; exact ⟨s, m, rfl, hm⟩
      | succ r ih =>
        intro i s m hi hlo hm
        obtain ⟨s', m', e, p⟩ := h i hlo (by omega) s m hm
        obtain ⟨s'', m'', e2, p2⟩ := ih (i+1) s' m' (by omega) (by omega) p
        refine ⟨s'', m'', ?_, p2⟩
        unfold forLoop
        rw [bind_ok e]
        exact e2
    obtain ⟨s', m', e, p⟩ := key (hi - lo) lo s m (by omega) (le_refl _) h0
    refine ⟨s', m', ?_, p⟩
    unfold forA
    have : ((hi:Int) - (lo:Int)).toNat = hi - lo := by omega
    rw [this]
    exact e

theorem eigEliminate_safe (hn : n * n ≤ 2147483647) {i : Nat} (hi : i < n) (h : EigInv m0 temp vec (n * n) m) :
    ∃ m', eigEliminate temp n n i m = .ok ((), m') ∧ EigInv m0 temp vec (n * n) m' := by
  unfold eigEliminate
  rw [bind_ok (ev_mix hi hi rfl hn m)]
  obtain ⟨c, e⟩ := inv_ldT h (mix_lt hi hi)
  rw [bind_ok e]
  obtain ⟨m1, e1, h1⟩ := forI_keep (lo := 1) (hi := n) (body := fun j => do
    let p ← ev (CI.lit i * CI.lit n + CI.lit j)
    let x ← ldF temp p
    stF temp p (f32.div x c)) (EigInv m0 temp vec (n * n)) (by
      intro j _ hj m hm
      rw [bind_ok (ev_mix hi hj rfl hn m)]
      obtain ⟨x, e⟩ := inv_ldT hm (mix_lt hi hj)
      rw [bind_ok e]
      exact inv_stT hm (mix_lt hi hj) _ (good_div _ _ _)) h
  refine (bind_ok (Eq.trans rfl e1)).symm ▸ ?_
  have := forI_keep (lo := i + 1) (hi := n) (body := fun i1 => do
    let p ← ev (CI.lit i1 * CI.lit n + CI.lit i)
    let coe ← ldF temp p
    forI i n fun j1 => do
      let p ← ev (CI.lit i1 * CI.lit n + CI.lit j1)
      let p2 ← ev (CI.lit i * CI.lit n + CI.lit j1)
      let x ← ldF temp p
      let y ← ldF temp p2
      stF temp p (f32.sub x (f32.mul coe y))) (EigInv m0 temp vec (n * n)) (by
    intro i1 _ hi1 m hm
    rw [bind_ok (ev_mix hi1 hi rfl hn m)]
    obtain ⟨x, e⟩ := inv_ldT hm (mix_lt hi1 hi)
    rw [bind_ok e]
    refine forI_keep (lo := i) (hi := n) (EigInv m0 temp vec (n * n)) ?_ hm
    intro j _ hj m hm
    rw [bind_ok (ev_mix hi1 hj rfl hn m), bind_ok (ev_mix hi hj rfl hn m)]
    obtain ⟨x, e⟩ := inv_ldT hm (mix_lt hi1 hj)
    obtain ⟨y, e2⟩ := inv_ldT hm (mix_lt hi hj)
    rw [bind_ok e, bind_ok e2]
    exact inv_stT hm (mix_lt hi1 hj) _ (good_add _ _ _)) h1
  push_cast at this
  exact this

theorem eigBack_safe (hne : temp ≠ vec) (hn : n * n ≤ 2147483647) {i c : Nat} (hi : i < n) (hc : c < n) (s : FV) (h : EigInv m0 temp vec (n * n) m) :
    ∃ s' m', eigBack temp vec n c i s m = .ok (s', m') ∧ EigInv m0 temp vec (n * n) m' := by
  unfold eigBack
  obtain ⟨z, m1, e1, rfl⟩ := forA_keep (lo := i + 1) (hi := n) (s := FV.fin false 0) (body := fun j2 s => do
    let p ← ev (CI.lit i * CI.lit n + CI.lit j2)
    let q ← ev (CI.lit j2 * CI.lit n + CI.lit c)
    let x ← ldF temp p
    let y ← ldF vec q
    pure (f32.add s (f32.mul x y))) (fun _ m' => m' = m) (by
      rintro j _ hj s _ rfl
      rw [bind_ok (ev_mix hi hj rfl hn _), bind_ok (ev_mix hj hc rfl hn _)]
      obtain ⟨x, e⟩ := inv_ldT h (mix_lt hi hj)
      obtain ⟨y, e2⟩ := inv_ldV hne h (mix_lt hj hc)
      rw [bind_ok e, bind_ok e2]
      exact ⟨_, _, rfl, rfl⟩) rfl
  push_cast at e1
  rw [bind_ok e1, bind_ok (ev_mix hi hi rfl hn _)]
  obtain ⟨x, e⟩ := inv_ldT h (mix_lt hi hi)
  rw [bind_ok e]
  beta_reduce
  rw [bind_ok (ev_mix hi hc rfl hn _)]
  obtain ⟨m2, e2, h2⟩ := inv_stV hne h (mix_lt hi hc) (f32.div z.neg x) (good_div _ _ _)
  rw [bind_ok e2]
  exact ⟨_, _, rfl, h2⟩

theorem good_oneF : f32.Good (.fin false 1) := ⟨by exact_mod_cast rep32_int (n := 1) (by norm_num), fun _ => by simp⟩

/-- a copy of a whole array into the work array -/
theorem inv_copy {a : Nat} {A : Nat → Nat} (h1 : a ≠ temp) (h2 : a ≠ vec) (hA : HoldsN m0 a 4 N A) (h : EigInv m0 temp vec N m) :
    ∃ m', memcpy temp 0 a 0 ((N:Int) * 4) m = .ok ((), m') ∧ EigInv m0 temp vec N m' := by
  obtain ⟨ft, fv, e1, e2, rfl⟩ := h
  have hA' := arrs_none (m := m0) (eigEnv_o (N := N) (ft := ft) (fv := fv) h1 h2) hA
  have cp := memcpy_ok (doff := 0) (soff := 0) (k := N * 4) hA'.1 (arrs_holds (m := m0) (eigEnv_t (temp := temp) (vec := vec) (N := N) (ft := ft) (fv := fv))) h1
    (by omega) (by omega)
  have c : ((N * 4 : Nat) : Int) = (N:Int) * 4 := by push_cast; rfl
  rw [c] at cp
  refine ⟨_, cp, A, fv, hA.2, e2, ?_⟩
  refine (put_congr _ _ _ (g := encN 4 A) (by intro p hp; simp [hp])).trans ?_
  refine (arrs_putN (eigEnv_t (temp := temp) (vec := vec) (N := N) (ft := ft) (fv := fv))).trans ?_
  rw [eigEnv_set_t]

theorem eigColumn_safe {a val : Nat} {A V : Nat → Nat} (hne : temp ≠ vec) (h1 : a ≠ temp) (h2 : a ≠ vec) (h3 : val ≠ temp) (h4 : val ≠ vec)
    (hn : n * n ≤ 2147483647) (hA : HoldsN m0 a 4 (n * n) A) (hV : HoldsN m0 val 4 n V) {c : Nat} (hc : c < n) (h : EigInv m0 temp vec (n * n) m) :
    ∃ m', eigColumn a vec val temp n n c m = .ok ((), m') ∧ EigInv m0 temp vec (n * n) m' := by
  unfold eigColumn
  have lv : ldF val (c:Int) m = .ok (f32.decode (V c), m) := by
    obtain ⟨ft, fv, e1, e2, rfl⟩ := h
    unfold ldF
    rw [bind_ok ((arrs_none (eigEnv_o h3 h4) hV).load hc)]
    rfl
  have ez : ev (CI.lit (n:Int) * CI.lit (n:Int)) m = .ok (((n * n : Nat) : Int), m) := by
    refine ev_ok ?_ m
    rw [CI.mul_ok (by constructor <;> ((try norm_cast) <;> omega))]
    push_cast; rfl
  rw [bind_ok lv, bind_ok ez]
  obtain ⟨m1, r1, i1⟩ := inv_copy h1 h2 hA h
  rw [bind_ok r1]
  obtain ⟨m2, r2, i2⟩ := forI_keep (lo := 0) (hi := n) (body := fun i => do
    let p ← ev (CI.lit i * CI.lit n + CI.lit i)
    let x ← ldF temp p
    stF temp p (f32.sub x (f32.decode (V c)))) (EigInv m0 temp vec (n * n)) (by
      intro i _ hi m hm
      rw [bind_ok (ev_mix hi hi rfl hn m)]
      obtain ⟨x, e⟩ := inv_ldT hm (mix_lt hi hi)
      rw [bind_ok e]
      exact inv_stT hm (mix_lt hi hi) _ (good_add _ _ _)) i1
  refine (bind_ok (Eq.trans rfl r2)).symm ▸ ?_
  have en : (n:Int) - 1 = ((n - 1 : Nat) : Int) := by omega
  rw [en]
  obtain ⟨m3, r3, i3⟩ := forI_keep (lo := 0) (hi := n - 1) (body := fun i => eigEliminate temp n n i) (EigInv m0 temp vec (n * n)) (by
      intro i _ hi m hm
      exact eigEliminate_safe hn (by omega) hm) i2
  refine (bind_ok (Eq.trans rfl r3)).symm ▸ ?_
  have hl : n - 1 < n := by omega
  have e5 : ev ((CI.lit (n:Int) - 1) * CI.lit (n:Int) + CI.lit (c:Int)) m3 = .ok ((((n - 1) * n + c : Nat) : Int), m3) := by
    have : (CI.lit (n:Int) - 1 : CI) = CI.lit ((n - 1 : Nat) : Int) := by
      have h0 : n ≤ 2147483647 := le_trans (Nat.le_mul_self n) hn
      have : (CI.lit (n:Int) - CI.lit 1 : CI) = CI.lit ((n:Int) - 1) := CI.sub_ok (by constructor <;> omega)
      exact this.trans (by rw [en])
    rw [this]
    exact ev_mix hl hc rfl hn m3
  rw [bind_ok e5]
  obtain ⟨m4, r4, i4⟩ := inv_stV hne i3 (mix_lt hl hc) (.fin false 1) good_oneF
  rw [bind_ok r4]
  obtain ⟨z, m5, r5, i5⟩ := forA_keep (lo := 0) (hi := n - 1) (s := FV.fin false 1) (body := fun t s => eigBack temp vec n c ((n:Int) - 2 - t) s)
    (fun _ m => EigInv m0 temp vec (n * n) m) (by
      intro t _ ht s m hm
      have : (n:Int) - 2 - (t:Int) = ((n - 2 - t : Nat) : Int) := by omega
      beta_reduce
      rw [this]
      exact eigBack_safe hne hn (by omega) hc s hm) i4
  refine (bind_ok (Eq.trans rfl r5)).symm ▸ ?_
  beta_reduce
  refine forI_keep (lo := 0) (hi := n) (EigInv m0 temp vec (n * n)) ?_ i5
  intro i _ hi m hm
  rw [bind_ok (ev_mix hi hc rfl hn m)]
  obtain ⟨x, e⟩ := inv_ldV hne hm (mix_lt hi hc)
  rw [bind_ok e]
  exact inv_stV hne hm (mix_lt hi hc) _ (good_div _ _ _)

/-- for every square matrix the computation returns, changes nothing but the vectors and releases its work array -/
theorem eig_safe {a val : Nat} {A V F0 : Nat → Nat} (h1 : a ≠ vec) (h2 : val ≠ vec) (hw : ∀ x, m.next ≤ x → m.blk x = none)
    (hn : n * n ≤ 2147483647) (hA : HoldsN m a 4 (n * n) A) (hV : HoldsN m val 4 n V) (hF : HoldsN m vec 4 (n * n) F0) :
    ∃ m' F, cal_eigen_vector_float a vec val n n m = .ok ((), m') ∧ HoldsN m' vec 4 (n * n) F ∧
      m'.hm = m.hm ∧ m'.sm = m.sm ∧ ∀ x, x ≠ vec → m'.blk x = m.blk x := by
  have lt : ∀ {x k : Nat} {g : Nat → Nat}, HoldsN m x 4 k g → x < m.next := by
    intro x k g hx
    rcases Nat.lt_or_ge x m.next with c | c
    · exact c
    · have := hx.1; unfold Holds at this; rw [hw x c] at this; cases this
  have la := lt hA; have lv := lt hV; have lf := lt hF
  let m2 := (m.grow (n * n * 4) (m.junk m.next))
  have b2 : ∀ x, x < m.next → m2.blk x = m.blk x := by
    intro x hx
    exact grow_blk_ne _ _ _ (by omega)
  have frm : ∀ {x k : Nat} {g : Nat → Nat}, HoldsN m x 4 k g → HoldsN m2 x 4 k g := by
    intro x k g hx
    have hl := lt hx
    refine ⟨?_, hx.2⟩
    have := hx.1
    unfold Holds at this ⊢
    rw [b2 x hl]
    exact this
  obtain ⟨jt, k1, k2⟩ := holds_elems (m := m2) (h := m.next) (n := n * n) (g := m.junk m.next) (grow_holds m (n * n * 4) (m.junk m.next))
  have start : EigInv m2 m.next vec (n * n) m2 := by
    refine ⟨jt, F0, fun i _ => k2 i, hF.2, ?_⟩
    apply Mem.ext' <;> try rfl
    funext x
    unfold Mem.arrs eigEnv
    simp only []
    by_cases e1 : x = m.next
    · subst e1; have := k1.1; unfold Holds at this; simp [this]
    · by_cases e2 : x = vec
      · subst e2; have := (frm hF).1; unfold Holds at this; simp [e1, this]
      · simp [e1, e2]
  unfold cal_eigen_vector_float
  have ez : ev (CI.lit (n:Int) * CI.lit (n:Int)) m = .ok (((n * n : Nat) : Int), m) := by
    refine ev_ok ?_ m
    rw [CI.mul_ok (by constructor <;> ((try norm_cast) <;> omega))]
    push_cast; rfl
  have e4 : ((((n * n : Nat) : Int)) * 4).toNat = n * n * 4 := by omega
  rw [bind_ok ez, e4, bind_ok (malloc_run _ m)]
  obtain ⟨m3, r3, i3⟩ := forI_keep (lo := 0) (hi := n) (body := fun c => eigColumn a vec val m.next n n c) (EigInv m2 m.next vec (n * n)) (by
    intro c _ hc m' hm'
    exact eigColumn_safe (by omega) (by omega) h1 (by omega) h2 hn (frm hA) (frm hV) hc hm') start
  refine (bind_ok (Eq.trans rfl r3)).symm ▸ ?_
  obtain ⟨ft, fv, e1, e2, rfl⟩ := i3
  have hne : m.next ≠ vec := by omega
  rw [free_blk (arrs_holds (m := m2) (eigEnv_t (temp := m.next) (vec := vec) (N := n * n) (ft := ft) (fv := fv)))]
  refine ⟨_, fv, rfl, ⟨?_, e2⟩, rfl, rfl, ?_⟩
  · unfold Holds
    rw [setBlk_blk_ne _ _ hne.symm]
    exact arrs_holds (eigEnv_v hne)
  · intro x hx
    by_cases e : x = m.next
    · subst e
      rw [hw m.next (le_refl _)]
      simp [Mem.setBlk]
    · rw [setBlk_blk_ne _ _ e]
      unfold Mem.arrs
      simp only [eigEnv_o e hx]
      exact grow_blk_ne _ _ _ e

end HyperCV
