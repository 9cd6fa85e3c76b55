/- The principal component analysis. -/
import Verif.Model.Pca
import Verif.Spec.Pca
import Verif.Proof.Qr
import Verif.Proof.Eig
import Verif.Proof.Matrix
import Verif.Proof.Geometric
import Verif.Proof.Spectral
import Verif.Proof.Range
import Verif.Proof.Post
import Verif.Proof.Convert

namespace HyperCV
open Spec

/-! ### What the steps change -/

/-- the header of an image of `float`s -/
def fHdr (R C d : Nat) : SimpleMat := ⟨R, C, 4, 1, 4, d, true⟩

/-- `m'` has one more image -/
structure NewImg (m m' : Mem) (R C : Nat) (A : Nat → Nat) : Prop where
  hd : m'.sm (m.next + 1) = some (fHdr R C m.next)
  data : HoldsN m' m.next 4 (R * C) A
  blk : ∀ x, x ≠ m.next → m'.blk x = m.blk x
  sm : ∀ x, x ≠ m.next + 1 → m'.sm x = m.sm x
  hm : m'.hm = m.hm
  addr : m'.addr = m.addr
  next : m'.next = m.next + 2
  wf : m'.WF

/-- only the array `d` differs -/
structure Wrote (m m' : Mem) (d n : Nat) (A : Nat → Nat) : Prop where
  data : HoldsN m' d 4 n A
  blk : ∀ x, x ≠ d → m'.blk x = m.blk x
  sm : m'.sm = m.sm
  hm : m'.hm = m.hm
  addr : m'.addr = m.addr
  next : m'.next = m.next
  wf : m'.WF

theorem HoldsN.frame {m m' : Mem} {d w n : Nat} {A : Nat → Nat} (h : HoldsN m d w n A) (e : m'.blk d = m.blk d) : HoldsN m' d w n A := by
  refine ⟨?_, h.2⟩
  have := h.1
  unfold Holds at this ⊢
  rw [e]; exact this

theorem HoldsN.live {m : Mem} {d w n : Nat} {A : Nat → Nat} (h : HoldsN m d w n A) : m.blk d ≠ none := by
  have := h.1
  unfold Holds at this
  rw [this]; simp

theorem HoldsN.below {m : Mem} {d w n : Nat} {A : Nat → Nat} (hm : m.WF) (h : HoldsN m d w n A) : d < m.next := by
  by_contra c
  exact h.live (hm d (by omega)).1

theorem sm_below {m : Mem} {q : Nat} {h : SimpleMat} (hm : m.WF) (e : m.sm q = some h) : q < m.next := by
  by_contra c
  rw [(hm q (by omega)).2.2] at e; cases e

theorem wrote_putN {m : Mem} (hm : m.WF) {d n : Nat} {A B : Nat → Nat} (h : HoldsN m d 4 n A) (hB : ∀ i, i < n → B i < 256 ^ 4) :
    Wrote m (m.putN d 4 n B) d n B :=
  ⟨holdsN_putN m hB, fun x hx => setBlk_blk_ne m _ hx, rfl, rfl, rfl, rfl, put_WF hm (h.below hm)⟩

theorem newImg_of {m : Mem} (hm : m.WF) {R C : Nat} {f : Nat → UInt8} {A : Nat → Nat} (hf : ∀ p, p < R * C * 4 → f p = encN 4 A p)
    (hA : ∀ i, i < R * C → A i < 256 ^ 4) : NewImg m (m.newImage R C 4 1 4 f) R C A where
  hd := newImage_sm m R C 4 1 4 f
  data := by
    have := newImage_data m R C 4 1 4 f
    rw [Nat.mul_one] at this
    exact ⟨this.congr hf, hA⟩
  blk := fun x hx => newImage_blk_old m hx
  sm := fun x hx => newImage_sm_old m hx
  hm := rfl
  addr := rfl
  next := rfl
  wf := newImage_WF hm

theorem leByte_nil (t : Nat) : leByte 0 t = 0 := by
  unfold leByte
  simp

theorem create_new {m : Mem} (hm : m.WF) {R C : Nat} (hR : 0 < R) (hC : 0 < C) (hN : R * C * 4 ≤ 2147483551) :
    ∃ m', create_simple_mat R C 4 1 m = .ok (some (m.next + 1), m') ∧ NewImg m m' R C (fun _ => 0) := by
  refine ⟨_, create_sm_ok hR hC (by norm_num) (by rfl) (by rwa [Nat.mul_one]), newImg_of hm ?_ (fun _ _ => by norm_num)⟩
  intro p hp
  rw [if_pos hp]
  exact (leByte_nil _).symm

theorem isImage_of {m : Mem} {q d R C : Nat} {A : Nat → Nat} (hR : 0 < R) (hC : 0 < C) (h1 : m.sm q = some (fHdr R C d)) (h2 : HoldsN m d 4 (R * C) A) :
    IsImage m q R C 4 1 4 (fun i j _ t => leByte (A (i * C + j)) t) := by
  refine img_mk (by rfl) hR hC (by norm_num) h1 rfl rfl rfl rfl rfl ?_
  rw [show (fHdr R C d).data = d from rfl, Nat.mul_one]
  apply h2.1.congr
  intro p hp
  obtain ⟨i, j, c, t, hi, hj, hc, ht, rfl⟩ := img_cover (R := R) (C := C) (ch := 1) (E := 4) (p := p) (by rwa [Nat.mul_one])
  obtain rfl : c = 0 := by omega
  rw [imgBytes_at hj hc ht, encN_at _ ht]
  simp

theorem copy_new {m : Mem} (hm : m.WF) {q d R C : Nat} {A : Nat → Nat} (hR : 0 < R) (hC : 0 < C) (h1 : m.sm q = some (fHdr R C d))
    (h2 : HoldsN m d 4 (R * C) A) (hN : R * C * 4 ≤ 2147483551) :
    ∃ m', simple_mat_copy (some q) m = .ok (some (m.next + 1), m') ∧ NewImg m m' R C A := by
  refine ⟨_, copy_sm_ok hm (isImage_of hR hC h1 h2) (by rwa [Nat.mul_one]), newImg_of hm ?_ h2.2⟩
  intro p hp
  obtain ⟨i, j, c, t, hi, hj, hc, ht, rfl⟩ := img_cover (R := R) (C := C) (ch := 1) (E := 4) (p := p) (by rwa [Nat.mul_one])
  obtain rfl : c = 0 := by omega
  rw [imgBytes_at hj hc ht, encN_at _ ht]
  simp

/-! ### The products -/

/-- the bits of a running sum of products -/
def mulBits (z : Nat) (x y : Nat → Nat) : Nat → Nat
  | 0 => z
  | n+1 => f32.encode (f32.add (f32.decode (mulBits z x y n)) (f32.mul (f32.decode (x n)) (f32.decode (y n))))

theorem mulBits_lt {z : Nat} {x y : Nat → Nat} (hz : z < 256 ^ 4) : ∀ n, mulBits z x y n < 256 ^ 4
  | 0 => hz
  | _+1 => f32_encode_lt (good_add _ _ _)

theorem mulBits_dec {z : Nat} {x y : Nat → Nat} : ∀ n, f32.decode (mulBits z x y n) =
    productSum (f32.decode z) (fun t => f32.decode (x t)) (fun t => f32.decode (y t)) n
  | 0 => rfl
  | n+1 => by
    unfold mulBits productSum
    rw [f32_dec_enc (good_add _ _ _), mulBits_dec n]

theorem product_run {m : Mem} (hm : m.WF) {x y z M K N : Nat} {X Y Z : Nat → Nat} (hx : HoldsN m x 4 (M * K) X) (hy : HoldsN m y 4 (K * N) Y)
    (hz : HoldsN m z 4 (M * N) Z) (hxz : x ≠ z) (hyz : y ≠ z) (hK : 0 < K) (hN : 0 < N)
    (b1 : M * K ≤ 2147483647) (b2 : K * N ≤ 2147483647) (b3 : M * N ≤ 2147483647) :
    ∃ m', MulMatrix_float x y z M K N m = .ok ((), m') ∧
      Wrote m m' z (M * N) (fun p => mulBits (Z p) (fun t => X (p / N * K + t)) (fun t => Y (t * N + p % N)) K) := by
  have flat : ∀ {d R C : Nat} {A : Nat → Nat}, 0 < C → HoldsN m d 4 (R * C) A → HoldsM m d 4 R C (fun i j => A (i * C + j)) := by
    intro d R C A hC h
    refine ⟨h.1.congr ?_, ?_⟩
    · intro p _
      unfold encN fl
      beta_reduce
      rw [Nat.div_add_mod']
    · intro i hi
      unfold fl
      beta_reduce
      rw [Nat.div_add_mod']
      exact h.2 i hi
  have hS := mul_run (mac := macFloat f32) (S := fun i j t => mulBits (Z (i * N + j)) (fun t => X (i * K + t)) (fun t => Y (t * N + j)) t)
    (flat hK hx) (flat hN hy) (flat hN hz) hxz hyz b1 b2 b3 (fun _ _ _ _ => rfl) (fun _ _ _ _ _ _ => rfl)
    (fun i j t hi hj _ => mulBits_lt (hz.2 _ (flat_lt hi hj)) t)
  refine ⟨_, hS, ?_⟩
  unfold Mem.putM
  have e : m.putN z 4 (M * N) (fl N fun i j => mulBits (Z (i * N + j)) (fun t => X (i * K + t)) (fun t => Y (t * N + j)) K) =
      m.putN z 4 (M * N) (fun p => mulBits (Z p) (fun t => X (p / N * K + t)) (fun t => Y (t * N + p % N)) K) := by
    apply putN_congr
    intro p _
    unfold fl
    beta_reduce
    rw [Nat.div_add_mod']
  rw [e]
  exact wrote_putN hm hz (fun i hi => mulBits_lt (hz.2 i hi) _)

/-! ### What is never disturbed -/

/-- the handles above `next` are free, the addresses are `α` and at least `k` handles have been used -/
def Tidy (α : Nat → Nat) (k : Nat) (m : Mem) : Prop := m.WF ∧ m.addr = α ∧ k ≤ m.next

/-- the same with exactly `k` handles -/
def TidyE (α : Nat → Nat) (k : Nat) (m : Mem) : Prop := m.WF ∧ m.addr = α ∧ m.next = k

theorem setBlk_WF {m : Mem} (hm : m.WF) {d : Nat} {b : Option (List UInt8)} (hd : m.blk d ≠ none) : (m.setBlk d b).WF := by
  intro x hx
  have hx' : m.next ≤ x := hx
  refine ⟨?_, (hm x hx').2.1, (hm x hx').2.2⟩
  have : x ≠ d := by
    rintro rfl
    exact hd (hm x hx').1
  rw [setBlk_blk_ne _ _ this]
  exact (hm x hx').1

theorem tidy_writable {α : Nat → Nat} {k d : Nat} : Writable (Tidy α k) d := by
  rintro m l i v ⟨h1, h2, h3⟩ hd
  exact ⟨setBlk_WF h1 (by rw [hd]; simp), h2, h3⟩

theorem tidyE_writable {α : Nat → Nat} {k d : Nat} : Writable (TidyE α k) d := by
  rintro m l i v ⟨h1, h2, h3⟩ hd
  exact ⟨setBlk_WF h1 (by rw [hd]; simp), h2, h3⟩

theorem tidy_malloc {α : Nat → Nat} {k n : Nat} : Keeps (Tidy α k) (malloc n) := by
  rintro m a m' ⟨h1, h2, h3⟩ e
  rw [malloc_run] at e
  cases e
  exact ⟨grow_WF h1 _ _, h2, by rw [grow_next]; omega⟩

theorem tidy_free {α : Nat → Nat} {k h : Nat} : Keeps (Tidy α k) (free h) := by
  rintro m a m' ⟨h1, h2, h3⟩ e
  unfold free at e
  cases hb : m.blk h with
  | none => rw [hb] at e; cases e
  | some l =>
    rw [hb] at e
    cases e
    exact ⟨setBlk_WF h1 (by rw [hb]; simp), h2, h3⟩

theorem Keeps.fail {α : Type} {I : Mem → Prop} {e : Err} : Keeps I (HyperCV.fail e : M α) := fun _ _ _ _ h => by cases h

theorem keeps_ldF {I : Mem → Prop} {a : Nat} {i : Int} : Keeps I (ldF a i) := Keeps.bind Keeps.loadN fun _ => Keeps.pure

theorem keeps_stF {I : Mem → Prop} {a : Nat} {i : Int} {v : FV} (h : Writable I a) : Keeps I (stF a i v) := Keeps.storeN h

theorem keeps_memcpy {I : Mem → Prop} {d s : Nat} {i j n : Int} (h : Writable I d) : Keeps I (memcpy d i s j n) := by
  unfold memcpy
  split
  · exact Keeps.fail
  · split
    · exact Keeps.fail
    · exact Keeps.forI fun _ => Keeps.bind Keeps.load fun _ => Keeps.store h

macro "keeps" : tactic => `(tactic| repeat (first
  | exact Keeps.pure | exact Keeps.ev | exact Keeps.loadN | exact Keeps.load | exact keeps_ldF
  | exact keeps_stF tidy_writable | exact Keeps.storeN tidy_writable | exact Keeps.store tidyE_writable
  | exact tidy_malloc | exact tidy_free | exact keeps_memcpy tidy_writable
  | refine Keeps.bind ?_ (fun _ => ?_) | refine Keeps.forI (fun _ => ?_) | refine Keeps.forA (fun _ _ => ?_)))

theorem qr_tidy {α : Nat → Nat} {k a q r : Nat} {n : Int} : Keeps (Tidy α k) (matrix_QR_float a q r n) := by
  unfold matrix_QR_float qrColumn qrProject matrix_norm_float
  keeps

theorem eig_tidy {α : Nat → Nat} {k a q r : Nat} {n n' : Int} : Keeps (Tidy α k) (cal_eigen_vector_float a q r n n') := by
  unfold cal_eigen_vector_float eigColumn eigEliminate eigBack
  keeps

theorem transport_tidy {α : Nat → Nat} {k : Nat} {p q : Nat} : Keeps (TidyE α k) (simple_mat_transport (some p) (some q)) := by
  unfold simple_mat_transport
  refine Keeps.bind (Keeps.reads fun m a m' h => ?_) fun r => Keeps.bind (Keeps.reads fun m a m' h => ?_) fun s =>
    Keeps.bind (Keeps.reads fun m a m' h => ?_) fun _ => ?_
  · change getS p m = _ at h; unfold getS at h; cases hs : m.sm p <;> rw [hs] at h <;> cases h; rfl
  · change getS q m = _ at h; unfold getS at h; cases hs : m.sm q <;> rw [hs] at h <;> cases h; rfl
  · unfold cassert at h; split at h
    · cases h; rfl
    · cases h
  · keeps

/-! ### The covariances -/

theorem centre_run {m : Mem} (hm : m.WF) {x mn S L B : Nat} {X A : Nat → Nat} (hx : HoldsN m x 4 (S * L * B) X) (hA : HoldsN m mn 4 (S * L) A)
    (hne : mn ≠ x) (hB : 0 < B) (hN : S * L * B ≤ 2147483647) :
    ∃ m', pcaCentre x mn S L B m = .ok ((), m') ∧
      Wrote m m' x (S * L * B) (fun p => f32.encode (f32.sub (f32.decode (X p)) (f32.decode (A (p / B))))) := by
  have hSL : S * L ≤ 2147483647 := le_trans (Nat.le_mul_of_pos_right _ hB) hN
  let Y : Nat → Nat := fun p => f32.encode (f32.sub (f32.decode (X p)) (f32.decode (A (p / B))))
  have hY : ∀ p, Y p < 256 ^ 4 := fun p => f32_encode_lt (good_sub _ _ _)
  let Z : Nat → Nat → Nat := fun k p => if p < k then Y p else X p
  have hZ : ∀ k, ∀ i, i < S * L * B → Z k i < 256 ^ 4 := by
    intro k i hi
    show (if i < k then Y i else X i) < _
    split
    · exact hY i
    · exact hx.2 i hi
  have run : pcaCentre x mn S L B m = .ok ((), m.putN x 4 (S * L * B) (Z (S * L * B))) := by
    unfold pcaCentre
    rw [bind_ok (ev_ok (eval_prod2 hSL) m)]
    have key := forI_run (n := S * L) (body := fun i => forI 0 (B:Int) fun j => do
      let p ← ev (CI.lit i * CI.lit (B:Int) + CI.lit j)
      let a ← ldF x p
      let b ← ldF mn i
      stF x p (f32.sub a b)) (fun i => m.putN x 4 (S * L * B) (Z (i * B))) (by
      intro i hi
      have key2 := forI_run (n := B) (body := fun j => do
        let p ← ev (CI.lit (i:Int) * CI.lit (B:Int) + CI.lit j)
        let a ← ldF x p
        let b ← ldF mn i
        stF x p (f32.sub a b)) (fun j => m.putN x 4 (S * L * B) (Z (i * B + j))) (by
        intro j hj
        beta_reduce
        rw [bind_ok (ev_mix hi hj rfl hN _)]
        have l1 : ldF x ((i * B + j : Nat) : Int) (m.putN x 4 (S * L * B) (Z (i * B + j))) = .ok (f32.decode (X (i * B + j)), m.putN x 4 (S * L * B) (Z (i * B + j))) := by
          unfold ldF
          rw [bind_ok ((holdsN_putN m (hZ _)).load (mix_lt hi hj))]
          show Except.ok (f32.decode (if i * B + j < i * B + j then _ else _), _) = _
          rw [if_neg (by omega)]
        have l2 : ldF mn (i:Int) (m.putN x 4 (S * L * B) (Z (i * B + j))) = .ok (f32.decode (A i), m.putN x 4 (S * L * B) (Z (i * B + j))) := by
          unfold ldF
          rw [bind_ok ((hA.putN_ne hne).load hi)]
          rfl
        rw [bind_ok l1, bind_ok l2]
        unfold stF
        rw [storeN_put (mix_lt hi hj)]
        refine congrArg (fun x => Except.ok ((), x)) (putN_congr m ?_)
        intro p _
        show (if p = i * B + j then _ else if p < i * B + j then Y p else X p) = if p < i * B + (j + 1) then Y p else X p
        by_cases e : p = i * B + j
        · rw [if_pos e, if_pos (by omega), e, Nat.mod_eq_of_lt (f32_encode_lt (good_sub _ _ _))]
          show _ = f32.encode (f32.sub (f32.decode (X (i * B + j))) (f32.decode (A ((i * B + j) / B))))
          rw [mix_div hj]
        · rw [if_neg e]
          by_cases c : p < i * B + j
          · rw [if_pos c, if_pos (by omega)]
          · rw [if_neg c, if_neg (by omega)])
      rw [Nat.add_zero] at key2
      rw [show (i + 1) * B = i * B + B by ring]
      exact key2)
    rw [Nat.zero_mul] at key
    have e0 : m.putN x 4 (S * L * B) (Z 0) = m := by
      have : m.putN x 4 (S * L * B) (Z 0) = m.putN x 4 (S * L * B) X := putN_congr m fun p _ => if_neg (Nat.not_lt_zero p)
      rw [this]; exact hx.put_self
    rw [e0] at key
    exact key
  refine ⟨_, run, ?_⟩
  have e : m.putN x 4 (S * L * B) (Z (S * L * B)) = m.putN x 4 (S * L * B) Y := putN_congr m fun p hp => if_pos hp
  rw [e]
  exact wrote_putN hm hx (fun p _ => hY p)

theorem transposed {m : Mem} (hm : m.WF) {rp sp dr ds R C : Nat} {A A' : Nat → Nat} (hR : 0 < R) (hC : 0 < C)
    (h1 : m.sm rp = some (fHdr C R dr)) (h2 : HoldsN m dr 4 (C * R) A') (h3 : m.sm sp = some (fHdr R C ds)) (h4 : HoldsN m ds 4 (R * C) A)
    (hne : ds ≠ dr) (hN : R * C * 4 ≤ 2147483647) :
    ∃ m', simple_mat_transport (some rp) (some sp) m = .ok ((), m') ∧ Wrote m m' dr (C * R) (fun p => A (p % R * C + p / R)) := by
  have sep : SepPixels m sp rp := by
    rintro x ⟨⟨a, e1, e2⟩, b, e3, e4⟩
    rw [h3] at e1; cases e1
    rw [h1] at e3; cases e3
    exact hne (e2.symm.trans e4)
  obtain ⟨m', r1, r2, r3⟩ := transport_run (isImage_of hC hR h1 h2) (isImage_of hR hC h3 h4) sep hN
  obtain ⟨t1, t2, t3⟩ := transport_tidy (α := m.addr) (k := m.next) m _ m' ⟨hm, rfl, rfl⟩ r1
  refine ⟨m', r1, ?_, ?_, r3.2.1, r3.1, t2, t3, t1⟩
  · have hI : IsImageN m' rp C R 4 1 4 (fun i j _ => A (j * C + i)) := ⟨r2, fun i j c hi hj _ => h4.2 _ (flat_lt hj hi)⟩
    obtain ⟨d, inl, e1, e2⟩ := imgN_open hI
    rw [r3.2.1, h1] at e1
    cases e1
    refine ⟨?_, ?_⟩
    · have := e2.1
      rw [Nat.mul_one] at this
      apply this.congr
      intro p _
      unfold encN pxF
      simp
    · intro p hp
      obtain ⟨g1, g2, _⟩ := flat_split hp
      exact h4.2 _ (flat_lt g2 g1)
  · intro x hx
    apply r3.2.2.2
    rintro ⟨h, e1, e2⟩
    rw [h1] at e1; cases e1
    exact hx e2

theorem deleted {m : Mem} (hm : m.WF) (ha : GoodAddresses m) {q R C d : Nat} (h : m.sm q = some (fHdr R C d)) :
    ∃ m', delete_simple_mat (some q) m = .ok ((), m') ∧ m'.blk d = none ∧ (∀ x, x ≠ d → m'.blk x = m.blk x) ∧ m'.sm q = none ∧
      (∀ x, x ≠ q → m'.sm x = m.sm x) ∧ m'.hm = m.hm ∧ m'.addr = m.addr ∧ m'.next = m.next ∧ m'.WF := by
  refine ⟨_, delete_sm_run h rfl (ha q).1 (ha q).2, ?_, ?_, ?_, ?_, rfl, rfl, rfl, ?_⟩
  · show (if d = d ∧ true = true then none else _) = none
    rw [if_pos ⟨rfl, rfl⟩]
  · intro x hx
    exact if_neg fun c => hx c.1
  · exact if_pos rfl
  · intro x hx
    exact if_neg hx
  · intro x hx
    have hx' : m.next ≤ x := hx
    refine ⟨?_, (hm x hx').2.1, ?_⟩
    · show (if _ then none else m.blk x) = none
      split
      · rfl
      · exact (hm x hx').1
    · show (if _ then none else m.sm x) = none
      split
      · rfl
      · exact (hm x hx').2.2

theorem mulBits_congr {z : Nat} {x y x' y' : Nat → Nat} : ∀ {n : Nat}, (∀ t, t < n → x t = x' t) → (∀ t, t < n → y t = y' t) →
    mulBits z x y n = mulBits z x' y' n
  | 0, _, _ => rfl
  | n+1, h1, h2 => by
    unfold mulBits
    rw [mulBits_congr (n := n) (fun t ht => h1 t (by omega)) (fun t ht => h2 t (by omega)), h1 n (by omega), h2 n (by omega)]

/-- the pixels, centred -/
def centred (B : Nat) (X A : Nat → Nat) (p : Nat) : Nat := f32.encode (f32.sub (f32.decode (X p)) (f32.decode (A (p / B))))

theorem cov_run {m : Mem} (hm : m.WF) (ha : GoodAddresses m) {qm qx qc dm dx dc S L B : Nat} {A X C : Nat → Nat} (hS : 0 < S) (hL : 0 < L) (hB : 0 < B)
    (s1 : m.sm qm = some (fHdr L S dm)) (h1 : HoldsN m dm 4 (S * L) A) (s2 : m.sm qx = some (fHdr (S * L) B dx)) (h2 : HoldsN m dx 4 (S * L * B) X)
    (s3 : m.sm qc = some (fHdr B B dc)) (h3 : HoldsN m dc 4 (B * B) C) (n1 : dm ≠ dx) (n3 : dx ≠ dc)
    (b1 : S * L * B * 4 ≤ 2147483551) (b2 : B * B ≤ 2147483647) :
    ∃ m' D, cal_covariance_matrix (some qx) (some qm) (some qc) m = .ok ((), m') ∧ HoldsN m' dx 4 (S * L * B) (centred B X A) ∧
      HoldsN m' dc 4 (B * B) D ∧ (∀ x, x ≠ dx → x ≠ dc → m'.blk x = m.blk x) ∧ m'.sm = m.sm ∧ m'.hm = m.hm ∧ m'.addr = m.addr ∧
      m'.next = m.next + 2 ∧ m'.WF ∧
      D = (fun p => mulBits (C p) (fun t => centred B X A (t * B + p / B)) (fun t => centred B X A (t * B + p % B)) (S * L)) := by
  have hSL : 0 < S * L := Nat.mul_pos hS hL
  obtain ⟨m1, r1, w1⟩ := centre_run hm h2 h1 n1 hB (by omega)
  have hnx := h2.below hm; have hnc := h3.below hm; have hnm := h1.below hm
  have hqx := sm_below hm s2
  obtain ⟨m2, r2, w2⟩ := create_new w1.wf hB hSL (by rw [Nat.mul_comm B]; exact b1)
  have e1 := w1.next
  have x2 : HoldsN m2 dx 4 (S * L * B) (centred B X A) := w1.data.frame (w2.blk dx (by omega))
  obtain ⟨m3, r3, w3⟩ := transposed w2.wf hSL hB w2.hd w2.data ((w2.sm qx (by omega)).trans (by rw [w1.sm]; exact s2)) x2 (by omega) (by omega)
  have x3 : HoldsN m3 dx 4 (S * L * B) (centred B X A) := x2.frame (w3.blk dx (by omega))
  have c3 : HoldsN m3 dc 4 (B * B) C := ((h3.frame (w1.blk dc n3.symm)).frame (w2.blk dc (by omega))).frame (w3.blk dc (by omega))
  obtain ⟨m4, r4, w4⟩ := product_run w3.wf w3.data x3 c3 (by omega) n3 hSL hB (by rw [Nat.mul_comm B]; omega) (by omega) b2
  have hd4 : m4.sm (m1.next + 1) = some (fHdr B (S * L) m1.next) := by rw [w4.sm, w3.sm]; exact w2.hd
  have a4 : m4.addr = m.addr := by rw [w4.addr, w3.addr, w2.addr, w1.addr]
  obtain ⟨m5, r5, f1, f2, f3, f4, f5, f6, f7, f8⟩ := deleted w4.wf (by unfold GoodAddresses; rw [a4]; exact ha) hd4
  refine ⟨m5, _, ?_, ?_, ?_, ?_, ?_, ?_, ?_, ?_, f8, rfl⟩
  · unfold cal_covariance_matrix
    rw [bind_ok (show derefS (some qm) m = _ from getS_ok s1), bind_ok (show derefS (some qx) m = _ from getS_ok s2),
      bind_ok (show derefS (some qc) m = _ from getS_ok s3)]
    show (pcaCentre dx dm S L B >>= _) m = _
    rw [bind_ok r1]
    have ez : ev (CI.lit ((fHdr L S dm).cols) * CI.lit ((fHdr L S dm).rows)) m1 = .ok (((S * L : Nat) : Int), m1) :=
      ev_ok (eval_prod2 (by have : S * L ≤ S * L * B := Nat.le_mul_of_pos_right _ hB
                            omega)) m1
    rw [bind_ok ez]
    refine (bind_ok r2).trans ?_
    rw [bind_ok r3]
    have hd3 : m3.sm (m1.next + 1) = some (fHdr B (S * L) m1.next) := by rw [w3.sm]; exact w2.hd
    rw [bind_ok (show derefS (some (m1.next + 1)) m3 = _ from getS_ok hd3)]
    have ez2 : ev (CI.lit ((fHdr L S dm).rows) * CI.lit ((fHdr L S dm).cols)) m3 = .ok (((S * L : Nat) : Int), m3) := by
      rw [Nat.mul_comm S L]
      refine ev_ok (eval_prod2 ?_) m3
      have : S * L ≤ S * L * B := Nat.le_mul_of_pos_right _ hB
      rw [Nat.mul_comm]; omega
    rw [bind_ok ez2]
    exact (bind_ok r4).trans r5
  · exact (x3.frame (w4.blk dx n3)).frame (f2 dx (by omega))
  · refine ⟨?_, fun i hi => mulBits_lt (h3.2 i hi) _⟩
    have := (w4.data.frame (f2 dc (by omega))).1
    apply this.congr
    intro p hp
    have hp4 : p / 4 < B * B := by omega
    obtain ⟨g1, g2, _⟩ := flat_split hp4
    unfold encN
    beta_reduce
    rw [mulBits_congr (x' := fun t => centred B X A (t * B + p / 4 / B)) (y' := fun t => centred B X A (t * B + p / 4 % B)) ?_ (fun _ _ => rfl)]
    intro t ht
    beta_reduce
    rw [mix_mod ht, mix_div ht]
  · intro x hx1 hx2
    by_cases e : x = m1.next
    · rw [e, f1, e1]
      exact ((hm m.next (le_refl _)).1).symm
    · rw [f2 x e, w4.blk x hx2, w3.blk x e, w2.blk x e, w1.blk x hx1]
  · funext x
    by_cases e : x = m1.next + 1
    · rw [e, f3, e1]
      exact ((hm (m.next + 1) (by omega)).2.2).symm
    · rw [f4 x e, w4.sm, w3.sm, w2.sm x e, w1.sm]
  · rw [f5, w4.hm, w3.hm, w2.hm, w1.hm]
  · rw [f6, a4]
  · rw [f7, w4.next, w3.next, w2.next, e1]

/-! ### The iteration -/

theorem forI_upto {n : Nat} {body : Int → M Unit} (P : Nat → Mem → Prop)
    (h : ∀ i : Nat, i < n → ∀ m, P i m → ∃ m', body (i:Int) m = .ok ((), m') ∧ P (i+1) m') {m : Mem} (h0 : P 0 m) :
    ∃ m', forI 0 (n:Int) body m = .ok ((), m') ∧ P n m' := by
  have key : ∀ r i m, i + r = n → P i m → ∃ m', forLoop (fun i (_ : Unit) => body i) r (i:Int) () m = .ok ((), m') ∧ P n m' := by
    intro r
    induction r with
    | zero =>
      intro i m hi hm
      obtain rfl : i = n := by omega
      exact ⟨m, rfl, hm⟩
    | succ r ih =>
      intro i m hi hm
      obtain ⟨m', e, p⟩ := h i (by omega) m hm
      obtain ⟨m'', e2, p2⟩ := ih (i+1) m' (by omega) p
      refine ⟨m'', ?_, p2⟩
      unfold forLoop
      exact (bind_ok e).trans e2
  obtain ⟨m', e, p⟩ := key n 0 m (by omega) h0
  refine ⟨m', ?_, p⟩
  unfold forI forA
  simpa using e

/-- after `i` rounds -/
structure Rounds (m m' : Mem) (t q r B i : Nat) : Prop where
  ht : ∃ T, HoldsN m' t 4 (B * B) T
  hq : ∃ T, HoldsN m' q 4 (B * B) T
  hr : ∃ T, HoldsN m' r 4 (B * B) T
  blk : ∀ x, x ≠ t → x ≠ q → x ≠ r → x < m.next → m'.blk x = m.blk x
  lost : ∀ x, m.next ≤ x → x < m.next + 2 * i → m'.blk x ≠ none
  sm : m'.sm = m.sm
  hm : m'.hm = m.hm
  addr : m'.addr = m.addr
  next : m'.next = m.next + 2 * i
  wf : m'.WF

theorem rounds_pca {m : Mem} (hm : m.WF) {t q r B it : Nat} {T Q R : Nat → Nat} (hB : 0 < B) (h1 : HoldsN m t 4 (B * B) T) (h2 : HoldsN m q 4 (B * B) Q)
    (h3 : HoldsN m r 4 (B * B) R) (n1 : t ≠ q) (n2 : t ≠ r) (n3 : q ≠ r) (b2 : B * B ≤ 2147483647) :
    ∃ m', (forI 0 (it:Int) fun _ => pcaRound t q r B) m = .ok ((), m') ∧ Rounds m m' t q r B it := by
  have lt := h1.below hm; have lq := h2.below hm; have lr := h3.below hm
  refine forI_upto (fun i m' => Rounds m m' t q r B i) ?_
    ⟨⟨_, h1⟩, ⟨_, h2⟩, ⟨_, h3⟩, fun _ _ _ _ _ => rfl, fun x h4 h5 => by omega, rfl, rfl, rfl, rfl, hm⟩
  rintro i hi m1 ⟨⟨T1, g1⟩, ⟨Q1, g2⟩, ⟨R1, g3⟩, k1, k2, k3, k4, k5, k6, k7⟩
  obtain ⟨m2, fa, fc, r2, q2, r2', a2, c2, hm2, sm2, nx2, bl2⟩ := qr_run n1 n2 n3 (fun x hx => (k7 x hx).1) b2 g1 g2 g3
  obtain ⟨t1, t2, _⟩ := qr_tidy (α := m1.addr) (k := m1.next) m1 _ m2 ⟨k7, rfl, le_refl _⟩ r2
  have t3 : HoldsN m2 t 4 (B * B) T1 := g1.frame (bl2 t n1 n2 (by omega))
  obtain ⟨m3, r3, w3⟩ := product_run t1 q2 r2' t3 n1.symm n2.symm hB hB b2 b2 b2
  refine ⟨m3, (bind_ok r2).trans r3, ⟨_, w3.data⟩, ⟨_, q2.frame (w3.blk q n1.symm)⟩, ⟨_, r2'.frame (w3.blk r n2.symm)⟩, ?_, ?_, ?_, ?_, ?_, ?_, w3.wf⟩
  · intro x x1 x2 x3 x4
    rw [w3.blk x x1, bl2 x x2 x3 (by omega), k1 x x1 x2 x3 x4]
  · intro x x1 x2
    rw [w3.blk x (by omega)]
    by_cases e1 : x < m1.next
    · rw [bl2 x (by omega) (by omega) e1]
      exact k2 x x1 (by omega)
    · by_cases e2 : x = m1.next
      · rw [e2]; exact a2.live
      · rw [show x = m1.next + 1 by omega]; exact c2.live
  · rw [w3.sm, sm2, k3]
  · rw [w3.hm, hm2, k4]
  · rw [w3.addr, t2, k5]
  · rw [w3.next, nx2, k6]; omega

/-! ### The eigenvalues -/

theorem sort_safe {m : Mem} (hm : m.WF) {a n : Nat} {v : Nat → Nat} (h : HoldsN m a 4 n v) (hn0 : 0 < n) (hn : n ≤ 2147483647) :
    ∃ m' v', sort_array_down_float a n m = .ok ((), m') ∧ Wrote m m' a n v' := by
  let P : Mem → Prop := fun m' => ∃ v', (∀ i, i < n → v' i < 256 ^ 4) ∧ m' = m.putN a 4 n v'
  have step : ∀ (j : Nat) (f : Bool) m', j + 1 < n → P m' → ∃ f' m'', sortStep a j f m' = .ok (f', m'') ∧ P m'' := by
    rintro j f m' hj ⟨v', hv, rfl⟩
    have H := holdsN_putN (h := a) m hv
    unfold sortStep
    rw [bind_ok (H.load (show j < n by omega)), bind_ok (by exact_mod_cast H.load hj)]
    split
    · rw [bind_ok (storeN_put (show j < n by omega))]
      have := storeN_put (m := m) (h := a) (w := 4) (n := n) (i := j + 1) (v := v' j) (a := fun k => if k = j then v' (j+1) % 256 ^ 4 else v' k) hj
      rw [Nat.cast_add, Nat.cast_one] at this
      rw [bind_ok this]
      refine ⟨false, _, rfl, _, ?_, rfl⟩
      intro i hi
      beta_reduce
      split
      · exact Nat.mod_lt _ (by norm_num)
      · split
        · exact Nat.mod_lt _ (by norm_num)
        · exact hv i hi
    · exact ⟨f, _, rfl, v', hv, rfl⟩
  have rounds : ∀ r (i : Nat) m', i + r + 1 ≤ n → P m' → ∃ m'', sortRounds a n r i m' = .ok ((), m'') ∧ P m'' := by
    intro r
    induction r with
    | zero => intro i m' _ hp; exact ⟨m', rfl, hp⟩
    | succ r ih =>
      intro i m' hi hp
      unfold sortRounds
      obtain ⟨f, m1, e1, p1⟩ := forA_keep (lo := 0) (hi := n - i - 1) (s := true) (body := fun j f => sortStep a j f) (fun _ m' => P m')
        (fun j _ hj f m' hp => step j f m' (by omega) hp) hp
      rw [show ((n - i - 1 : Nat) : Int) = (n:Int) - (i:Int) - 1 by omega] at e1
      have e1' : forA 0 ((n:Int) - (i:Int) - 1) true (fun j f => sortStep a j f) m' = .ok (f, m1) := e1
      rw [bind_ok e1']
      split
      · exact ⟨m1, rfl, p1⟩
      · obtain ⟨m2, e2, p2⟩ := ih (i+1) m1 (by omega) p1
        exact ⟨m2, by exact_mod_cast e2, p2⟩
  obtain ⟨m', e, v', hv, rfl⟩ := rounds (n - 1) 0 m (by omega) ⟨v, h.2, h.put_self.symm⟩
  refine ⟨_, v', ?_, wrote_putN hm h hv⟩
  unfold sort_array_down_float
  have : (CI.lit (n:Int) - CI.lit 1 : CI) = CI.lit ((n:Int) - 1) := CI.sub_ok (by constructor <;> omega)
  rw [bind_ok (ev_ok this m)]
  rw [show ((n:Int) - 1).toNat = n - 1 by omega]
  exact e

theorem diagonal_run {m : Mem} (hm : m.WF) {e t B : Nat} {E T : Nat → Nat} (hE : HoldsN m e 4 B E) (hT : HoldsN m t 4 (B * B) T) (hne : t ≠ e)
    (b2 : B * B ≤ 2147483647) : ∃ m', pcaDiagonal e t B m = .ok ((), m') ∧ Wrote m m' e B (fun k => T (k * B + k)) := by
  have key := forI_run (n := B) (body := fun k => do
    let p ← ev (CI.lit k * CI.lit (B:Int) + CI.lit k)
    let v ← loadN 4 t p
    storeN 4 e k v) (fun k => m.putN e 4 B (fun i => if i < k then T (i * B + i) else E i)) (by
    intro k hk
    rw [bind_ok (ev_mix hk hk rfl b2 _), bind_ok ((hT.putN_ne hne).load (mix_lt hk hk)), storeN_put hk]
    refine congrArg (fun x => Except.ok ((), x)) (putN_congr m ?_)
    intro i _
    by_cases c : i = k
    · rw [if_pos c, if_pos (by omega), c, Nat.mod_eq_of_lt (hT.2 _ (mix_lt hk hk))]
    · rw [if_neg c]
      by_cases c2 : i < k
      · rw [if_pos c2, if_pos (by omega)]
      · rw [if_neg c2, if_neg (by omega)])
  have e0 : m.putN e 4 B (fun i => if i < 0 then T (i * B + i) else E i) = m := by
    have : m.putN e 4 B (fun i => if i < 0 then T (i * B + i) else E i) = m.putN e 4 B E := putN_congr m fun p _ => if_neg (Nat.not_lt_zero p)
    rw [this]; exact hE.put_self
  rw [e0] at key
  have e1 : m.putN e 4 B (fun i => if i < B then T (i * B + i) else E i) = m.putN e 4 B (fun i => T (i * B + i)) := putN_congr m fun p hp => if_pos hp
  rw [e1] at key
  exact ⟨_, key, wrote_putN hm hE (fun i hi => hT.2 _ (mix_lt hi hi))⟩

/-! ### One band -/

theorem one_over_one : f32.encode (f32.div (.fin false 1) (rootF (.fin false 1))) = 1065353216 := by decide +kernel

theorem eigColumn_one {m0 m : Mem} {a val temp vec : Nat} {A V : Nat → Nat} (hne : temp ≠ vec) (h1 : a ≠ temp) (h2 : a ≠ vec) (h3 : val ≠ temp) (h4 : val ≠ vec)
    (hA : HoldsN m0 a 4 (1 * 1) A) (hV : HoldsN m0 val 4 1 V) (h : EigInv m0 temp vec (1 * 1) m) :
    ∃ m', eigColumn a vec val temp (1:Nat) (1:Nat) (0:Nat) m = .ok ((), m') ∧ HoldsN m' vec 4 1 (fun _ => 1065353216) := by
  have hn : 1 * 1 ≤ 2147483647 := by norm_num
  unfold eigColumn
  have lv : ldF val ((0:Nat):Int) m = .ok (f32.decode (V 0), m) := by
    obtain ⟨ft, fv, e1, e2, rfl⟩ := h
    unfold ldF
    rw [bind_ok ((arrs_none (eigEnv_o h3 h4) hV).load (by norm_num : 0 < 1))]
    rfl
  have ez : ev (CI.lit ((1:Nat):Int) * CI.lit ((1:Nat):Int)) m = .ok (((1 * 1 : Nat) : Int), m) := ev_ok (by rfl) m
  rw [bind_ok lv, bind_ok ez]
  obtain ⟨m1, r1, i1⟩ := inv_copy h1 h2 hA h
  rw [bind_ok r1]
  obtain ⟨m2, r2, i2⟩ := forI_keep (lo := 0) (hi := 1) (body := fun i => do
    let p ← ev (CI.lit i * CI.lit ((1:Nat):Int) + CI.lit i)
    let x ← ldF temp p
    stF temp p (f32.sub x (f32.decode (V 0)))) (EigInv m0 temp vec (1 * 1)) (by
      intro i _ hi m hm
      rw [bind_ok (ev_mix hi hi rfl hn m)]
      obtain ⟨x, e⟩ := inv_ldT hm (mix_lt hi hi)
      rw [bind_ok e]
      exact inv_stT hm (mix_lt hi hi) _ (good_add _ _ _)) i1
  refine (bind_ok (Eq.trans rfl r2)).symm ▸ ?_
  have r3 : forI 0 (((1:Nat):Int) - 1) (fun i => eigEliminate temp (1:Nat) (1:Nat) i) m2 = .ok ((), m2) := forA_empty (by norm_num) m2
  rw [bind_ok r3]
  have e5 : ev ((CI.lit ((1:Nat):Int) - 1) * CI.lit ((1:Nat):Int) + CI.lit ((0:Nat):Int)) m2 = .ok (((0 : Nat) : Int), m2) := ev_ok (by rfl) m2
  rw [bind_ok e5]
  obtain ⟨ft, fv, k1, k2, rfl⟩ := i2
  rw [bind_ok (arrs_st (eigEnv_v hne) (by norm_num : 0 < 1 * 1) good_oneF), eigEnv_set_v hne]
  have r5 : ∀ m', forA 0 (((1:Nat):Int) - 1) (FV.fin false 1) (fun t s => eigBack temp vec (1:Nat) (0:Nat) (((1:Nat):Int) - 2 - t) s) m' = .ok (.fin false 1, m') :=
    fun m' => forA_empty (by norm_num) m'
  rw [bind_ok (r5 _)]
  have r6 := forI_run (n := 1) (body := fun i => do
    let p ← ev (CI.lit i * CI.lit ((1:Nat):Int) + CI.lit ((0:Nat):Int))
    let x ← ldF vec p
    stF vec p (f32.div x (rootF (.fin false 1))))
    (fun i => m0.arrs (eigEnv temp vec (1 * 1) ft (fun p => if i = 0 then if p = 0 then f32.encode (.fin false 1) else fv p
      else if p = 0 * 1 + 0 then 1065353216 else if p = 0 then f32.encode (.fin false 1) else fv p))) (by
      intro i hi
      obtain rfl : i = 0 := by omega
      simp only [if_true, if_neg (show ¬ (0 + 1 = 0) by norm_num)]
      rw [bind_ok (ev_mix (by norm_num : 0 < 1) (by norm_num : 0 < 1) rfl hn _)]
      rw [bind_ok (arrs_ld (eigEnv_v hne) (by norm_num : 0 * 1 + 0 < 1 * 1) (by rw [if_pos (by norm_num)]; exact f32_encode_lt good_oneF)), if_pos (by norm_num),
        f32_dec_enc good_oneF, arrs_st (eigEnv_v hne) (by norm_num : 0 * 1 + 0 < 1 * 1) (good_div _ _ _), eigEnv_set_v hne, one_over_one])
  simp only [if_true, if_neg (show ¬ (1 = 0) by norm_num)] at r6
  refine ⟨_, r6, ?_⟩
  refine ⟨?_, fun _ _ => by norm_num⟩
  have := arrs_holds (m := m0) (eigEnv_v (temp := temp) (vec := vec) (N := 1 * 1) (ft := ft)
    (fv := fun p => if p = 0 * 1 + 0 then 1065353216 else if p = 0 then f32.encode (.fin false 1) else fv p) hne)
  refine Holds.congr this ?_
  intro p hp
  unfold encN
  beta_reduce
  rw [if_pos (show p / 4 = 0 * 1 + 0 by omega)]

/-- what is needed of the computation of the eigenvectors of `B` bands: it returns, the result is among those allowed by `P` and nothing else changes -/
def EigGives (B : Nat) (P : (Nat → Nat) → Prop) : Prop := ∀ (m : Mem) (a vec val : Nat) (A V F0 : Nat → Nat), a ≠ vec → val ≠ vec → m.WF →
  HoldsN m a 4 (B * B) A → HoldsN m val 4 B V → HoldsN m vec 4 (B * B) F0 →
    ∃ m' F, cal_eigen_vector_float a vec val B B m = .ok ((), m') ∧ HoldsN m' vec 4 (B * B) F ∧ P F ∧
      m'.hm = m.hm ∧ m'.sm = m.sm ∧ ∀ x, x ≠ vec → m'.blk x = m.blk x

theorem eig_any {B : Nat} (b2 : B * B ≤ 2147483647) : EigGives B fun _ => True := by
  intro m a vec val A V F0 h1 h2 hw hA hV hF
  obtain ⟨m', F, r1, r2, r3⟩ := eig_safe h1 h2 (fun x hx => (hw x hx).1) b2 hA hV hF
  exact ⟨m', F, r1, r2, trivial, r3⟩

theorem eig_one : EigGives 1 fun F => F 0 = 1065353216 := by
  intro m a vec val A V F0 h1 h2 hw hA hV hF
  have la := hA.below hw; have lv := hV.below hw; have lf := hF.below hw
  obtain ⟨m', F, r1, r2, r3, r4, r5⟩ := eig_safe h1 h2 (fun x hx => (hw x hx).1) (by norm_num) hA hV hF
  refine ⟨m', fun _ => 1065353216, r1, ?_, rfl, r3, r4, r5⟩
  let m2 := (m.grow (1 * 1 * 4) (m.junk m.next))
  have frm : ∀ {x k : Nat} {g : Nat → Nat}, HoldsN m x 4 k g → HoldsN m2 x 4 k g :=
    fun hx => hx.frame (grow_blk_ne _ _ _ (by have := hx.below hw; omega))
  obtain ⟨jt, k1, k2⟩ := holds_elems (m := m2) (h := m.next) (n := 1 * 1) (g := m.junk m.next) (grow_holds m (1 * 1 * 4) (m.junk m.next))
  have start : EigInv m2 m.next vec (1 * 1) m2 := by
    refine ⟨jt, F0, fun i _ => k2 i, hF.2, ?_⟩
    apply Mem.ext' <;> try rfl
    funext x
    unfold Mem.arrs eigEnv
    simp only []
    by_cases e1 : x = m.next
    · subst e1; have := k1.1; unfold Holds at this; simp [this]
    · by_cases e2 : x = vec
      · subst e2; have := (frm hF).1; unfold Holds at this; simp [e1, this]
      · simp [e1, e2]
  obtain ⟨m3, r6, r7⟩ := eigColumn_one (show m.next ≠ vec by omega) (show a ≠ m.next by omega) h1 (show val ≠ m.next by omega) h2 (frm hA) (frm hV) start
  have run : cal_eigen_vector_float a vec val (1:Nat) (1:Nat) m = free m.next m3 := by
    unfold cal_eigen_vector_float
    have ez : ev (CI.lit ((1:Nat):Int) * CI.lit ((1:Nat):Int)) m = .ok (((1 * 1 : Nat) : Int), m) := ev_ok (by rfl) m
    rw [bind_ok ez, show (((1 * 1 : Nat) : Int) * 4).toNat = 1 * 1 * 4 from rfl, bind_ok (malloc_run _ m)]
    have r8 := forI_run (n := 1) (body := fun c => eigColumn a vec val m.next (1:Nat) (1:Nat) c) (fun i => if i = 0 then m2 else m3) (by
      intro i hi
      obtain rfl : i = 0 := by omega
      exact r6)
    exact bind_ok r8
  rw [run] at r1
  unfold free at r1
  cases hb : m3.blk m.next with
  | none => rw [hb] at r1; cases r1
  | some l =>
    rw [hb] at r1
    cases r1
    exact r7.frame (setBlk_blk_ne m3 _ (show vec ≠ m.next by omega))

/-! ### The projection -/

theorem project_run {m : Mem} (hm : m.WF) {qx qc dx dc dr S L B it : Nat} {X C R : Nat → Nat} {P : (Nat → Nat) → Prop} (hE : EigGives B P)
    (hS : 0 < S) (hL : 0 < L) (hB : 0 < B) (s2 : m.sm qx = some (fHdr (S * L) B dx)) (h2 : HoldsN m dx 4 (S * L * B) X)
    (s3 : m.sm qc = some (fHdr B B dc)) (h3 : HoldsN m dc 4 (B * B) C) (h4 : HoldsN m dr 4 (S * L * B) R) (n1 : dx ≠ dr)
    (b1 : S * L * B * 4 ≤ 2147483551) (b2 : B * B * 4 ≤ 2147483551) :
    ∃ m' F, pcaProject (some qx) (some qc) dr S L B it m =
        .ok ((some (m.next + 1), some (m.next + 3), some (m.next + 5), some (m.next + 8 + 2 * it)), m') ∧ P F ∧
      HoldsN m' dr 4 (S * L * B) (fun p => mulBits (R p) (fun t => X (p / B * B + t)) (fun t => F (t * B + p % B)) B) ∧
      (∀ x, x ≠ dr → x < m.next → m'.blk x = m.blk x) ∧ (∀ x, x < m.next → m'.sm x = m.sm x) ∧
      m'.sm (m.next + 1) = some (fHdr B B m.next) ∧ m'.sm (m.next + 3) = some (fHdr B B (m.next + 2)) ∧
      m'.sm (m.next + 5) = some (fHdr B B (m.next + 4)) ∧ m'.sm (m.next + 8 + 2 * it) = some (fHdr B B (m.next + 7 + 2 * it)) ∧
      (∀ x, m.next ≤ x → x ≠ m.next + 1 → x ≠ m.next + 3 → x ≠ m.next + 5 → x ≠ m.next + 8 + 2 * it → m'.sm x = none) ∧
      (∀ x, m.next + 6 ≤ x → x ≤ m.next + 6 + 2 * it → m'.blk x ≠ none) ∧
      (∀ x, m.next ≤ x → x ≠ m.next → x ≠ m.next + 2 → x ≠ m.next + 4 → x ≠ m.next + 7 + 2 * it → (x < m.next + 6 ∨ m.next + 6 + 2 * it < x) → m'.blk x = none) ∧
      m'.hm = m.hm ∧ m'.addr = m.addr ∧ m'.WF := by
  have b2' : B * B ≤ 2147483647 := by omega
  have lx := h2.below hm; have lc := h3.below hm; have lr := h4.below hm
  have sx := sm_below hm s2; have sc := sm_below hm s3
  obtain ⟨m1, r1, w1⟩ := copy_new hm hB hB s3 h3 b2
  obtain ⟨m2, r2, w2⟩ := create_new w1.wf hB hB b2
  obtain ⟨m3, r3, w3⟩ := create_new w2.wf hB hB b2
  have e1 := w1.next
  have e2 : m2.next = m.next + 4 := by rw [w2.next, e1]
  have e3 : m3.next = m.next + 6 := by rw [w3.next, e2]
  have d2 : HoldsN m2 (m.next + 2) 4 (B * B) (fun _ => 0) := by have := w2.data; rwa [e1] at this
  have d3 : HoldsN m3 (m.next + 4) 4 (B * B) (fun _ => 0) := by have := w3.data; rwa [e2] at this
  have k1 : m1.sm (m.next + 1) = some (fHdr B B m.next) := w1.hd
  have k2 : m2.sm (m.next + 3) = some (fHdr B B (m.next + 2)) := by have := w2.hd; rwa [e1] at this
  have k3 : m3.sm (m.next + 5) = some (fHdr B B (m.next + 4)) := by have := w3.hd; rwa [e2] at this
  have g1 : m3.sm (m.next + 1) = some (fHdr B B m.next) := by rw [w3.sm _ (by omega), w2.sm _ (by omega)]; exact k1
  have g2 : m3.sm (m.next + 3) = some (fHdr B B (m.next + 2)) := by rw [w3.sm _ (by omega)]; exact k2
  have T3 : HoldsN m3 m.next 4 (B * B) C := (w1.data.frame (w2.blk _ (by omega))).frame (w3.blk _ (by omega))
  have Q3 : HoldsN m3 (m.next + 2) 4 (B * B) (fun _ => 0) := d2.frame (w3.blk _ (by omega))
  obtain ⟨m4, r4, w4⟩ := rounds_pca (it := it) w3.wf hB T3 Q3 d3 (by omega) (by omega) (by omega) b2'
  obtain ⟨T4, t4⟩ := w4.ht
  obtain ⟨Q4, q4⟩ := w4.hq
  have e4 : m4.next = m.next + 6 + 2 * it := by rw [w4.next, e3]
  -- the eigenvalues
  let m5 := m4.grow (B * 4) (m4.junk m4.next)
  have wf5 : m5.WF := grow_WF w4.wf _ _
  have bl5 : ∀ x, x ≠ m4.next → m5.blk x = m4.blk x := fun x hx => grow_blk_ne _ _ _ hx
  obtain ⟨E5, he5, _⟩ := holds_elems (m := m5) (h := m4.next) (n := B) (grow_holds m4 (B * 4) (m4.junk m4.next))
  obtain ⟨m6, r6, w6⟩ := diagonal_run wf5 he5 (t4.frame (bl5 _ (by omega))) (by omega) b2'
  obtain ⟨m7, V7, r7, w7⟩ := sort_safe w6.wf w6.data hB (le_trans (Nat.le_mul_self B) b2')
  have bl7 : ∀ x, x ≠ m4.next → m7.blk x = m4.blk x := fun x hx => by rw [w7.blk x hx, w6.blk x hx, bl5 x hx]
  have sm7 : m7.sm = m3.sm := by rw [w7.sm, w6.sm]; exact w4.sm
  have e7 : m7.next = m.next + 7 + 2 * it := by
    rw [w7.next, w6.next, show m5.next = m4.next + 1 from rfl, e4]; omega
  -- the vectors
  obtain ⟨m8, r8, w8⟩ := copy_new w7.wf hB hB (by rw [sm7]; exact g2) (q4.frame (bl7 _ (by omega))) b2
  have e8 : m8.next = m.next + 9 + 2 * it := by rw [w8.next, e7]; omega
  have k8 : m8.sm (m.next + 8 + 2 * it) = some (fHdr B B (m.next + 7 + 2 * it)) := by
    have := w8.hd
    rw [e7] at this
    rw [show m.next + 8 + 2 * it = m.next + 7 + 2 * it + 1 by omega]; exact this
  have d8 : HoldsN m8 (m.next + 7 + 2 * it) 4 (B * B) Q4 := by have := w8.data; rwa [e7] at this
  have bl3 : ∀ x, x < m.next → m3.blk x = m.blk x := fun x hx => by
    rw [w3.blk x (by omega), w2.blk x (by omega), w1.blk x (by omega)]
  have bl8 : ∀ x, x < m.next → m8.blk x = m.blk x := fun x hx => by
    rw [w8.blk x (by omega), bl7 x (by omega), w4.blk x (by omega) (by omega) (by omega) (by omega), bl3 x hx]
  have sm3 : ∀ x, x < m.next → m3.sm x = m.sm x := fun x hx => by rw [w3.sm x (by omega), w2.sm x (by omega), w1.sm x (by omega)]
  have sm8 : ∀ x, x ≠ m.next + 8 + 2 * it → m8.sm x = m3.sm x := fun x hx => by rw [w8.sm x (by omega), sm7]
  have C8 : HoldsN m8 dc 4 (B * B) C := h3.frame (bl8 dc lc)
  have V8 : HoldsN m8 (m.next + 6 + 2 * it) 4 B V7 := by
    have := w7.data
    rw [e4] at this
    exact this.frame (w8.blk _ (by omega))
  obtain ⟨m9, F, r9, h9, hP, hm9, sm9, bl9⟩ := hE m8 dc (m.next + 7 + 2 * it) (m.next + 6 + 2 * it) C V7 Q4 (by omega) (by omega) w8.wf C8 V8 d8
  obtain ⟨t9, u9, v9⟩ := eig_tidy (α := m8.addr) (k := m8.next) m8 _ m9 ⟨w8.wf, rfl, le_refl _⟩ r9
  obtain ⟨m10, r10, w10⟩ := product_run t9 (h2.frame ((bl9 dx (by omega)).trans (bl8 dx lx))) h9 (h4.frame ((bl9 dr (by omega)).trans (bl8 dr lr))) n1 (by omega)
    hB hB (by omega) b2' (by omega)
  have blA : ∀ x, x ≠ dr → x ≠ m.next + 7 + 2 * it → m10.blk x = m8.blk x := fun x h h' => by rw [w10.blk x h, bl9 x h']
  have smA : m10.sm = m8.sm := by rw [w10.sm, sm9]
  refine ⟨m10, F, ?_, hP, w10.data, ?_, ?_, ?_, ?_, ?_, ?_, ?_, ?_, ?_, ?_, ?_, w10.wf⟩
  · unfold pcaProject
    rw [bind_ok (show derefS (some qc) m = _ from getS_ok s3), bind_ok r1]
    refine (bind_ok r2).trans ?_
    refine (bind_ok r3).trans ?_
    rw [bind_ok (show derefS (some (m.next + 1)) m3 = _ from getS_ok g1), e1, e2]
    rw [bind_ok (show derefS (some (m.next + 2 + 1)) m3 = _ from getS_ok g2), bind_ok (show derefS (some (m.next + 4 + 1)) m3 = _ from getS_ok k3)]
    refine (bind_ok r4).trans ?_
    rw [show ((B:Int) * 4).toNat = B * 4 by omega]
    rw [bind_ok (malloc_run (B * 4) m4)]
    refine (bind_ok r6).trans ?_
    rw [bind_ok r7]
    refine (bind_ok r8).trans ?_
    rw [e7, show m.next + 7 + 2 * it + 1 = m.next + 8 + 2 * it by omega]
    rw [bind_ok (show derefS (some (m.next + 8 + 2 * it)) m8 = _ from getS_ok k8)]
    rw [e4]
    refine (bind_ok r9).trans ?_
    have gx : m9.sm qx = some (fHdr (S * L) B dx) := by rw [sm9, sm8 qx (by omega), sm3 qx sx]; exact s2
    rw [bind_ok (show derefS (some qx) m9 = _ from getS_ok gx)]
    have ez : ev (CI.lit (S:Int) * CI.lit (L:Int)) m9 = .ok (((S * L : Nat) : Int), m9) := by
      refine ev_ok (eval_prod2 ?_) m9
      have : S * L ≤ S * L * B := Nat.le_mul_of_pos_right _ hB
      omega
    rw [bind_ok ez]
    exact (bind_ok r10).trans rfl
  · intro x h1 h2'
    rw [blA x h1 (by omega), bl8 x h2']
  · intro x hx
    rw [smA, sm8 x (by omega), sm3 x hx]
  · rw [smA, sm8 _ (by omega)]; exact g1
  · rw [smA, sm8 _ (by omega)]; exact g2
  · rw [smA, sm8 _ (by omega)]; exact k3
  · rw [smA]; exact k8
  · intro x x0 x1 x2 x3 x4
    rw [smA, sm8 x x4, w3.sm x (by omega), w2.sm x (by omega), w1.sm x (by omega)]
    exact (hm x x0).2.2
  · intro x x1 x2
    rw [blA x (by omega) (by omega), w8.blk x (by omega)]
    by_cases c : x = m4.next
    · rw [c]; exact w7.data.live
    · rw [bl7 x c]
      exact w4.lost x (by omega) (by omega)
  · intro x x0 x1 x2 x3 x4 x5
    rw [blA x (by omega) x4, w8.blk x (by omega), bl7 x (by omega)]
    rcases x5 with c | c
    · rw [w4.blk x x1 x2 x3 (by omega), w3.blk x (by omega), w2.blk x (by omega), w1.blk x x1]
      exact (hm x x0).1
    · exact (w4.wf x (by omega)).1
  · rw [w10.hm, hm9, w8.hm, w7.hm, w6.hm]
    show m4.hm = _
    rw [w4.hm, w3.hm, w2.hm, w1.hm]
  · rw [w10.addr, u9, w8.addr, w7.addr, w6.addr]
    show m4.addr = _
    rw [w4.addr, w3.addr, w2.addr, w1.addr]

/-! ### The whole analysis -/

/-- the result of the deletion of an image -/
structure Deleted (m m' : Mem) (q d : Nat) : Prop where
  blk0 : m'.blk d = none
  blk : ∀ x, x ≠ d → m'.blk x = m.blk x
  sm0 : m'.sm q = none
  sm : ∀ x, x ≠ q → m'.sm x = m.sm x
  hm : m'.hm = m.hm
  addr : m'.addr = m.addr
  next : m'.next = m.next
  wf : m'.WF

theorem deleted' {m m0 : Mem} (hm : m.WF) (ha : GoodAddresses m0) (e : m.addr = m0.addr) {q R C d : Nat} (h : m.sm q = some (fHdr R C d)) :
    ∃ m', delete_simple_mat (some q) m = .ok ((), m') ∧ Deleted m m' q d ∧ m'.addr = m0.addr := by
  obtain ⟨m', r, f1, f2, f3, f4, f5, f6, f7, f8⟩ := deleted hm (by unfold GoodAddresses; rw [e]; exact ha) h
  exact ⟨m', r, ⟨f1, f2, f3, f4, f5, f6, f7, f8⟩, f6.trans e⟩

theorem hm_below {m : Mem} {q : Nat} {h : HyperMat} (hm : m.WF) (e : m.hm q = some h) : q < m.next := by
  by_contra c
  rw [(hm q (by omega)).2.1] at e; cases e

theorem bip_elems {m : Mem} {d S L B : Nat} {a : Nat → Nat → Nat → Nat} {f : Nat → UInt8} (h : Holds m d (S * L * B * 4) f)
    (hf : ∀ i j k t, i < L → j < S → k < B → t < 4 → f (Layout.bip.pos S L B i j k * 4 + t) = leByte (a i j k) t)
    (ha : ∀ i j k, i < L → j < S → k < B → a i j k < 256 ^ 4) :
    HoldsN m d 4 (S * L * B) (fun p => a (p / B / S) (p / B % S) (p % B)) := by
  have split : ∀ p, p < S * L * B → p / B / S < L ∧ p / B % S < S ∧ p % B < B ∧ Layout.bip.pos S L B (p / B / S) (p / B % S) (p % B) = p := by
    intro p hp
    obtain ⟨g1, g2, g3⟩ := flat_split hp
    rw [Nat.mul_comm S L] at g1
    obtain ⟨g4, g5, g6⟩ := flat_split g1
    refine ⟨g4, g5, g2, ?_⟩
    show (p / B / S * S + p / B % S) * B + p % B = p
    rw [← g6]; exact g3.symm
  refine ⟨h.congr ?_, ?_⟩
  · intro p hp
    obtain ⟨g1, g2, g3, g4⟩ := split (p / 4) (by omega)
    have := hf _ _ _ (p % 4) g1 g2 g3 (by omega)
    rw [g4, show p / 4 * 4 + p % 4 = p by omega] at this
    exact this
  · intro p hp
    obtain ⟨g1, g2, g3, _⟩ := split p hp
    exact ha _ _ _ g1 g2 g3

/-- a pixel minus its mean -/
def pcaIn (B : Nat) (a : Nat → Nat → Nat → Nat) (i j t : Nat) : Nat :=
  f32.encode (f32.sub (f32.decode (a i j t)) (f32.decode (f32.encode (f32.div (sumF (fun k => f32.decode (a i j k)) B) (f32.ofInt B)))))

theorem pca_run {m : Mem} {p r S L B it : Nat} {a b : Nat → Nat → Nat → Nat} {w w' : Nat → UInt8} {P : (Nat → Nat) → Prop} (hE : EigGives B P)
    (hm : m.WF) (ha : GoodAddresses m) (hp : IsCubeN m p .bip S L B 4 4 a w) (hr : IsCubeN m r .bip S L B 4 4 b w') (hsep : Separate m p r)
    (b1 : S * L * B * 4 ≤ 2147483551) (b2 : B * B * 4 ≤ 2147483551) :
    ∃ m' F hdr, hyper_mat_pca (some p) (some r) it m = .ok ((), m') ∧ P F ∧ m.hm r = some hdr ∧
      IsCubeN m' r .bip S L B 4 4 (fun i j k => mulBits (b i j k) (fun t => pcaIn B a i j t) (fun t => F (t * B + k)) B) w' ∧
      m'.hm = m.hm ∧ m'.sm = m.sm ∧ (∀ x, x ≠ hdr.data → x < m.next → m'.blk x = m.blk x) ∧
      (∀ x, m.next ≤ x → (m'.blk x ≠ none ↔ m.next + 14 ≤ x ∧ x ≤ m.next + 14 + 2 * it)) ∧ m'.WF := by
  obtain ⟨hS, hL, hB⟩ : 0 < S ∧ 0 < L ∧ 0 < B := ⟨hp.1.posS, hp.1.posL, hp.1.posB⟩
  have hSL : S * L ≤ S * L * B := Nat.le_mul_of_pos_right _ hB
  obtain ⟨_, _, _, _, ph, pw, pf, p1, p2, p3, p4, p5, p6, p7, p8, p9, p10, p11⟩ := hp.1
  obtain ⟨_, _, _, _, rh, rw', rf, q1, q2, q3, q4, q5, q6, q7, q8, q9, q10, q11⟩ := hr.1
  rw [bytes_iff] at p9 q9
  have lp := p9.lt_next hm; have lr := q9.lt_next hm
  have hpr : ph.data ≠ rh.data := fun e => hsep ph.data ⟨Or.inr ⟨ph, p1, Or.inl rfl⟩, Or.inr ⟨rh, q1, Or.inl e⟩⟩
  have R0 := bip_elems q9 q11 hr.2
  -- the image of the means
  obtain ⟨m1, r1, w1⟩ := create_new hm hL hS (by rw [Nat.mul_comm L]; omega)
  have fr1 : Frame m m1 := fun x hx => ⟨w1.blk x (by omega), by rw [w1.hm], w1.sm x (by omega)⟩
  have c1 : IsCubeN m1 p .bip S L B 4 4 a w := ⟨isCube_frame hm hp.1 fr1, hp.2⟩
  have i1 : IsImageN m1 (m.next + 1) L S 4 1 4 (fun _ _ _ => 0) := ⟨isImage_of hL hS w1.hd w1.data, fun _ _ _ _ _ _ => by norm_num⟩
  obtain ⟨hd, g1, r2⟩ := hyperMean_run c1 i1 (by omega) (by
    rintro x ⟨x1, h2, x2, x3⟩
    rw [w1.hd] at x2; cases x2
    have e3 : x = m.next := x3
    rcases x1 with c | ⟨h3, c1', c2⟩
    · have := hm_below hm p1
      omega
    · rw [w1.hm, p1] at c1'
      cases c1'
      rcases c2 with c | c
      · omega
      · rw [p7] at c; cases c
        have := (bytes_iff.1 p10).lt_next hm
        omega)
  rw [w1.hd] at g1
  obtain rfl : fHdr L S m.next = hd := by cases g1; rfl
  let M : Nat → Nat := fun x => f32.encode (f32.div (sumF (fun k => f32.decode (a (x / S) (x % S) k)) B) (f32.ofInt B))
  obtain ⟨m2, r2', w2⟩ : ∃ m2, hyper_mat_mean (some p) (some (m.next + 1)) m1 = .ok ((), m2) ∧ Wrote m1 m2 m.next (S * L) M := by
    refine ⟨_, r2, ?_⟩
    unfold Mem.putP
    rw [show L * S * 1 = S * L by ring, show (fHdr L S m.next).data = m.next from rfl]
    have e : m1.putN m.next 4 (S * L) (pxF S 1 fun i j _ => f32.encode (f32.div (sumF (fun k => f32.decode (a i j k)) B) (f32.ofInt B))) = m1.putN m.next 4 (S * L) M := by
      refine putN_congr m1 ?_
      intro x _
      unfold pxF
      simp only [Nat.div_one]
      rfl
    rw [e]
    have := w1.data
    rw [Nat.mul_comm] at this
    exact wrote_putN w1.wf this (fun i _ => f32_encode_lt (good_div _ _ _))
  have e1 := w1.next
  have e2 : m2.next = m.next + 2 := by rw [w2.next, e1]
  have fr2 : Frame m m2 := fun x hx => ⟨by rw [w2.blk x (by omega), w1.blk x (by omega)], by rw [w2.hm, w1.hm], by rw [w2.sm, w1.sm x (by omega)]⟩
  have c2 : IsCube m2 p .bip S L B 4 4 _ w := isCube_frame hm hp.1 fr2
  -- the matrix of the pixels
  have r3 := reshape_run (R := S * L) (C := B) w2.wf c2 b1 (Nat.mul_pos hS hL) hB rfl
  set m3 := m2.newImage (S * L) B 4 1 4 (cubeBytes .bip S L B 4 fun i j k t => leByte (a i j k) t) with hm3
  let X : Nat → Nat := fun x => a (x / B / S) (x / B % S) (x % B)
  have X3 : HoldsN m3 m2.next 4 (S * L * B) X := bip_elems (by
    have := newImage_data m2 (S * L) B 4 1 4 (cubeBytes .bip S L B 4 fun i j k t => leByte (a i j k) t)
    rw [Nat.mul_one] at this; exact this) (fun i j k t hi hj hk ht => cubeBytes_at .bip hi hj hk ht) hp.2
  have w3 : NewImg m2 m3 (S * L) B X := ⟨newImage_sm m2 _ _ _ _ _ _, X3, fun x hx => newImage_blk_old m2 hx, fun x hx => newImage_sm_old m2 hx, rfl, rfl, rfl, newImage_WF w2.wf⟩
  clear_value m3
  have e3 : m3.next = m.next + 4 := by rw [w3.next, e2]
  obtain ⟨m4, r4, w4⟩ := create_new w3.wf hB hB b2
  have e4 : m4.next = m.next + 6 := by rw [w4.next, e3]
  have s4a : m4.sm (m.next + 1) = some (fHdr L S m.next) := by
    rw [w4.sm _ (by omega), w3.sm _ (by omega), w2.sm]; exact w1.hd
  have s4b : m4.sm (m.next + 3) = some (fHdr (S * L) B (m.next + 2)) := by
    rw [w4.sm _ (by omega)]
    have := w3.hd
    rw [e2] at this; exact this
  have s4c : m4.sm (m.next + 5) = some (fHdr B B (m.next + 4)) := by
    have := w4.hd
    rw [e3] at this; exact this
  have M4 : HoldsN m4 m.next 4 (S * L) M := (w2.data.frame (w3.blk _ (by omega))).frame (w4.blk _ (by omega))
  have X4 : HoldsN m4 (m.next + 2) 4 (S * L * B) X := by
    have := X3.frame (m' := m4) (w4.blk _ (by omega))
    rw [e2] at this; exact this
  have C4 : HoldsN m4 (m.next + 4) 4 (B * B) (fun _ => 0) := by have := w4.data; rw [e3] at this; exact this
  have a4 : m4.addr = m.addr := by rw [w4.addr, w3.addr, w2.addr, w1.addr]
  have h4 : m4.hm = m.hm := by rw [w4.hm, w3.hm, w2.hm, w1.hm]
  have bl4 : ∀ x, x ≠ m.next → x ≠ m.next + 2 → x ≠ m.next + 4 → m4.blk x = m.blk x := fun x x1 x2 x3 => by
    rw [w4.blk x (by omega), w3.blk x (by omega), w2.blk x x1, w1.blk x x1]
  have sm4 : ∀ x, x ≠ m.next + 1 → x ≠ m.next + 3 → x ≠ m.next + 5 → m4.sm x = m.sm x := fun x x1 x2 x3 => by
    rw [w4.sm x (by omega), w3.sm x (by omega), w2.sm, w1.sm x x1]
  -- the covariances
  obtain ⟨m5, D, r5, X5, D5, bl5, sm5, h5, a5, e5, wf5, _⟩ := cov_run w4.wf (by unfold GoodAddresses; rw [a4]; exact ha) hS hL hB s4a M4 s4b X4 s4c C4
    (by omega) (by omega) b1 (by omega)
  have e5' : m5.next = m.next + 8 := by rw [e5, e4]
  have R5 : HoldsN m5 rh.data 4 (S * L * B) _ := R0.frame (by rw [bl5 _ (by omega) (by omega), bl4 _ (by omega) (by omega) (by omega)])
  -- the projection
  obtain ⟨m6, F, r6, hP, R6, o1, o2, o3, o4, o5, o6, o7, o8, o9, h6, a6, wf6⟩ := project_run (it := it) wf5 hE hS hL hB
    (by rw [sm5]; exact s4b) X5 (by rw [sm5]; exact s4c) D5 R5 (by omega) b1 b2
  rw [e5'] at r6 o1 o2 o3 o4 o5 o6 o7 o8 o9
  have a6' : m6.addr = m.addr := by rw [a6, a5, a4]
  -- the deletions
  obtain ⟨n1, d1, v1, b1'⟩ := deleted' wf6 ha a6' (show m6.sm (m.next + 1) = some (fHdr L S m.next) by rw [o2 _ (by omega), sm5]; exact s4a)
  obtain ⟨n2, d2, v2, b2'⟩ := deleted' v1.wf ha b1' (show n1.sm (m.next + 5) = some (fHdr B B (m.next + 4)) by
    rw [v1.sm _ (by omega), o2 _ (by omega), sm5]; exact s4c)
  obtain ⟨n3, d3, v3, b3'⟩ := deleted' v2.wf ha b2' (show n2.sm (m.next + 3) = some (fHdr (S * L) B (m.next + 2)) by
    rw [v2.sm _ (by omega), v1.sm _ (by omega), o2 _ (by omega), sm5]; exact s4b)
  obtain ⟨n4, d4, v4, b4'⟩ := deleted' v3.wf ha b3' (show n3.sm (m.next + 8 + 5) = some (fHdr B B (m.next + 8 + 4)) by
    rw [v3.sm _ (by omega), v2.sm _ (by omega), v1.sm _ (by omega)]; exact o5)
  obtain ⟨n5, d5, v5, b5'⟩ := deleted' v4.wf ha b4' (show n4.sm (m.next + 8 + 3) = some (fHdr B B (m.next + 8 + 2)) by
    rw [v4.sm _ (by omega), v3.sm _ (by omega), v2.sm _ (by omega), v1.sm _ (by omega)]; exact o4)
  obtain ⟨n6, d6, v6, b6'⟩ := deleted' v5.wf ha b5' (show n5.sm (m.next + 8 + 1) = some (fHdr B B (m.next + 8)) by
    rw [v5.sm _ (by omega), v4.sm _ (by omega), v3.sm _ (by omega), v2.sm _ (by omega), v1.sm _ (by omega)]; exact o3)
  obtain ⟨n7, d7, v7, b7'⟩ := deleted' v6.wf ha b6' (show n6.sm (m.next + 8 + 8 + 2 * it) = some (fHdr B B (m.next + 8 + 7 + 2 * it)) by
    rw [v6.sm _ (by omega), v5.sm _ (by omega), v4.sm _ (by omega), v3.sm _ (by omega), v2.sm _ (by omega), v1.sm _ (by omega)]; exact o6)
  have blF : ∀ x, x ≠ m.next → x ≠ m.next + 4 → x ≠ m.next + 2 → x ≠ m.next + 8 + 4 → x ≠ m.next + 8 + 2 → x ≠ m.next + 8 → x ≠ m.next + 8 + 7 + 2 * it →
      n7.blk x = m6.blk x := fun x x1 x2 x3 x4 x5 x6 x7 => by
    rw [v7.blk x x7, v6.blk x x6, v5.blk x x5, v4.blk x x4, v3.blk x x3, v2.blk x x2, v1.blk x x1]
  have smF : ∀ x, x ≠ m.next + 1 → x ≠ m.next + 5 → x ≠ m.next + 3 → x ≠ m.next + 8 + 5 → x ≠ m.next + 8 + 3 → x ≠ m.next + 8 + 1 → x ≠ m.next + 8 + 8 + 2 * it →
      n7.sm x = m6.sm x := fun x x1 x2 x3 x4 x5 x6 x7 => by
    rw [v7.sm x x7, v6.sm x x6, v5.sm x x5, v4.sm x x4, v3.sm x x3, v2.sm x x2, v1.sm x x1]
  have hF : n7.hm = m.hm := by rw [v7.hm, v6.hm, v5.hm, v4.hm, v3.hm, v2.hm, v1.hm, h6, h5, h4]
  have goneB : ∀ x, x = m.next ∨ x = m.next + 4 ∨ x = m.next + 2 ∨ x = m.next + 8 + 4 ∨ x = m.next + 8 + 2 ∨ x = m.next + 8 ∨ x = m.next + 8 + 7 + 2 * it →
      n7.blk x = none := by
    rintro x (c | c | c | c | c | c | c)
    · rw [v7.blk x (by omega), v6.blk x (by omega), v5.blk x (by omega), v4.blk x (by omega), v3.blk x (by omega), v2.blk x (by omega), c]; exact v1.blk0
    · rw [v7.blk x (by omega), v6.blk x (by omega), v5.blk x (by omega), v4.blk x (by omega), v3.blk x (by omega), c]; exact v2.blk0
    · rw [v7.blk x (by omega), v6.blk x (by omega), v5.blk x (by omega), v4.blk x (by omega), c]; exact v3.blk0
    · rw [v7.blk x (by omega), v6.blk x (by omega), v5.blk x (by omega), c]; exact v4.blk0
    · rw [v7.blk x (by omega), v6.blk x (by omega), c]; exact v5.blk0
    · rw [v7.blk x (by omega), c]; exact v6.blk0
    · rw [c]; exact v7.blk0
  have goneS : ∀ x, x = m.next + 1 ∨ x = m.next + 5 ∨ x = m.next + 3 ∨ x = m.next + 8 + 5 ∨ x = m.next + 8 + 3 ∨ x = m.next + 8 + 1 ∨ x = m.next + 8 + 8 + 2 * it →
      n7.sm x = none := by
    rintro x (c | c | c | c | c | c | c)
    · rw [v7.sm x (by omega), v6.sm x (by omega), v5.sm x (by omega), v4.sm x (by omega), v3.sm x (by omega), v2.sm x (by omega), c]; exact v1.sm0
    · rw [v7.sm x (by omega), v6.sm x (by omega), v5.sm x (by omega), v4.sm x (by omega), v3.sm x (by omega), c]; exact v2.sm0
    · rw [v7.sm x (by omega), v6.sm x (by omega), v5.sm x (by omega), v4.sm x (by omega), c]; exact v3.sm0
    · rw [v7.sm x (by omega), v6.sm x (by omega), v5.sm x (by omega), c]; exact v4.sm0
    · rw [v7.sm x (by omega), v6.sm x (by omega), c]; exact v5.sm0
    · rw [v7.sm x (by omega), c]; exact v6.sm0
    · rw [c]; exact v7.sm0
  have old : ∀ x, x ≠ rh.data → x < m.next → n7.blk x = m.blk x := fun x x1 x2 => by
    rw [blF x (by omega) (by omega) (by omega) (by omega) (by omega) (by omega) (by omega), o1 x x1 (by omega), bl5 x (by omega) (by omega),
      bl4 x (by omega) (by omega) (by omega)]
  have R7 := R6.frame (m' := n7) (blF rh.data (by omega) (by omega) (by omega) (by omega) (by omega) (by omega) (by omega))
  refine ⟨n7, F, rh, ?_, hP, q1, ?_, hF, ?_, old, ?_, v7.wf⟩
  · unfold hyper_mat_pca
    have gp : derefH (some p) m = .ok (ph, m) := getH_ok p1
    have sp : setH p { ph with data_type := 4 } m = .ok ((), m) := by
      unfold setH
      rw [p1]
      refine congrArg (fun x => Except.ok ((), x)) ?_
      apply Mem.ext' <;> try rfl
      funext x
      show (if x = p then some { ph with data_type := 4 } else m.hm x) = m.hm x
      split
      · rename_i e; subst e
        rw [p1]
        refine congrArg some ?_
        rw [← p5]
      · rfl
    rw [bind_ok gp, nonNull_some, bind_ok sp, bind_ok gp, p2, p3, p4]
    rw [bind_ok r1, bind_ok r2']
    rw [bind_ok (show ev (CI.lit (S:Int) * CI.lit (L:Int)) m2 = .ok (((S * L : Nat) : Int), m2) from ev_ok (eval_prod2 (by omega)) m2)]
    rw [bind_ok r3]
    rw [bind_ok r4, e2, e3, bind_ok r5]
    have gr : derefH (some r) m5 = .ok (rh, m5) := getH_ok (by rw [h5, h4]; exact q1)
    rw [bind_ok gr, bind_ok r6]
    rw [bind_ok d1, bind_ok d2, bind_ok d3, bind_ok d4, bind_ok d5, bind_ok d6]
    exact d7
  · refine ⟨⟨by rfl, hS, hL, hB, rh, rw', _, by rw [hF]; exact q1, q2, q3, q4, q5, q6, q7, q8, bytes_iff.2 R7.1, ?_, ?_⟩, ?_⟩
    · rw [bytes_iff] at q10 ⊢
      have := q10.lt_next hm
      unfold Holds at q10 ⊢
      rw [old rw' (Ne.symm q8) this]; exact q10
    · intro i j k t hi hj hk ht
      have e : Layout.bip.pos S L B i j k = (i * S + j) * B + k := rfl
      rw [encN_at _ ht, e]
      refine congrArg (fun x => leByte x t) ?_
      beta_reduce
      rw [mix_div hk, mix_mod hk, mix_div hj, mix_mod hj]
      refine mulBits_congr ?_ (fun _ _ => rfl)
      intro u hu
      unfold centred
      show f32.encode (f32.sub (f32.decode (a (((i * S + j) * B + u) / B / S) (((i * S + j) * B + u) / B % S) (((i * S + j) * B + u) % B)))
        (f32.decode (f32.encode (f32.div (sumF (fun k => f32.decode (a (((i * S + j) * B + u) / B / S) (((i * S + j) * B + u) / B % S) k)) B) (f32.ofInt B))))) = _
      rw [mix_div hu, mix_mod hu, mix_div hj, mix_mod hj]
      rfl
    · intro i j k hi hj hk
      exact mulBits_lt (hr.2 i j k hi hj hk) _
  · funext x
    by_cases c : x = m.next + 1 ∨ x = m.next + 5 ∨ x = m.next + 3 ∨ x = m.next + 8 + 5 ∨ x = m.next + 8 + 3 ∨ x = m.next + 8 + 1 ∨ x = m.next + 8 + 8 + 2 * it
    · rw [goneS x c]
      exact ((hm x (by omega)).2.2).symm
    · rw [smF x (by omega) (by omega) (by omega) (by omega) (by omega) (by omega) (by omega)]
      by_cases c2 : x < m.next + 8
      · rw [o2 x c2, sm5, sm4 x (by omega) (by omega) (by omega)]
      · rw [o7 x (by omega) (by omega) (by omega) (by omega) (by omega)]
        exact ((hm x (by omega)).2.2).symm
  · intro x hx
    by_cases c : x = m.next ∨ x = m.next + 4 ∨ x = m.next + 2 ∨ x = m.next + 8 + 4 ∨ x = m.next + 8 + 2 ∨ x = m.next + 8 ∨ x = m.next + 8 + 7 + 2 * it
    · rw [goneB x c]
      simp
      omega
    · rw [blF x (by omega) (by omega) (by omega) (by omega) (by omega) (by omega) (by omega)]
      by_cases c2 : x < m.next + 8
      · rw [o1 x (by omega) c2, bl5 x (by omega) (by omega), bl4 x (by omega) (by omega) (by omega), (hm x hx).1]
        simp
        omega
      · by_cases c3 : m.next + 14 ≤ x ∧ x ≤ m.next + 14 + 2 * it
        · exact iff_of_true (o8 x (by omega) (by omega)) c3
        · rw [o9 x (by omega) (by omega) (by omega) (by omega) (by omega) (by omega)]
          simp
          omega

end HyperCV
