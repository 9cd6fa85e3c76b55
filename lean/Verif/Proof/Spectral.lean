/- Proofs about the spectral functions. -/
import Verif.Model.Spectral
import Verif.Proof.DataType
import Verif.Proof.Statistics
import Verif.Proof.Math

namespace HyperCV
open Spec

/-! ### Exchange of lines and samples -/

theorem eval_bsqE {S L B E i j k t : Nat} (hi : i < L) (hj : j < S) (hk : k < B) (ht : t < E) (hN : S * L * B * E ≤ 2147483647) :
    (CI.lit (k:Int) * CI.lit (S:Int) * CI.lit (L:Int) * CI.lit (E:Int) + CI.lit (i:Int) * CI.lit (S:Int) * CI.lit (E:Int)
      + CI.lit (j:Int) * CI.lit (E:Int) + CI.lit (t:Int) : CI)
      = CI.lit ((Layout.bsq.pos S L B i j k * E + t : Nat) : Int) := by
  have e : Layout.bsq.pos S L B i j k * E + t = k * S * L * E + i * S * E + j * E + t := by
    simp only [Layout.pos]; ring
  have hb := byte_lt .bsq (E := E) hi hj hk
  have hb' : Layout.bsq.pos S L B i j k * E + t < 2147483648 := by omega
  rw [e] at hb' ⊢
  have h : k * S * L * E + i * S * E + j * E + t < 2147483648 := hb'
  have hS : 0 < S := by omega
  have hL : 0 < L := by omega
  have hE : 0 < E := by omega
  ci_down

theorem eval_bsqE' {S L B E i j k t : Nat} (hi : i < L) (hj : j < S) (hk : k < B) (ht : t < E) (hN : S * L * B * E ≤ 2147483647) :
    (CI.lit (k:Int) * CI.lit (L:Int) * CI.lit (S:Int) * CI.lit (E:Int) + CI.lit (j:Int) * CI.lit (L:Int) * CI.lit (E:Int)
      + CI.lit (i:Int) * CI.lit (E:Int) + CI.lit (t:Int) : CI)
      = CI.lit ((Layout.bsq.pos L S B j i k * E + t : Nat) : Int) :=
  eval_bsqE hj hi hk ht (by rwa [Nat.mul_comm L S])

theorem hyperTransport_run {m : Mem} {p q S L B E E' : Nat} {dt dt' : Int} {v v' : Nat → Nat → Nat → Nat → UInt8} {w w' : Nat → UInt8}
    (hs : IsCube m p .bsq S L B dt E v w) (hd : IsCube m q .bsq L S B dt' E' v' w') (hE : E' = E) (hN : S * L * B * E ≤ 2147483647)
    (hsep : Separate m p q) :
    ∃ hdr, m.hm q = some hdr ∧ hyper_mat_transport (some q) (some p) m
      = .ok ((), m.put hdr.data (L * S * B * E) (cubeBytes .bsq L S B E fun i j k t => v j i k t)) := by
  subst hE
  obtain ⟨hE, hS, hL, hB, sh, wb, f, h1, h2, h3, h4, h5, h6, h7, h8, h9, h10, h11⟩ := hs
  obtain ⟨hE', _, _, _, dh, wb', f', g1, g2, g3, g4, g5, g6, g7, g8, g9, g10, g11⟩ := hd
  rw [bytes_iff] at h9 g9
  obtain ⟨e1, e2, e3⟩ := get_elemsize_eq hE
  refine ⟨dh, g1, ?_⟩
  have hne : sh.data ≠ dh.data := by
    intro e
    exact hsep sh.data ⟨Or.inr ⟨sh, h1, Or.inl rfl⟩, Or.inr ⟨dh, g1, Or.inl e⟩⟩
  unfold hyper_mat_transport
  rw [nonNull_some, bind_ok (getH_ok h1), cassert_bind (by
    rw [decide_eq_true_eq]
    unfold HyperMat.tagMem
    rw [h6]
    exact (cmpstr_tag_tag .bsq .bsq _).2 rfl), bind_ok (show derefH (some q) m = _ from getH_ok g1), cassert_bind (by
    rw [decide_eq_true_eq, h2, h3, h4, g2, g3, g4]
    exact ⟨rfl, rfl, rfl⟩)]
  rw [h2, h3, h4, h5, g2, g3, e1]
  have hF : Fills (forI 0 (B : Int) fun k => forI 0 (S : Int) fun i => forI 0 (L : Int) fun j => forI 0 (E' : Int) fun t => do
      let q ← ev (CI.lit k * CI.lit (S : Int) * CI.lit (L : Int) * CI.lit (E' : Int) + CI.lit j * CI.lit (S : Int) * CI.lit (E' : Int)
        + CI.lit i * CI.lit (E' : Int) + CI.lit t)
      let p ← ev (CI.lit k * CI.lit (L : Int) * CI.lit (S : Int) * CI.lit (E' : Int) + CI.lit i * CI.lit (L : Int) * CI.lit (E' : Int)
        + CI.lit j * CI.lit (E' : Int) + CI.lit t)
      let v ← load sh.data q
      store dh.data p v) m dh.data (L * S * B * E') (cubeBytes .bsq L S B E' fun i j k t => v j i k t)
      (fun x => ∃ k, k < B ∧ ∃ i, i < S ∧ ∃ j, j < L ∧ ∃ t, t < E' ∧ x = Layout.bsq.pos L S B i j k * E' + t) := by
    refine nest3 (P := fun k i j x => ∃ t, t < E' ∧ x = Layout.bsq.pos L S B i j k * E' + t) ?_
    intro k i j hk hi hj
    apply Fills.loop (P := fun t x => x = Layout.bsq.pos L S B i j k * E' + t)
    intro t ht
    apply Fills.bind (fun g => ev_ok (eval_bsqE hj hi hk ht hN) _)
    apply Fills.bind (fun g => ev_ok (eval_bsqE' hj hi hk ht hN) _)
    have b1 := byte_lt .bsq (E := E') hj hi hk
    have b2 := byte_lt .bsq (E := E') hi hj hk
    apply Fills.bind (a := v j i k t)
    · intro g
      rw [load_ok (h9.put_ne hne) (by omega), h11 j i k t hj hi hk ht]
    · apply Fills.store (by omega)
      rw [cubeBytes_at .bsq hi hj hk ht]
  refine hF.total ?_ g9
  intro x hx
  obtain ⟨i, j, k, hi, hj, hk, b1, b2⟩ := byte_cover .bsq hx
  exact ⟨k, hk, i, hi, j, hj, x - Layout.bsq.pos L S B i j k * E', by omega, by omega⟩

/-- replacing the data of a cube -/
theorem cube_put {m : Mem} {q S L B E : Nat} {dt : Int} {lay : Layout} {v v' : Nat → Nat → Nat → Nat → UInt8} {w : Nat → UInt8} {hdr : HyperMat}
    (hd : IsCube m q lay S L B dt E v w) (h : m.hm q = some hdr) :
    IsCube (m.put hdr.data (S * L * B * E) (cubeBytes lay S L B E v')) q lay S L B dt E v' w := by
  obtain ⟨hE, hS, hL, hB, sh, wb, f, h1, h2, h3, h4, h5, h6, h7, h8, h9, h10, h11⟩ := hd
  rw [h] at h1
  obtain rfl := Option.some.inj h1
  refine ⟨hE, hS, hL, hB, hdr, wb, cubeBytes lay S L B E v', h, h2, h3, h4, h5, h6, h7, h8, bytes_iff.2 (holds_put _ _ _ _), ?_, ?_⟩
  · rw [bytes_iff] at h10 ⊢
    exact h10.put_ne (fun e => h8 e.symm)
  · intro i j k t hi hj hk ht
    exact cubeBytes_at lay hi hj hk ht

/-- a cube that does not use a block is not affected by it -/
theorem cube_put_ne {m : Mem} {q S L B E d N : Nat} {dt : Int} {lay : Layout} {v : Nat → Nat → Nat → Nat → UInt8} {w g : Nat → UInt8}
    (hd : IsCube m q lay S L B dt E v w) (h : ¬ Owns m q d) : IsCube (m.put d N g) q lay S L B dt E v w := by
  obtain ⟨hE, hS, hL, hB, sh, wb, f, h1, h2, h3, h4, h5, h6, h7, h8, h9, h10, h11⟩ := hd
  have n1 : sh.data ≠ d := fun e => h (Or.inr ⟨sh, h1, Or.inl e.symm⟩)
  have n2 : wb ≠ d := fun e => h (Or.inr ⟨sh, h1, Or.inr (e ▸ h7)⟩)
  rw [bytes_iff] at h9 h10
  exact ⟨hE, hS, hL, hB, sh, wb, f, h1, h2, h3, h4, h5, h6, h7, h8, bytes_iff.2 (h9.put_ne n1), bytes_iff.2 (h10.put_ne n2), h11⟩

/-! ### Averages -/

/-- an element of a bip cube -/
theorem bip_loadF {m : Mem} {d S L B : Nat} {f : Nat → UInt8} {a : Nat → Nat → Nat → Nat} (h : Holds m d (S * L * B * 4) f)
    (hf : ∀ i j k t, i < L → j < S → k < B → t < 4 → f (Layout.bip.pos S L B i j k * 4 + t) = leByte (a i j k) t)
    (hlt : ∀ i j k, i < L → j < S → k < B → a i j k < 256 ^ 4) {i j k : Nat} (hi : i < L) (hj : j < S) (hk : k < B) :
    loadF d (((i * S * B : Nat) : Int) + ((j * B : Nat) : Int) + (k : Int)) m = .ok (f32.decode (a i j k), m) := by
  have e : ((i * S * B : Nat) : Int) + ((j * B : Nat) : Int) + (k : Int) = ((Layout.bip.pos S L B i j k : Nat) : Int) := by
    simp only [Layout.pos]; push_cast; ring
  unfold loadF
  rw [e, bind_ok (loadN_val h (slot_le (pos_lt .bip hi hj hk)) (fun t ht => hf i j k t hi hj hk ht) (hlt i j k hi hj hk))]
  rfl

/-- single precision sum from left to right -/
def sumF (g : Nat → FV) : Nat → FV
  | 0 => .fin false 0
  | n + 1 => f32.add (sumF g n) (g n)

theorem good_sumF (g : Nat → FV) (n : Nat) : f32.Good (sumF g n) := by
  cases n with
  | zero => exact ⟨rep_zero f32, fun h => absurd rfl h⟩ 
  | succ n => exact good_add _ _ _

theorem sp_average_run {m : Mem} {x : Nat} {off : Int} {n : Nat} {g : Nat → FV}
    (h : ∀ k, k < n → loadF x (off + (k : Int)) m = .ok (g k, m)) :
    sp_average x off n m = .ok (f32.div (sumF g n) (f32.ofInt n), m) := by
  unfold sp_average
  have := forA_run (n := n) (body := fun i sum => do
    let v ← loadF x (off + i)
    pure (f32.add sum v)) (fun _ => m) (sumF g) (by
      intro i hi
      rw [bind_ok (h i hi)]
      rfl)
  exact (bind_ok this).trans rfl

/-! ### The mean image -/

theorem eval_prod3 {S L B i : Nat} (hi : i ≤ L) (hS : 0 < S) (hB : 0 < B) (hN : S * L * B ≤ 2147483647) :
    (CI.lit (i:Int) * CI.lit (S:Int) * CI.lit (B:Int) : CI) = CI.lit ((i * S * B : Nat) : Int) := by
  have h1 : i * S * B ≤ L * S * B := Nat.mul_le_mul_right _ (Nat.mul_le_mul_right _ hi)
  have h2 : L * S * B = S * L * B := by ring
  have h : i * S * B < 2147483648 := by omega
  ci_down

theorem eval_prod2 {B j : Nat} (hN : j * B ≤ 2147483647) :
    (CI.lit (j:Int) * CI.lit (B:Int) : CI) = CI.lit ((j * B : Nat) : Int) := by
  rw [CI.mul_ok (by constructor <;> (push_cast at *; omega))]; push_cast; rfl

theorem eval_lin {S i j : Nat} (hN : i * S + j ≤ 2147483647) :
    (CI.lit (i:Int) * CI.lit (S:Int) + CI.lit (j:Int) : CI) = CI.lit ((i * S + j : Nat) : Int) := by
  rw [CI.mul_ok (by constructor <;> (push_cast at *; omega)), CI.add_ok (by constructor <;> (push_cast at *; omega))]; push_cast; rfl

theorem hyperMean_run {m : Mem} {p q S L B : Nat} {a b : Nat → Nat → Nat → Nat} {w : Nat → UInt8}
    (hs : IsCubeN m p .bip S L B 4 4 a w) (hd : IsImageN m q L S 4 1 4 b) (hN : S * L * B ≤ 2147483647)
    (hsep : ∀ h, ¬ (Owns m p h ∧ PixelBlock m q h)) :
    ∃ hdr, m.sm q = some hdr ∧ hyper_mat_mean (some p) (some q) m
      = .ok ((), m.putP hdr.data 4 L S 1 fun i j _ => f32.encode (f32.div (sumF (fun k => f32.decode (a i j k)) B) (f32.ofInt B))) := by
  obtain ⟨⟨hE, hS, hL, hB, sh, wb, f, h1, h2, h3, h4, h5, h6, h7, h8, h9, h10, h11⟩, hlt⟩ := hs
  obtain ⟨d, inl, g1, g2⟩ := imgN_open hd
  rw [bytes_iff] at h9
  refine ⟨_, g1, ?_⟩
  have hne : sh.data ≠ d := by
    intro e
    exact hsep d ⟨Or.inr ⟨sh, h1, Or.inl e.symm⟩, ⟨_, g1, rfl⟩⟩
  have hSL : S * L ≤ 2147483647 := le_trans (Nat.le_mul_of_pos_right _ hB) hN
  have hLS : L * S ≤ 2147483647 := by rwa [Nat.mul_comm]
  unfold hyper_mat_mean
  rw [nonNull_some, bind_ok (getH_ok h1), cassert_bind (by
    rw [decide_eq_true_eq]
    unfold HyperMat.tagMem
    rw [h6]
    exact (cmpstr_tag_tag .bip .bip _).2 rfl), bind_ok (show derefS (some q) m = _ from getS_ok g1), cassert_bind (by
    rw [decide_eq_true_eq, h2, h3]
    exact ⟨rfl, rfl⟩), cassert_bind (by rw [decide_eq_true_eq])]
  rw [h2, h3, h4]
  dsimp only
  set val : Nat → Nat → Nat → Nat := fun i j _ => f32.encode (f32.div (sumF (fun k => f32.decode (a i j k)) B) (f32.ofInt B)) with hval
  unfold Mem.putP Mem.putN
  have hF : Fills (forI 0 (L : Int) fun i => forI 0 (S : Int) fun j => do
      let t1 ← ev (CI.lit i * CI.lit (S : Int) * CI.lit (B : Int))
      let t2 ← ev (CI.lit j * CI.lit (B : Int))
      let v ← sp_average sh.data (t1 + t2) B
      let q ← ev (CI.lit i * CI.lit (S : Int) + CI.lit j)
      storeN 4 d q (f32.encode v)) m d (L * S * 1 * 4) (encN 4 (pxF S 1 val))
      (fun x => ∃ i, i < L ∧ ∃ j, j < S ∧ ((i * S + j) * 4 ≤ x ∧ x < (i * S + j) * 4 + 4)) := by
    apply Fills.loop (P := fun i x => ∃ j, j < S ∧ ((i * S + j) * 4 ≤ x ∧ x < (i * S + j) * 4 + 4))
    intro i hi
    apply Fills.loop (P := fun j x => (i * S + j) * 4 ≤ x ∧ x < (i * S + j) * 4 + 4)
    intro j hj
    have hjB : j * B ≤ 2147483647 := by
      have : j * B ≤ S * L * B := Nat.mul_le_mul_right _ (le_trans hj.le (Nat.le_mul_of_pos_right _ hL))
      omega
    have hij := mix_lt hi hj
    apply Fills.bind (fun g => ev_ok (eval_prod3 hi.le hS hB hN) _)
    apply Fills.bind (fun g => ev_ok (eval_prod2 hjB) _)
    apply Fills.bind (fun g => sp_average_run (n := B) (g := fun k => f32.decode (a i j k)) (by
      intro k hk
      exact bip_loadF (h9.put_ne hne) h11 hlt hi hj hk))
    apply Fills.bind (fun g => ev_ok (eval_lin (by omega)) _)
    apply storeN_fills (by omega)
    intro t ht
    rw [encN_at _ ht]
    have := pxF_at (C := S) (ch := 1) (i := i) (j := j) (c := 0) val hj (by decide)
    rw [Nat.mul_one, Nat.add_zero] at this
    rw [this]
  refine hF.total ?_ g2.1
  intro x hx
  have hx' : x / 4 < L * S := by omega
  obtain ⟨c1, c2, c3⟩ := flat_split hx'
  exact ⟨_, c1, _, c2, by omega⟩

/-! ### Distances -/

theorem loadF_arr {m : Mem} {x n k : Nat} {a : Nat → Nat} (h : HoldsN m x 4 n a) (hk : k < n) :
    loadF x (0 + (k : Int)) m = .ok (f32.decode (a k), m) := by
  unfold loadF
  rw [zero_add, bind_ok (h.load hk)]
  rfl

theorem euclid_run {m : Mem} {x y n : Nat} {a b : Nat → Nat} (hx : HoldsN m x 4 n a) (hy : HoldsN m y 4 n b) :
    euclidean_distance x 0 y 0 n m = .ok (f32.conv (f64.sqrt (f64.conv
      (sumF (fun k => f32.mul (f32.sub (f32.decode (a k)) (f32.decode (b k))) (f32.sub (f32.decode (a k)) (f32.decode (b k)))) n))), m) := by
  unfold euclidean_distance
  have := forA_run (n := n) (body := fun i temp => do
    let a ← loadF x (0 + i)
    let b ← loadF y (0 + i)
    pure (f32.add temp (f32.mul (f32.sub a b) (f32.sub a b)))) (fun _ => m)
    (sumF (fun k => f32.mul (f32.sub (f32.decode (a k)) (f32.decode (b k))) (f32.sub (f32.decode (a k)) (f32.decode (b k))))) (by
      intro i hi
      rw [bind_ok (loadF_arr hx hi), bind_ok (loadF_arr hy hi)]
      rfl)
  exact (bind_ok this).trans rfl

theorem round_neg {F : Fmt} {z : Bool} {q : ℚ} (h : q ≠ 0) : F.round z (-q) = (F.round z q).neg := by
  unfold Fmt.round
  rw [if_neg (neg_ne_zero.2 h), if_neg h, ulpExp_neg]
  dsimp only
  rw [neg_div, rne_neg]
  simp only [Int.cast_neg, neg_mul, abs_neg]
  have e : (decide (-q < 0)) = !(decide (q < 0)) := by
    rcases lt_or_gt_of_ne h with h1 | h1
    · have : ¬ (-q < 0) := by linarith
      simp [h1, this]
      try linarith
    · have : -q < 0 := by linarith
      simp [this]
      try linarith
  split
  · rw [e]; rfl
  · rw [e]; rfl

/-- the square of a difference does not depend on its sign -/
theorem sub_sq_symm (u v : FV) : f32.mul (f32.sub u v) (f32.sub u v) = f32.mul (f32.sub v u) (f32.sub v u) := by
  have sq_neg : ∀ w : FV, f32.mul w.neg w.neg = f32.mul w w := by
    intro w
    cases w with
    | nan => rfl
    | inf s => cases s <;> rfl
    | fin s q => cases s <;> simp [FV.neg, Fmt.mul]
  cases u with
  | nan => cases v <;> rfl
  | inf s =>
    cases v with
    | nan => rfl
    | inf s' => cases s <;> cases s' <;> rfl
    | fin s' q' => cases s <;> rfl
  | fin s q =>
    cases v with
    | nan => rfl
    | inf s' => cases s' <;> rfl
    | fin s' q' =>
      show f32.mul (f32.round (s && !s') (q + -q')) (f32.round (s && !s') (q + -q')) = f32.mul (f32.round (s' && !s) (q' + -q)) (f32.round (s' && !s) (q' + -q))
      by_cases h : q + -q' = 0
      · have h' : q' + -q = 0 := by linarith
        rw [h, h']
        have r0 : ∀ z, f32.round z 0 = .fin z 0 := by intro z; unfold Fmt.round; rw [if_pos rfl]
        rw [r0, r0]
        cases s <;> cases s' <;> simp [Fmt.mul]
      · have e : q' + -q = -(q + -q') := by ring
        rw [e, round_neg h, sq_neg]
        have rz : ∀ z z', f32.round z (q + -q') = f32.round z' (q + -q') := by
          intro z z'; unfold Fmt.round; rw [if_neg h, if_neg h]
        rw [rz]

theorem sumF_congr {g h : Nat → FV} {n : Nat} (e : ∀ k, k < n → g k = h k) : sumF g n = sumF h n := by
  induction n with
  | zero => rfl
  | succ n ih => rw [sumF, sumF, ih (fun k hk => e k (by omega)), e n (by omega)]

theorem sumF_zero {g : Nat → FV} {n : Nat} (h : ∀ k, k < n → g k = .fin false 0) : sumF g n = .fin false 0 := by
  induction n with
  | zero => rfl
  | succ n ih =>
    rw [sumF, ih (fun k hk => h k (by omega)), h n (by omega)]
    decide +kernel

/-- exact sums of integers -/
theorem sumF_int {g : Nat → FV} {z : Nat → ℤ} {n : Nat} (h : ∀ k, k < n → (g k).Is (z k))
    (hb : ∀ k, k ≤ n → |∑ i ∈ Finset.range k, z i| ≤ 16777216) : (sumF g n).Is ((∑ i ∈ Finset.range n, z i : ℤ) : ℚ) := by
  induction n with
  | zero => exact ⟨false, by simp [sumF]⟩
  | succ n ih =>
    have h1 := ih (fun k hk => h k (by omega)) (fun k hk => hb k (by omega))
    have h2 := h n (by omega)
    rw [sumF, Finset.sum_range_succ]
    push_cast
    apply is_add (by push_cast at h1; exact h1) h2
    have := rep32_int (hb (n+1) (le_refl _))
    rw [Finset.sum_range_succ] at this
    push_cast at this
    exact this

/-! ### Angles -/

theorem bne_comm' (s t : Bool) : (s != t) = (t != s) := by cases s <;> cases t <;> rfl

theorem mul_symm (u v : FV) : f32.mul u v = f32.mul v u := by
  cases u with
  | nan => cases v <;> rfl
  | inf s =>
    cases v with
    | nan => rfl
    | inf s' => show FV.inf _ = FV.inf _; rw [bne_comm']
    | fin s' q' => show (if q' = 0 then _ else _) = (if q' = 0 then _ else _); rw [bne_comm']
  | fin s q =>
    cases v with
    | nan => rfl
    | inf s' => show (if q = 0 then _ else _) = (if q = 0 then _ else _); rw [bne_comm']
    | fin s' q' => show f32.round _ _ = f32.round _ _; rw [bne_comm', mul_comm]

/-- the truncated absolute value, if it can be computed -/
def absTrunc (v : FV) : Option ℤ :=
  match v.trunc with
  | none => none
  | some n => if n = -2147483648 then none else some |n|

theorem absInt_ok {v : FV} {n : ℤ} (h : absTrunc v = some n) (m : Mem) : absInt v m = .ok (n, m) := by
  unfold absTrunc at h
  unfold absInt
  cases hv : v.trunc with
  | none => rw [hv] at h; cases h
  | some k =>
    rw [hv] at h
    dsimp only at h ⊢
    split at h
    · cases h
    · rename_i hk
      rw [if_neg hk]
      cases h
      rfl

theorem absInt_ub {v : FV} (h : absTrunc v = none) (m : Mem) : ∃ u, absInt v m = .error (.ub u) := by
  unfold absTrunc at h
  unfold absInt
  cases hv : v.trunc with
  | none => exact ⟨_, rfl⟩
  | some k =>
    rw [hv] at h
    dsimp only at h ⊢
    split at h
    · rename_i hk; rw [if_pos hk]; exact ⟨_, rfl⟩
    · cases h

theorem samLoop_run {m : Mem} {x y n : Nat} {a b : Nat → Nat} (hx : HoldsN m x 4 n a) (hy : HoldsN m y 4 n b) {c : Nat → ℤ}
    (hc : ∀ k, k < n → absTrunc (f32.mul (f32.decode (a k)) (f32.decode (b k))) = some (c k)) :
    samLoop x 0 y 0 n m = .ok (⟨sumF (fun k => f32.ofInt (c k)) n, sumF (fun k => f32.mul (f32.decode (a k)) (f32.decode (a k))) n,
      sumF (fun k => f32.mul (f32.decode (b k)) (f32.decode (b k))) n⟩, m) := by
  unfold samLoop
  exact forA_run (n := n) (fun _ => m)
    (fun n => (⟨sumF (fun k => f32.ofInt (c k)) n, sumF (fun k => f32.mul (f32.decode (a k)) (f32.decode (a k))) n,
      sumF (fun k => f32.mul (f32.decode (b k)) (f32.decode (b k))) n⟩ : SamSums)) (by
      intro i hi
      rw [bind_ok (loadF_arr hx hi), bind_ok (loadF_arr hy hi), bind_ok (absInt_ok (hc i hi) m)]
      rfl)

theorem sam_run (acos : FV → FV) {m : Mem} {x y n : Nat} {a b : Nat → Nat} (hx : HoldsN m x 4 n a) (hy : HoldsN m y 4 n b) {c : Nat → ℤ}
    (hc : ∀ k, k < n → absTrunc (f32.mul (f32.decode (a k)) (f32.decode (b k))) = some (c k)) :
    spectral_angle_mapper acos (some (x, 0)) (some (y, 0)) n m = .ok (f32.conv (acos (f64.div (f64.conv (sumF (fun k => f32.ofInt (c k)) n))
      (f64.sqrt (f64.conv (f32.mul (sumF (fun k => f32.mul (f32.decode (a k)) (f32.decode (a k))) n)
        (sumF (fun k => f32.mul (f32.decode (b k)) (f32.decode (b k))) n)))))), m) := by
  unfold spectral_angle_mapper
  exact (bind_ok (samLoop_run hx hy hc)).trans rfl

/-- a loop whose step `k` fails, if it is reached, fails -/
theorem forA_ub {σ : Type} {n k : Nat} {body : Int → σ → M σ} {m : Mem} (h : ∀ i, i < n → ∀ s, (∃ s', body (i:Int) s m = .ok (s', m)) ∨ ∃ u, body (i:Int) s m = .error (.ub u))
    (hk : k < n) (he : ∀ s, ∃ u, body (k:Int) s m = .error (.ub u)) (s : σ) : ∃ u, forA 0 (n:Int) s body m = .error (.ub u) := by
  have key : ∀ r i s, i + r ≤ n → i ≤ k → k < i + r → ∃ u, forLoop body r (i:Int) s m = .error (.ub u) := by
    intro r
    induction r with
    | zero => intro i s _ h1 h2; omega
    | succ r ih =>
      intro i s hi h1 h2
      unfold forLoop
      by_cases hik : i = k
      · subst hik
        obtain ⟨u, hu⟩ := he s
        exact ⟨u, bind_err hu⟩
      · rcases h i (by omega) s with ⟨s', h3⟩ | ⟨u, h3⟩
        · rw [bind_ok h3]
          exact ih (i+1) s' (by omega) (by omega) (by omega)
        · exact ⟨u, bind_err h3⟩
  have := key n 0 s (by omega) (by omega) (by omega)
  unfold forA
  rw [show ((n:Int) - 0).toNat = n by omega]
  exact this

theorem sam_ub (acos : FV → FV) {m : Mem} {x y n k : Nat} {a b : Nat → Nat} (hx : HoldsN m x 4 n a) (hy : HoldsN m y 4 n b) (hk : k < n)
    (hc : absTrunc (f32.mul (f32.decode (a k)) (f32.decode (b k))) = none) :
    ∃ u, spectral_angle_mapper acos (some (x, 0)) (some (y, 0)) n m = .error (.ub u) := by
  unfold spectral_angle_mapper samLoop
  obtain ⟨u, hu⟩ := forA_ub (n := n) (k := k) (m := m) (body := fun i (s : SamSums) => do
    let a ← loadF x (0 + i)
    let b ← loadF y (0 + i)
    let n ← absInt (f32.mul a b)
    pure (⟨f32.add s.XY (f32.ofInt n), f32.add s.X (f32.mul a a), f32.add s.Y (f32.mul b b)⟩ : SamSums)) (by
      intro i hi s
      rw [bind_ok (loadF_arr hx hi), bind_ok (loadF_arr hy hi)]
      cases h : absTrunc (f32.mul (f32.decode (a i)) (f32.decode (b i))) with
      | none =>
        obtain ⟨u, hu⟩ := absInt_ub h m
        right; exact ⟨u, bind_err hu⟩
      | some z =>
        left
        rw [bind_ok (absInt_ok h m)]
        exact ⟨_, rfl⟩) hk (by
      intro s
      rw [bind_ok (loadF_arr hx hk), bind_ok (loadF_arr hy hk)]
      obtain ⟨u, hu⟩ := absInt_ub hc m
      exact ⟨u, bind_err hu⟩) ⟨.fin false 0, .fin false 0, .fin false 0⟩
  exact ⟨u, bind_err hu⟩

/-! ### Matching -/

theorem forI_reach {n : Nat} {body : Int → M Unit} (P : Nat → Mem → Prop)
    (h : ∀ i, i < n → ∀ m, P i m → ∃ m', body (i:Int) m = .ok ((), m') ∧ P (i+1) m') {m : Mem} (h0 : P 0 m) :
    ∃ m', forI 0 (n:Int) body m = .ok ((), m') ∧ P n m' := by
  have key : ∀ r i m, i + r = n → P i m → ∃ m', forLoop (fun i (_ : Unit) => body i) r (i:Int) () m = .ok ((), m') ∧ P n m' := by
    intro r
    induction r with
    | zero => intro i m hi hm; exact ⟨m, rfl, by rwa [← hi]⟩
    | succ r ih =>
      intro i m hi hm
      unfold forLoop
      obtain ⟨m', h1, h2⟩ := h i (by omega) m hm
      rw [bind_ok h1]
      exact ih (i+1) m' (by omega) h2
  have := key n 0 m (by omega) h0
  unfold forI forA
  rw [show ((n:Int) - 0).toNat = n by omega]
  exact this

/-- two nested loops over pixels in order -/
theorem forI_reach2 {R C : Nat} {body : Int → Int → M Unit} (P : Nat → Mem → Prop)
    (h : ∀ i j, i < R → j < C → ∀ m, P (i * C + j) m → ∃ m', body (i:Int) (j:Int) m = .ok ((), m') ∧ P (i * C + j + 1) m') {m : Mem} (h0 : P 0 m) :
    ∃ m', (forI 0 (R:Int) fun i => forI 0 (C:Int) fun j => body i j) m = .ok ((), m') ∧ P (R * C) m' := by
  refine forI_reach (P := fun i m => P (i * C) m) ?_ (by rwa [Nat.zero_mul])
  intro i hi m hm
  have := forI_reach (n := C) (body := fun j => body (i:Int) j) (fun j m => P (i * C + j) m) (fun j hj m hm => h i j hi hj m hm) (m := m) (by simpa using hm)
  obtain ⟨m', h1, h2⟩ := this
  exact ⟨m', h1, by rwa [Nat.succ_mul]⟩

/-- an image does not change if its header and its pixels do not -/
theorem img_same {m m' : Mem} {p R C ch E : Nat} {dt : Int} {px : Nat → Nat → Nat → Nat → UInt8} (h : IsImage m p R C dt ch E px)
    (h1 : m'.sm p = m.sm p) (h2 : ∀ q, PixelBlock m p q → m'.blk q = m.blk q) : IsImage m' p R C dt ch E px := by
  obtain ⟨a1, a2, a3, a4, hdr, f, b1, b2, b3, b4, b5, b6, b7, b8⟩ := h
  refine ⟨a1, a2, a3, a4, hdr, f, by rw [h1, b1], b2, b3, b4, b5, b6, ?_, b8⟩
  obtain ⟨l, c1, c2⟩ := b7
  exact ⟨l, by rw [h2 _ ⟨hdr, b1, rfl⟩, c1], c2⟩

/-- the value computed for two spectra -/
def samValue (acos : FV → FV) (n : Nat) (a b : Nat → Nat) (c : Nat → ℤ) : FV :=
  f32.conv (acos (f64.div (f64.conv (sumF (fun k => f32.ofInt (c k)) n))
      (f64.sqrt (f64.conv (f32.mul (sumF (fun k => f32.mul (f32.decode (a k)) (f32.decode (a k))) n)
        (sumF (fun k => f32.mul (f32.decode (b k)) (f32.decode (b k))) n))))))

theorem samMatch_run (acos : FV → FV) {m : Mem} (hm : m.WF) {p S L B sp : Nat} {a : Nat → Nat → Nat → Nat} {y : Nat → Nat} {w : Nat → UInt8} {thr : FV}
    (hs : IsCubeN m p .bip S L B 4 4 a w) (hy : HoldsN m sp 4 B y) (hN : S * L * B * 4 ≤ 2147483551) {c : Nat → Nat → Nat → ℤ}
    (hc : ∀ i j k, i < L → j < S → k < B → absTrunc (f32.mul (f32.decode (a i j k)) (f32.decode (y k))) = some (c i j k)) :
    ∃ m', spectrum_SAM_match acos (some p) (some sp) thr m = .ok (some (m.next + 1), m') ∧
      IsImage8 m' (m.next + 1) L S 1 (fun i j _ => if FV.le thr (samValue acos B (a i j) y (c i j)) then 1 else 0) ∧
      Frame m m' ∧ FreshImg m m' (m.next + 1) ∧ m'.WF := by
  obtain ⟨⟨hE, hS, hL, hB, sh, wb, f, h1, h2, h3, h4, h5, h6, h7, h8, h9, h10, h11⟩, hlt⟩ := hs
  rw [bytes_iff] at h9
  have hdlt := h9.lt_next hm
  have hylt := hy.1.lt_next hm
  have hSLB : S * L * B ≤ 2147483647 := by omega
  have hSL : S * L ≤ S * L * B := Nat.le_mul_of_pos_right _ hB
  have hLS : L * S = S * L := Nat.mul_comm _ _
  set val : Nat → UInt8 := fun x => if FV.le thr (samValue acos B (a (x / S) (x % S)) y (c (x / S) (x % S))) then 1 else 0 with hval
  unfold spectrum_SAM_match
  rw [nonNull_some, bind_ok (getH_ok h1), cassert_bind (by
    rw [decide_eq_true_eq]
    unfold HyperMat.tagMem
    rw [h6]
    exact (cmpstr_tag_tag .bip .bip _).2 rfl), nonNull_some]
  rw [h2, h3, h4]
  have hcr := create_sm_ok (ch := 1) (E := 1) (dt := 1) (m := m) hL hS (by decide) rfl (by omega)
  rw [Nat.cast_one] at hcr
  rw [bind_ok hcr]
  set f0 : Nat → UInt8 := fun p => if p < L * S * 1 then 0 else m.junk m.next p with hf0
  have e4 : (4 * (B : Int)).toNat = 4 * B := by omega
  rw [e4, bind_ok (malloc_run _ _)]
  have hds : derefS (some (m.next + 1)) ((m.newImage L S 1 1 1 f0).grow (4 * B) ((m.newImage L S 1 1 1 f0).junk (m.newImage L S 1 1 1 f0).next))
      = .ok (newSHdr m L S 1 1 1, _) := getS_ok (newImage_sm m L S 1 1 1 f0)
  rw [bind_ok hds]
  have hnx : ∀ g, (m.newImage L S 1 1 1 g).next = m.next + 2 := fun g => rfl
  obtain ⟨m', r1, g', r2⟩ := forI_reach2 (R := L) (C := S) (body := fun i j => do
      let bip ← ev (CI.lit i * CI.lit (S : Int) * CI.lit (B : Int))
      let o ← ev (CI.lit j * CI.lit (B : Int))
      forI 0 (B : Int) fun k => do
        let v ← loadN 4 sh.data (bip + o + k)
        storeN 4 (m.next + 2) k v
      let res ← spectral_angle_mapper acos (some (m.next + 2, 0)) (some (sp, 0)) B
      let q ← ev (CI.lit i * CI.lit (S : Int))
      store m.next (q + j) (if FV.le thr res then 1 else 0))
      (fun n mm => ∃ g, mm = (m.newImage L S 1 1 1 (fun x => if x < n then val x else f0 x)).grow (4 * B) g) (by
    rintro i j hi hj mm ⟨g, rfl⟩
    set M := m.newImage L S 1 1 1 (fun x => if x < i * S + j then val x else f0 x) with hM
    have hMn : M.next = m.next + 2 := rfl
    have hjB : j * B ≤ 2147483647 := by
      have : j * B ≤ S * L * B := Nat.mul_le_mul_right _ (le_trans hj.le (Nat.le_mul_of_pos_right _ hL))
      omega
    have hij := mix_lt hi hj
    have hMWF : M.WF := newImage_WF hm
    have hsrc : Holds (M.grow (4 * B) g) sh.data (S * L * B * 4) f := (newImage_holds_old hm h9).grow hMWF
    have hysrc : Holds (M.grow (4 * B) g) sp (B * 4) (encN 4 y) := (newImage_holds_old hm hy.1).grow hMWF
    have htmp : Holds (M.grow (4 * B) g) (m.next + 2) (4 * B) g := grow_holds M _ g
    have hF : Fills (forI 0 (B : Int) fun k => do
        let v ← loadN 4 sh.data (((i * S * B : Nat) : Int) + ((j * B : Nat) : Int) + k)
        storeN 4 (m.next + 2) k v) (M.grow (4 * B) g) (m.next + 2) (4 * B) (encN 4 (a i j))
        (fun x => ∃ k, k < B ∧ (k * 4 ≤ x ∧ x < k * 4 + 4)) := by
      apply Fills.loop (P := fun k x => k * 4 ≤ x ∧ x < k * 4 + 4)
      intro k hk
      apply Fills.bind (a := a i j k)
      · intro g
        have e : ((i * S * B : Nat) : Int) + ((j * B : Nat) : Int) + (k : Int) = ((Layout.bip.pos S L B i j k : Nat) : Int) := by
          simp only [Layout.pos]; push_cast; ring
        rw [e]
        exact loadN_val (hsrc.put_ne (by omega)) (slot_le (pos_lt .bip hi hj hk)) (fun t ht => h11 i j k t hi hj hk ht) (hlt i j k hi hj hk)
      · apply storeN_fills (by omega)
        intro t ht
        rw [encN_at _ ht]
    have hT := hF.total (fun x hx => ⟨x / 4, by omega, by omega⟩) htmp
    have hput : (M.grow (4 * B) g).put (m.next + 2) (4 * B) (encN 4 (a i j)) = M.grow (4 * B) (encN 4 (a i j)) := grow_put M _ _ _ _
    rw [hput] at hT
    have hA : HoldsN (M.grow (4 * B) (encN 4 (a i j))) (m.next + 2) 4 B (a i j) :=
      ⟨by rw [Nat.mul_comm]; exact grow_holds M _ _, fun k hk => hlt i j k hi hj hk⟩
    have hY : HoldsN (M.grow (4 * B) (encN 4 (a i j))) sp 4 B y := ⟨(newImage_holds_old hm hy.1).grow hMWF, hy.2⟩
    have hS' := sam_run acos hA hY (hc i j · hi hj)
    refine ⟨_, ?_, encN 4 (a i j), rfl⟩
    rw [bind_ok (ev_ok (eval_prod3 hi.le hS hB hSLB) _), bind_ok (ev_ok (eval_prod2 hjB) _), bind_ok hT, bind_ok hS',
      bind_ok (ev_ok (eval_prod2 (B := S) (j := i) (by omega)) _)]
    have e : ((i * S : Nat) : Int) + (j : Int) = ((i * S + j : Nat) : Int) := by push_cast; rfl
    rw [e]
    have hI : Holds (M.grow (4 * B) (encN 4 (a i j))) m.next (L * S * 1 * 1) (fun x => if x < i * S + j then val x else f0 x) :=
      (newImage_data m L S 1 1 1 _).grow hMWF
    have hlt' : i * S + j < L * S * 1 * 1 := by omega
    rw [store_ok hI hlt', ← put_grow_comm _ (by rw [hMn]; omega), newImage_put]
    refine congrArg (fun x => Except.ok ((), Mem.grow x _ _)) (newImage_congr m ?_)
    intro x hx
    by_cases hx1 : x = i * S + j
    · subst hx1
      have hv : val (i * S + j) = if FV.le thr (samValue acos B (a i j) y (c i j)) then 1 else 0 := by
        rw [hval]
        dsimp only
        rw [mix_div hj, mix_mod hj]
      have hl : i * S + j < i * S + j + 1 := Nat.lt_succ_self _
      refine (if_pos (rfl : i * S + j = i * S + j)).trans ?_
      exact ((if_pos hl).trans hv).symm
    · rw [if_neg hx1]
      by_cases hx2 : x < i * S + j
      · rw [if_pos hx2, if_pos (by omega)]
      · rw [if_neg hx2, if_neg (by omega)]) (m := (m.newImage L S 1 1 1 f0).grow (4 * B) ((m.newImage L S 1 1 1 f0).junk (m.next + 2))) ⟨_, by
        refine congrArg (fun x => Mem.grow x _ _) (newImage_congr m ?_)
        intro x hx
        rw [if_neg (by omega)]⟩
  refine ⟨m'.setBlk (m.next + 2) none, ?_, ?_⟩
  · refine (bind_ok r1).trans ?_
    have : m'.blk (m.next + 2) = some (tab (4 * B) g') := by
      rw [r2]
      exact grow_holds _ _ _
    have hfr : free (m.next + 2) m' = .ok ((), m'.setBlk (m.next + 2) none) := by unfold free; rw [this]
    exact (bind_ok hfr).trans rfl
  · have k1 : ∀ q, q ≠ m.next + 2 → (m'.setBlk (m.next + 2) none).blk q = (m.newImage L S 1 1 1 (fun x => if x < L * S then val x else f0 x)).blk q := by
      intro q hq
      simp only [Mem.setBlk, if_neg hq]
      rw [r2, grow_blk_ne _ _ _ (by rw [hnx]; exact hq)]
    have k2 : (m'.setBlk (m.next + 2) none).sm = (m.newImage L S 1 1 1 (fun x => if x < L * S then val x else f0 x)).sm := by
      rw [r2]; rfl
    have k3 : (m'.setBlk (m.next + 2) none).hm = m.hm := by rw [r2]; rfl
    have k4 : (m'.setBlk (m.next + 2) none).next = m.next + 3 := by rw [r2]; rfl
    refine ⟨?_, ?_, ?_, ?_⟩
    · have i1 : IsImage (m.newImage L S 1 1 1 (imgBytes S 1 1 fun i j _ _ => if FV.le thr (samValue acos B (a i j) y (c i j)) then 1 else 0)) (m.next + 1) L S 1 1 1
          (fun i j _ _ => if FV.le thr (samValue acos B (a i j) y (c i j)) then 1 else 0) :=
        newImage_isImage rfl hL hS (by decide)
      have i2 : m.newImage L S 1 1 1 (imgBytes S 1 1 fun i j _ _ => if FV.le thr (samValue acos B (a i j) y (c i j)) then 1 else 0)
          = m.newImage L S 1 1 1 (fun x => if x < L * S then val x else f0 x) := by
        apply newImage_congr
        intro x hx
        obtain ⟨i, j, cc, t, hi, hj, hcc, ht, rfl⟩ := img_cover hx
        have z1 : cc = 0 := by omega
        have z2 : t = 0 := by omega
        subst z1; subst z2
        rw [imgBytes_at hj hcc ht]
        have hij := mix_lt hi hj
        simp only [Nat.mul_one, Nat.add_zero]
        rw [if_pos hij, hval]
        dsimp only
        rw [mix_div hj, mix_mod hj]
      rw [i2] at i1
      refine img_same i1 (by rw [k2]) ?_
      rintro q ⟨hdr, q1, rfl⟩
      apply k1
      rw [newImage_sm] at q1
      cases q1
      show m.next ≠ m.next + 2
      omega
    · intro h hh
      refine ⟨?_, ?_, ?_⟩
      · rw [k1 h (by omega)]; exact newImage_blk_old m (by omega)
      · rw [k3]
      · rw [k2]; exact newImage_sm_old m (by omega)
    · rintro h (rfl | ⟨hdr, q1, rfl⟩)
      · omega
      · rw [k2, newImage_sm] at q1
        cases q1
        simp [newSHdr]
    · intro h hh
      rw [k4] at hh
      refine ⟨?_, ?_, ?_⟩
      · rw [k1 h (by omega), newImage_blk_old m (by omega)]; exact (hm h (by omega)).1
      · rw [k3]; exact (hm h (by omega)).2.1
      · rw [k2, newImage_sm_old m (by omega)]; exact (hm h (by omega)).2.2

/-! ### Reading a spectrum -/

theorem holdsN_any {m : Mem} {h w n : Nat} {f : Nat → UInt8} (hw : 0 < w) (hh : Holds m h (n * w) f) :
    HoldsN m h w n (fun i => leNat (tab w fun t => f (i * w + t))) := by
  refine ⟨hh.congr ?_, ?_⟩
  · intro p _
    unfold encN
    rw [leByte_leNat _ (Nat.mod_lt _ hw)]
    congr 1
    have := Nat.div_add_mod p w
    rw [Nat.mul_comm] at this
    omega
  · intro i _
    have := leNat_lt (tab w fun t => f (i * w + t))
    simpa using this

theorem storeN_oob {m : Mem} {h n w i v : Nat} {f : Nat → UInt8} (hh : Holds m h (n * w) f) (hw : 0 < w) (hi : n ≤ i) :
    storeN w h (i : Int) v m = .error (.ub .oob) := by
  obtain ⟨w, rfl⟩ : ∃ k, w = k + 1 := ⟨w - 1, by omega⟩
  unfold storeN storeBytes
  apply bind_err
  apply store_oob hh
  have : n * (w + 1) ≤ i * (w + 1) := Nat.mul_le_mul_right _ hi
  exact_mod_cast this

/-- numbers up to the end of the file -/
theorem spectrumLoop_nums {h len : Nat} (l : List FV) : ∀ (m : Mem) (a : Nat → Nat) (fuel : Nat) (temp : FV) (k : Nat),
    HoldsN m h 4 len a → k + l.length ≤ len → l.length < fuel →
    ∃ b, spectrumLoop h fuel temp (k : Int) (l.map Item.num) m = .ok ((), m.putN h 4 len b) ∧
      (∀ i, i < l.length → b (k + i) = f32.encode (l.getD i .nan) % 256 ^ 4) ∧ (∀ i, i < k ∨ k + l.length ≤ i → b i = a i) ∧
      ∀ i, i < len → b i < 256 ^ 4 := by
  induction l with
  | nil =>
    intro m a fuel temp k ha _ hf
    obtain ⟨fuel, rfl⟩ : ∃ j, fuel = j + 1 := ⟨fuel - 1, by simp at hf; omega⟩
    refine ⟨a, ?_, ?_, fun _ _ => rfl, ha.2⟩
    · rw [ha.put_self]; rfl
    · intro i hi; simp at hi
  | cons v l ih =>
    intro m a fuel temp k ha hk hf
    simp only [List.length_cons] at hk hf
    obtain ⟨fuel, rfl⟩ : ∃ j, fuel = j + 1 := ⟨fuel - 1, by omega⟩
    have hs := ha.store (i := k) (v := f32.encode v) (by omega)
    set a' : Nat → Nat := fun j => if j = k then f32.encode v % 256 ^ 4 else a j with ha'
    have hA : HoldsN (m.putN h 4 len a') h 4 len a' := by
      apply holdsN_putN
      intro i hi
      rw [ha']
      dsimp only
      split
      · exact Nat.mod_lt _ (by norm_num)
      · exact ha.2 i hi
    obtain ⟨b, b1, b2, b3, b4⟩ := ih (m.putN h 4 len a') a' fuel v (k+1) hA (by omega) (by omega)
    refine ⟨b, ?_, ?_, ?_, b4⟩
    · rw [List.map_cons]
      unfold spectrumLoop
      rw [bind_ok hs]
      have e : ((k : Int) + 1) = ((k + 1 : Nat) : Int) := by push_cast; rfl
      rw [e, b1]
      unfold Mem.putN
      rw [put_put]
    · intro i hi
      cases i with
      | zero =>
        rw [Nat.add_zero, b3 k (Or.inl (by omega)), ha']
        simp
      | succ i =>
        have := b2 i (by simp at hi; omega)
        rw [show k + (i + 1) = k + 1 + i by omega, this]
        simp
    · intro i hi
      simp only [List.length_cons] at hi
      rw [b3 i (by omega), ha']
      dsimp only
      rw [if_neg (by omega)]

/-- too many items -/
theorem spectrumLoop_oob {h len : Nat} : ∀ (fuel : Nat) (l : List Item) (m : Mem) (a : Nat → Nat) (temp : FV) (k : Nat),
    HoldsN m h 4 len a → k ≤ len → len - k < fuel → (Item.junk ∈ l ∨ len < k + l.length) →
    spectrumLoop h fuel temp (k : Int) l m = .error (.ub .oob) := by
  intro fuel
  induction fuel with
  | zero => intro l m a temp k _ _ hf; omega
  | succ fuel ih =>
    intro l m a temp k ha hk hf hl
    have store_step : ∀ v : Nat, k < len → ∃ a', storeN 4 h (k : Int) v m = .ok ((), m.putN h 4 len a') ∧ HoldsN (m.putN h 4 len a') h 4 len a' := by
      intro v hk'
      refine ⟨_, ha.store hk', ?_⟩
      apply holdsN_putN
      intro i hi
      split
      · exact Nat.mod_lt _ (by norm_num)
      · exact ha.2 i hi
    cases l with
    | nil =>
      rcases hl with hl | hl
      · cases hl
      · simp at hl; omega
    | cons it l =>
      by_cases hk' : k < len
      · have e : ((k : Int) + 1) = ((k + 1 : Nat) : Int) := by push_cast; rfl
        cases it with
        | num v =>
          obtain ⟨a', s1, s2⟩ := store_step (f32.encode v) hk'
          unfold spectrumLoop
          rw [bind_ok s1, e]
          refine ih l _ a' v (k+1) s2 (by omega) (by omega) ?_
          rcases hl with hl | hl
          · left
            rcases List.mem_cons.1 hl with h' | h'
            · cases h'
            · exact h'
          · right; simp only [List.length_cons] at hl; omega
        | junk =>
          obtain ⟨a', s1, s2⟩ := store_step (f32.encode temp) hk'
          unfold spectrumLoop
          rw [bind_ok s1, e]
          exact ih (.junk :: l) _ a' temp (k+1) s2 (by omega) (by omega) (Or.inl (List.mem_cons_self ..))
      · cases it with
        | num v =>
          unfold spectrumLoop
          exact bind_err (storeN_oob ha.1 (by norm_num) (by omega))
        | junk =>
          unfold spectrumLoop
          exact bind_err (storeN_oob ha.1 (by norm_num) (by omega))

end HyperCV
