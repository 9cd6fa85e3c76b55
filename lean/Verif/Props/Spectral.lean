/- C70-C75: spectra and transposition of cubes. -/
import Verif.Proof.Spectral
import Verif.Proof.Filter2D
import Verif.Props.Statistics
import Verif.Props.Cube

namespace HyperCV
open Spec Finset

namespace Spec
/-- sum of `n` numbers in single precision, in order of index, starting from zero -/
def floatSum (x : Nat → FV) (n : Nat) : FV := (List.range n).foldl (fun s k => f32.add s (x k)) (.fin false 0)

/-- mean in single precision -/
def floatMean (x : Nat → FV) (n : Nat) : FV := f32.div (floatSum x n) (f32.ofInt n)

/-- the products of corresponding elements are finite and less than 2^31 in absolute value -/
def ProductsFit (n : Nat) (a b : Nat → Nat) : Prop :=
  ∀ k, k < n → ∃ s q, f32.mul (f32.decode (a k)) (f32.decode (b k)) = .fin s q ∧ |q| < 2147483648

/-- the bit patterns `a` are those of the integers `z` -/
def IntSpectrum (n : Nat) (a : Nat → Nat) (z : Nat → ℤ) : Prop := ∀ k, k < n → FloatIs f32 (a k) (z k)
end Spec

theorem floatSum_eq (x : Nat → FV) (n : Nat) : floatSum x n = sumF x n := by
  unfold floatSum
  induction n with
  | zero => rfl
  | succ n ih => rw [List.range_succ, List.foldl_append, ih]; rfl

theorem forA_outcome_const {σ : Type} {n : Nat} {body : Int → σ → M σ} {m : Mem} {e : Err}
    (h : ∀ i, i < n → ∀ s, body (i:Int) s m = .error e ∨ ∃ s', body (i:Int) s m = .ok (s', m)) (s : σ) :
    forA 0 (n:Int) s body m = .error e ∨ ∃ s', forA 0 (n:Int) s body m = .ok (s', m) := by
  have key : ∀ r i s, i + r ≤ n → forLoop body r (i:Int) s m = .error e ∨ ∃ s', forLoop body r (i:Int) s m = .ok (s', m) := by
    intro r
    induction r with
    | zero => intro i s _; exact Or.inr ⟨s, rfl⟩
    | succ r ih =>
      intro i s hi
      unfold forLoop
      rcases h i (by omega) s with h1 | ⟨s', h1⟩
      · exact Or.inl (bind_err h1)
      · rw [bind_ok h1]
        exact ih (i+1) s' (by omega)
  unfold forA
  rw [show ((n:Int) - 0).toNat = n by omega]
  exact key n 0 s (by omega)

theorem forA_fails_const {σ : Type} {n k : Nat} {body : Int → σ → M σ} {m : Mem} {e : Err}
    (h : ∀ i, i < n → ∀ s, body (i:Int) s m = .error e ∨ ∃ s', body (i:Int) s m = .ok (s', m)) (hk : k < n)
    (he : ∀ s, body (k:Int) s m = .error e) (s : σ) : forA 0 (n:Int) s body m = .error e := by
  have key : ∀ r i s, i + r ≤ n → i ≤ k → k < i + r → forLoop body r (i:Int) s m = .error e := by
    intro r
    induction r with
    | zero => intro i s _ h1 h2; omega
    | succ r ih =>
      intro i s hi h1 h2
      unfold forLoop
      rcases Nat.eq_or_lt_of_le h1 with rfl | h3
      · exact bind_err (he s)
      · rcases h i (by omega) s with h4 | ⟨s', h4⟩
        · exact bind_err h4
        · rw [bind_ok h4]
          exact ih (i+1) s' (by omega) (by omega) (by omega)
  unfold forA
  rw [show ((n:Int) - 0).toNat = n by omega]
  exact key n 0 s (by omega) (by omega) (by omega)

section
variable {m : Mem} {p q S L B E E' : Nat} {dt dt' : Int} {v v' : Nat → Nat → Nat → Nat → UInt8} {w w' : Nat → UInt8}
  {a b : Nat → Nat → Nat → Nat}

/-! ### C70 -/

/-- **C70**: `hyper_mat_transport` fills the destination with the transposed cube and changes nothing else -/
theorem C70_transport (hs : IsCube m p .bsq S L B dt E v w) (hd : IsCube m q .bsq L S B dt' E v' w') (hN : S * L * B * E ≤ 2147483647)
    (hsep : Separate m p q) :
    ∃ m', hyper_mat_transport (some q) (some p) m = .ok ((), m') ∧ IsCube m' q .bsq L S B dt' E (fun i j k t => v j i k t) w' ∧
      m'.hm = m.hm ∧ m'.sm = m.sm ∧ m'.next = m.next ∧ ∀ h, ¬ Owns m q h → m'.blk h = m.blk h := by
  obtain ⟨hdr, h1, h2⟩ := hyperTransport_run hs hd rfl hN hsep
  refine ⟨_, h2, cube_put hd h1, rfl, rfl, rfl, ?_⟩
  intro h hh
  have : h ≠ hdr.data := fun e => hh (Or.inr ⟨hdr, h1, Or.inl e⟩)
  simp [Mem.put, Mem.setBlk, this]

/-- the source and every other cube keep their contents -/
theorem C70_others {r S' L' B' F : Nat} {lay : Layout} {dt'' : Int} {u : Nat → Nat → Nat → Nat → UInt8} {x : Nat → UInt8}
    (hs : IsCube m p .bsq S L B dt E v w) (hd : IsCube m q .bsq L S B dt' E v' w') (hN : S * L * B * E ≤ 2147483647)
    (hsep : Separate m p q) (hr : IsCube m r lay S' L' B' dt'' F u x) (hrq : Separate m r q) :
    ∃ m', hyper_mat_transport (some q) (some p) m = .ok ((), m') ∧ IsCube m' r lay S' L' B' dt'' F u x := by
  obtain ⟨hdr, h1, h2⟩ := hyperTransport_run hs hd rfl hN hsep
  exact ⟨_, h2, cube_put_ne hr fun o => hrq _ ⟨o, Or.inr ⟨hdr, h1, Or.inl rfl⟩⟩⟩

theorem owns_put {d N : Nat} {f : Nat → UInt8} {h : Nat} : Owns (m.put d N f) q h ↔ Owns m q h := Iff.rfl

/-- transposing twice gives the cube back -/
theorem C70_twice {r : Nat} {dt'' : Int} {u : Nat → Nat → Nat → Nat → UInt8} {x : Nat → UInt8}
    (hs : IsCube m p .bsq S L B dt E v w) (hd : IsCube m q .bsq L S B dt' E v' w') (hr : IsCube m r .bsq S L B dt'' E u x)
    (hN : S * L * B * E ≤ 2147483647) (hsep : Separate m p q) (hqr : Separate m q r) (hrq : Separate m r q) :
    ∃ m', (do hyper_mat_transport (some q) (some p); hyper_mat_transport (some r) (some q)) m = .ok ((), m') ∧
      IsCube m' r .bsq S L B dt'' E v x := by
  obtain ⟨hdr, h1, h2⟩ := hyperTransport_run hs hd rfl hN hsep
  have k1 := cube_put (v' := fun i j k t => v j i k t) hd h1
  have k2 : IsCube (m.put hdr.data (L * S * B * E) (cubeBytes .bsq L S B E fun i j k t => v j i k t)) r .bsq S L B dt'' E u x :=
    cube_put_ne hr fun o => hrq _ ⟨o, Or.inr ⟨hdr, h1, Or.inl rfl⟩⟩
  obtain ⟨m', r1, r2, _⟩ := C70_transport k1 k2 (by rwa [Nat.mul_comm L S]) hqr
  exact ⟨m', (bind_ok h2).trans r1, r2⟩

/-- **C70 refuted**: the element type of the destination is not checked: if its elements are smaller, the function writes beyond
its end, whatever the cubes contain -/
theorem C70_refuted_type (hs : IsCube m p .bsq S L B dt E v w) (hd : IsCube m q .bsq L S B dt' E' v' w') (hE : E' < E)
    (hN : S * L * B * E ≤ 2147483647) (hsep : Separate m p q) :
    hyper_mat_transport (some q) (some p) m = .error (.ub .oob) := by
  obtain ⟨hE1, hS, hL, hB, sh, wb, f, h1, h2, h3, h4, h5, h6, h7, h8, h9, h10, h11⟩ := hs
  obtain ⟨hE', _, _, _, dh, wb', f', g1, g2, g3, g4, g5, g6, g7, g8, g9, g10, g11⟩ := hd
  rw [bytes_iff] at h9 g9
  have hne : sh.data ≠ dh.data := fun e => hsep sh.data ⟨Or.inr ⟨sh, h1, Or.inl rfl⟩, Or.inr ⟨dh, g1, Or.inl e⟩⟩
  obtain ⟨e1, e2, e3⟩ := get_elemsize_eq hE1
  unfold hyper_mat_transport
  rw [nonNull_some, bind_ok (getH_ok h1), cassert_bind (by
    rw [decide_eq_true_eq]
    unfold HyperMat.tagMem
    rw [h6]
    exact (cmpstr_tag_tag .bsq .bsq _).2 rfl)]
  have gd : derefH (some q) m = .ok (dh, m) := getH_ok g1
  rw [bind_ok gd, cassert_bind (by
    rw [decide_eq_true_eq]
    exact ⟨by rw [h2, g3], by rw [h3, g2], by rw [h4, g4]⟩)]
  rw [h5, e1, h2, h3, h4, g2, g3]
  let P : Mem → Prop := fun mm => Holds mm sh.data (S * L * B * E) f ∧ ∃ g, Holds mm dh.data (L * S * B * E') g
  have step : ∀ (k i j t : Nat), k < B → i < S → j < L → t < E → ∀ mm, P mm →
      ((Layout.bsq.pos L S B i j k * E + t < L * S * B * E' →
        ∃ m', (do
          let q ← ev (CI.lit (k:Int) * CI.lit (S:Int) * CI.lit (L:Int) * CI.lit (E:Int) + CI.lit (j:Int) * CI.lit (S:Int) * CI.lit (E:Int)
            + CI.lit (i:Int) * CI.lit (E:Int) + CI.lit (t:Int))
          let p ← ev (CI.lit (k:Int) * CI.lit (L:Int) * CI.lit (S:Int) * CI.lit (E:Int) + CI.lit (i:Int) * CI.lit (L:Int) * CI.lit (E:Int)
            + CI.lit (j:Int) * CI.lit (E:Int) + CI.lit (t:Int))
          let v ← load sh.data q
          store dh.data p v) mm = .ok ((), m') ∧ P m') ∧
      (L * S * B * E' ≤ Layout.bsq.pos L S B i j k * E + t → (do
          let q ← ev (CI.lit (k:Int) * CI.lit (S:Int) * CI.lit (L:Int) * CI.lit (E:Int) + CI.lit (j:Int) * CI.lit (S:Int) * CI.lit (E:Int)
            + CI.lit (i:Int) * CI.lit (E:Int) + CI.lit (t:Int))
          let p ← ev (CI.lit (k:Int) * CI.lit (L:Int) * CI.lit (S:Int) * CI.lit (E:Int) + CI.lit (i:Int) * CI.lit (L:Int) * CI.lit (E:Int)
            + CI.lit (j:Int) * CI.lit (E:Int) + CI.lit (t:Int))
          let v ← load sh.data q
          store dh.data p v) mm = .error (.ub .oob))) := by
    intro k i j t hk hi hj ht mm ⟨m1, g, m2⟩
    have hb := byte_lt .bsq (E := E) hj hi hk
    have hlo : load sh.data ((Layout.bsq.pos S L B j i k * E + t : Nat) : Int) mm = .ok (f (Layout.bsq.pos S L B j i k * E + t), mm) :=
      load_ok m1 (by omega)
    rw [bind_ok (ev_ok (eval_bsqE (L := L) hj hi hk ht hN) _), bind_ok (ev_ok (eval_bsqE' hj hi hk ht hN) _), bind_ok hlo]
    constructor
    · intro h
      exact ⟨_, store_ok m2 h, m1.put_ne hne, _, holds_put _ _ _ _⟩
    · intro h
      exact store_oob m2 (by exact_mod_cast h)
  have hall : ∀ (k i j t : Nat), k < B → i < S → j < L → t < E → ∀ mm, P mm → _ :=
    fun k i j t hk hi hj ht mm hmm => (lt_or_ge (Layout.bsq.pos L S B i j k * E + t) (L * S * B * E')).symm.imp
      (step k i j t hk hi hj ht mm hmm).2 (step k i j t hk hi hj ht mm hmm).1
  refine forI_fails (n := B) (k := B - 1) P (fun k hk _ hm => ?_) (by omega) (fun _ hm => ?_) (m := m) ⟨h9, f', g9⟩
  · exact forI_outcome (n := S) P (fun i hi _ hm => forI_outcome (n := L) P (fun j hj _ hm => forI_outcome (n := E) P
      (fun t ht _ hm => hall k i j t hk hi hj ht _ hm) hm) hm) hm
  · refine forI_fails (n := S) (k := S - 1) P (fun i hi _ hm => forI_outcome (n := L) P (fun j hj _ hm => forI_outcome (n := E) P
      (fun t ht _ hm => hall (B-1) i j t (by omega) hi hj ht _ hm) hm) hm) (by omega) (fun _ hm => ?_) hm
    refine forI_fails (n := L) (k := L - 1) P (fun j hj _ hm => forI_outcome (n := E) P
      (fun t ht _ hm => hall (B-1) (S-1) j t (by omega) (by omega) hj ht _ hm) hm) (by omega) (fun _ hm => ?_) hm
    refine forI_fails (n := E) (k := E - 1) P (fun t ht _ hm => hall (B-1) (S-1) (L-1) t (by omega) (by omega) (by omega) ht _ hm) (by omega)
      (fun _ hm => (step (B-1) (S-1) (L-1) (E-1) (by omega) (by omega) (by omega) (by omega) _ hm).2 ?_) hm
    have e : Layout.bsq.pos L S B (S-1) (L-1) (B-1) + 1 = L * S * B := by
      obtain ⟨S, rfl⟩ := Nat.exists_eq_succ_of_ne_zero hS.ne'
      obtain ⟨L, rfl⟩ := Nat.exists_eq_succ_of_ne_zero hL.ne'
      obtain ⟨B, rfl⟩ := Nat.exists_eq_succ_of_ne_zero hB.ne'
      simp only [Layout.pos, Nat.succ_eq_add_one, Nat.add_sub_cancel]
      ring
    have e2 : L * S * B * E = Layout.bsq.pos L S B (S-1) (L-1) (B-1) * E + E := by rw [← e]; ring
    have e3 : L * S * B * (E' + 1) ≤ L * S * B * E := Nat.mul_le_mul_left _ hE
    have e4 : 0 < L * S * B := by positivity
    rw [Nat.mul_add] at e3
    omega

/-! ### C71 -/

/-- **C71**: `hyper_mat_mean` stores in every pixel of the image the mean, in single precision, of the spectrum of that pixel, and
changes nothing else -/
theorem C71_mean (hs : IsCubeN m p .bip S L B 4 4 a w) (hd : IsImageN m q L S 4 1 4 b) (hN : S * L * B ≤ 2147483647)
    (hsep : ∀ h, ¬ (Owns m p h ∧ PixelBlock m q h)) :
    ∃ m' r, hyper_mat_mean (some p) (some q) m = .ok ((), m') ∧ IsImageN m' q L S 4 1 4 r ∧
      (∀ i j, i < L → j < S → f32.decode (r i j 0) = floatMean (fun k => f32.decode (a i j k)) B) ∧ OnlyPixels m m' q := by
  obtain ⟨hdr, h1, h2⟩ := hyperMean_run hs hd hN hsep
  obtain ⟨r1, r2⟩ := imgN_put hd h1 (b := fun i j _ => f32.encode (f32.div (sumF (fun k => f32.decode (a i j k)) B) (f32.ofInt B)))
    (fun i j c _ _ _ => f32_encode_lt (good_div _ _ _))
  refine ⟨_, _, h2, r1, ?_, r2⟩
  intro i j hi hj
  rw [f32_dec_enc (good_div _ _ _)]
  unfold floatMean
  rw [floatSum_eq]

/-- for spectra of natural numbers whose sum does not exceed 2^24 the value is the mean, correctly rounded up to a relative error
of 2^-24 -/
theorem C71_accuracy_partial (hs : IsCubeN m p .bip S L B 4 4 a w) (hd : IsImageN m q L S 4 1 4 b) (hN : S * L * B ≤ 2147483647)
    (hsep : ∀ h, ¬ (Owns m p h ∧ PixelBlock m q h)) (z : Nat → Nat → Nat → Nat)
    (hz : ∀ i j, i < L → j < S → IntSpectrum B (a i j) (fun k => (z i j k : ℤ))) (hB : B ≤ 16777216)
    (hsum : ∀ i j, i < L → j < S → ∑ k ∈ range B, z i j k ≤ 16777216) :
    ∃ m' r, hyper_mat_mean (some p) (some q) m = .ok ((), m') ∧ IsImageN m' q L S 4 1 4 r ∧ ∀ i j, i < L → j < S →
      ∃ y, FloatIs f32 (r i j 0) y ∧ |y - (∑ k ∈ range B, (z i j k : ℚ)) / B| ≤ (∑ k ∈ range B, (z i j k : ℚ)) / B / 2 ^ 24 := by
  obtain ⟨m', r, h1, h2, h3, _⟩ := C71_mean hs hd hN hsep
  refine ⟨m', r, h1, h2, ?_⟩
  intro i j hi hj
  have hB0 : 0 < B := hs.1.posB
  have k1 : (sumF (fun k => f32.decode (a i j k)) B).Is ((∑ k ∈ range B, (z i j k : ℤ) : ℤ) : ℚ) := by
    refine sumF_int (z := fun k => (z i j k : ℤ)) (fun k hk => hz i j hi hj k hk) ?_
    intro k hk
    have hsub : ∑ i_1 ∈ range k, z i j i_1 ≤ ∑ i_1 ∈ range B, z i j i_1 :=
      sum_le_sum_of_subset (range_mono hk)
    have := hsum i j hi hj
    rw [← Nat.cast_sum, Nat.abs_cast]
    omega
  have hq : ((∑ k ∈ range B, (z i j k : ℤ) : ℤ) : ℚ) = ∑ k ∈ range B, (z i j k : ℚ) := by push_cast; rfl
  rw [hq] at k1
  have hnn : (0:ℚ) ≤ ∑ k ∈ range B, (z i j k : ℚ) := sum_nonneg fun _ _ => Nat.cast_nonneg _
  have hle : ∑ k ∈ range B, (z i j k : ℚ) ≤ 16777216 := by exact_mod_cast hsum i j hi hj
  have hBq : (0:ℚ) < B := by exact_mod_cast hB0
  have hB1 : (1:ℚ) ≤ B := by exact_mod_cast hB0
  have hBq' : (B:ℚ) ≤ 16777216 := by exact_mod_cast hB
  obtain ⟨y, hy, he⟩ := div_close k1 (is_nat32 hB) hBq (by
    rcases Nat.eq_zero_or_pos (∑ k ∈ range B, z i j k) with h0 | h0
    · left; exact_mod_cast h0
    · right
      have h1' : (1:ℚ) ≤ ∑ k ∈ range B, (z i j k : ℚ) := by exact_mod_cast h0
      rw [le_div_iff₀ hBq]
      calc (2:ℚ) ^ (-126:ℤ) * B ≤ 2 ^ (-126:ℤ) * 16777216 := by gcongr
        _ ≤ 1 := by norm_num
        _ ≤ _ := h1') (by
    rw [div_le_iff₀ hBq]
    nlinarith)
  refine ⟨y, ?_, he⟩
  show ∃ s, f32.decode (r i j 0) = .fin s y
  rw [h3 i j hi hj]
  unfold floatMean
  rw [floatSum_eq]
  exact hy

theorem mean_reads_beyond {sh : HyperMat} {f : Nat → UInt8} (hS : 0 < S) (hL : 0 < L) (hB : 0 < B) (hE : E < 4) (h1 : m.hm p = some sh)
    (h2 : sh.samples = S) (h3 : sh.lines = L) (h4 : sh.bands = B) (h6 : sh.interleave = Layout.bip.tag) (h9 : Holds m sh.data (S * L * B * E) f)
    (hd : IsImageN m q L S 4 1 4 b) (hN : S * L * B ≤ 2147483647) (hsep : ∀ h, ¬ (h = sh.data ∧ PixelBlock m q h)) :
    hyper_mat_mean (some p) (some q) m = .error (.ub .oob) := by
  obtain ⟨d, inl, g1, g2⟩ := imgN_open hd
  have hne : sh.data ≠ d := fun e => hsep sh.data ⟨rfl, ⟨_, g1, e⟩⟩
  unfold hyper_mat_mean
  rw [nonNull_some, bind_ok (getH_ok h1), cassert_bind (by
    rw [decide_eq_true_eq]
    unfold HyperMat.tagMem
    rw [h6]
    exact (cmpstr_tag_tag .bip .bip _).2 rfl)]
  have gd : derefS (some q) m = .ok (_, m) := getS_ok g1
  rw [bind_ok gd, cassert_bind (by rw [decide_eq_true_eq]; exact ⟨h2, h3⟩), cassert_bind (by rw [decide_eq_true_eq])]
  rw [h2, h3, h4]
  dsimp only
  have hSL : S * L ≤ S * L * B := Nat.le_mul_of_pos_right _ hB
  let P : Mem → Prop := fun mm => Holds mm sh.data (S * L * B * E) f ∧ ∃ x, HoldsN mm d 4 (L * S * 1) x
  have ld : ∀ mm, Holds mm sh.data (S * L * B * E) f → ∀ k : Nat,
      loadF sh.data (k : Int) mm = .error (.ub .oob) ∨ ∃ x, loadF sh.data (k : Int) mm = .ok (x, mm) := by
    intro mm hmm k
    unfold loadF
    by_cases h : k * 4 + 4 ≤ S * L * B * E
    · right
      rw [bind_ok (loadN_ok hmm h)]
      exact ⟨_, rfl⟩
    · left
      exact bind_err (loadN_oob hmm (by norm_num) (by omega))
  have av : ∀ mm, P mm → ∀ i j, i < L → j < S →
      (sp_average sh.data (((i * S * B : Nat) : Int) + ((j * B : Nat) : Int)) B mm = .error (.ub .oob) ∨
        ∃ x, sp_average sh.data (((i * S * B : Nat) : Int) + ((j * B : Nat) : Int)) B mm = .ok (x, mm)) ∧
      (i = L - 1 → j = S - 1 → sp_average sh.data (((i * S * B : Nat) : Int) + ((j * B : Nat) : Int)) B mm = .error (.ub .oob)) := by
    intro mm hmm i j hi hj
    have idx : ∀ k : Nat, ((i * S * B : Nat) : Int) + ((j * B : Nat) : Int) + (k : Int) = ((i * S * B + j * B + k : Nat) : Int) := by
      intro k; push_cast; ring
    have st : ∀ k, k < B → ∀ s : FV, (do
        let v ← loadF sh.data (((i * S * B : Nat) : Int) + ((j * B : Nat) : Int) + (k : Int))
        pure (f32.add s v)) mm = .error (.ub .oob) ∨ ∃ s', (do
        let v ← loadF sh.data (((i * S * B : Nat) : Int) + ((j * B : Nat) : Int) + (k : Int))
        pure (f32.add s v)) mm = .ok (s', mm) := by
      intro k _ s
      rw [idx]
      rcases ld mm hmm.1 (i * S * B + j * B + k) with h | ⟨x, h⟩
      · left; exact bind_err h
      · right; rw [bind_ok h]; exact ⟨_, rfl⟩
    constructor
    · unfold sp_average
      rcases forA_outcome_const (n := B) (body := fun k s => do
        let v ← loadF sh.data (((i * S * B : Nat) : Int) + ((j * B : Nat) : Int) + k)
        pure (f32.add s v)) st (FV.fin false 0) with h | ⟨x, h⟩
      · left; exact bind_err h
      · right; exact ⟨_, (bind_ok h).trans rfl⟩
    · rintro rfl rfl
      unfold sp_average
      refine bind_err (forA_fails_const (n := B) (k := B - 1) (body := fun k s => do
        let v ← loadF sh.data ((((L - 1) * S * B : Nat) : Int) + (((S - 1) * B : Nat) : Int) + k)
        pure (f32.add s v)) st (by omega) ?_ _)
      intro s
      rw [idx]
      refine bind_err ?_
      unfold loadF
      refine bind_err (loadN_oob hmm.1 (by norm_num) ?_)
      have e : (L - 1) * S * B + (S - 1) * B + (B - 1) + 1 = S * L * B := by
        obtain ⟨S, rfl⟩ := Nat.exists_eq_succ_of_ne_zero hS.ne'
        obtain ⟨L, rfl⟩ := Nat.exists_eq_succ_of_ne_zero hL.ne'
        obtain ⟨B, rfl⟩ := Nat.exists_eq_succ_of_ne_zero hB.ne'
        simp only [Nat.succ_eq_add_one, Nat.add_sub_cancel]
        ring
      have e2 : ((L - 1) * S * B + (S - 1) * B + (B - 1)) * 4 + 4 = S * L * B * 4 := by rw [← e]; ring
      rw [e2]
      exact Nat.mul_lt_mul_of_pos_left hE (by positivity)
  have hjB : ∀ j, j < S → j * B ≤ 2147483647 := by
    intro j hj
    have : j * B ≤ S * L * B := Nat.mul_le_mul_right _ (le_trans hj.le (Nat.le_mul_of_pos_right _ hL))
    omega
  have hij : ∀ i j, i < L → j < S → i * S + j < L * S := fun i j hi hj => mix_lt hi hj
  have hLS : L * S = S * L := Nat.mul_comm _ _
  have step : ∀ i j, i < L → j < S → ∀ mm, P mm → ∀ r, r = (do
      let t1 ← ev (CI.lit (i:Int) * CI.lit (S:Int) * CI.lit (B:Int))
      let t2 ← ev (CI.lit (j:Int) * CI.lit (B:Int))
      let v ← sp_average sh.data (t1 + t2) B
      let q ← ev (CI.lit (i:Int) * CI.lit (S:Int) + CI.lit (j:Int))
      storeN 4 d q (f32.encode v)) mm →
      (r = .error (.ub .oob) ∨ ∃ m', r = .ok ((), m') ∧ P m') ∧ (i = L - 1 → j = S - 1 → r = .error (.ub .oob)) := by
    rintro i j hi hj mm hmm r rfl
    rw [bind_ok (ev_ok (eval_prod3 hi.le hS hB hN) _), bind_ok (ev_ok (eval_prod2 (hjB j hj)) _)]
    obtain ⟨a1, a2⟩ := av mm hmm i j hi hj
    refine ⟨?_, fun h1 h2 => bind_err (a2 h1 h2)⟩
    rcases a1 with h | ⟨x, h⟩
    · left; exact bind_err h
    · right
      have := hij i j hi hj
      rw [bind_ok h, bind_ok (ev_ok (eval_lin (by omega)) _)]
      obtain ⟨o1, x', o2⟩ := hmm
      have hs := o2.store (i := i * S + j) (v := f32.encode x) (by omega)
      refine ⟨_, hs, o1.put_ne hne, _, holdsN_putN _ ?_⟩
      intro y hy
      split
      · exact Nat.mod_lt _ (by norm_num)
      · exact o2.2 y hy
  refine forI_fails (n := L) (k := L - 1) P (fun i hi _ hm => ?_) (by omega) (fun _ hm => ?_) (m := m) ⟨h9, _, g2⟩
  · exact forI_outcome (n := S) P (fun j hj _ hm => (step i j hi hj _ hm _ rfl).1) hm
  · exact forI_fails (n := S) (k := S - 1) P (fun j hj _ hm => (step (L-1) j (by omega) hj _ hm _ rfl).1) (by omega)
      (fun _ hm => (step (L-1) (S-1) (by omega) (by omega) _ hm _ rfl).2 rfl rfl) hm

/-- **C71 refuted**: the element type of the cube is not checked: with elements of less than four bytes the function reads beyond the
end of the cube, whatever it contains -/
theorem C71_refuted_type (hs : IsCube m p .bip S L B dt E v w) (hE : E < 4) (hd : IsImageN m q L S 4 1 4 b) (hN : S * L * B ≤ 2147483647)
    (hsep : ∀ h, ¬ (Owns m p h ∧ PixelBlock m q h)) : hyper_mat_mean (some p) (some q) m = .error (.ub .oob) := by
  obtain ⟨hE1, hS, hL, hB, sh, wb, f, h1, h2, h3, h4, h5, h6, h7, h8, h9, h10, h11⟩ := hs
  rw [bytes_iff] at h9
  exact mean_reads_beyond hS hL hB hE h1 h2 h3 h4 h6 h9 hd hN fun h hh => hsep h ⟨Or.inr ⟨sh, h1, Or.inl hh.1⟩, hh.2⟩

end

/-! ### C72 -/

section
variable {m : Mem} {x y n : Nat} {a b : Nat → Nat} {z u : Nat → ℤ}

/-- **C72**: `euclidean_distance` is symmetric, for all spectra, including the not finite ones -/
theorem C72_symmetric (hx : IsArray m x 4 n a) (hy : IsArray m y 4 n b) :
    ∃ d, euclidean_distance x 0 y 0 n m = .ok (d, m) ∧ euclidean_distance y 0 x 0 n m = .ok (d, m) := by
  rw [isArray_iff] at hx hy
  refine ⟨_, euclid_run hx hy, ?_⟩
  rw [euclid_run hy hx, sumF_congr (fun k _ => sub_sq_symm (f32.decode (b k)) (f32.decode (a k)))]

/-- the distance of a finite spectrum from itself is zero -/
theorem C72_self (hx : IsArray m x 4 n a) (hy : IsArray m y 4 n a) (hf : ∀ k, k < n → ∃ q, FloatIs f32 (a k) q) :
    euclidean_distance x 0 y 0 n m = .ok (.fin false 0, m) := by
  rw [isArray_iff] at hx hy
  rw [euclid_run hx hy, sumF_zero (by
    intro k hk
    obtain ⟨q, s, hs⟩ := hf k hk
    rw [hs]
    have h1 : f32.sub (.fin s q) (.fin s q) = .fin false 0 := by
      show f32.round (s && !s) (q + -q) = _
      rw [add_neg_cancel, Bool.and_not_self, round_zero]
    rw [h1]
    decide +kernel)]
  have e : f32.conv (f64.sqrt (f64.conv (FV.fin false 0))) = .fin false 0 := by decide +kernel
  rw [e]

/-- **C72 refuted**: an infinite element makes the distance of a spectrum from itself NaN -/
theorem C72_refuted_infinite (hx : IsArray m x 4 n a) (hy : IsArray m y 4 n a) {k : Nat} (hk : k < n) (hi : ∃ s, f32.decode (a k) = .inf s) :
    euclidean_distance x 0 y 0 n m = .ok (.nan, m) := by
  rw [isArray_iff] at hx hy
  have key : ∀ (g : Nat → FV) j, k < j → g k = .nan → sumF g j = .nan := by
    intro g j
    induction j with
    | zero => intro h; omega
    | succ j ih =>
      intro hj hg
      rw [sumF]
      rcases Nat.eq_or_lt_of_le (Nat.le_of_lt_succ hj) with rfl | h
      · rw [hg]; cases sumF g k <;> rfl
      · rw [ih h hg]; rfl
  rw [euclid_run hx hy, key _ n hk (by
    obtain ⟨s, hs⟩ := hi
    rw [hs]
    cases s <;> rfl)]
  rfl

theorem dist_sum (hz : IntSpectrum n a z) (hu : IntSpectrum n b u) (hD : ∑ k ∈ range n, (z k - u k) ^ 2 ≤ 16777216) :
    (sumF (fun k => f32.mul (f32.sub (f32.decode (a k)) (f32.decode (b k))) (f32.sub (f32.decode (a k)) (f32.decode (b k)))) n).Is
      ((∑ k ∈ range n, (z k - u k) ^ 2 : ℤ) : ℚ) := by
  refine sumF_int (z := fun k => (z k - u k) ^ 2) ?_ ?_
  · intro k hk
    have h1 : (z k - u k) ^ 2 ≤ 16777216 :=
      le_trans (single_le_sum (f := fun k => (z k - u k) ^ 2) (fun i _ => sq_nonneg _) (mem_range.2 hk)) hD
    have h2 : |z k - u k| ≤ 16777216 := by
      have := abs_le_of_sq_le_sq (b := (4096:ℤ)) (by linarith : (z k - u k) ^ 2 ≤ 4096 ^ 2) (by norm_num)
      linarith
    have h3 := is_sub (F := f32) (hz k hk) (hu k hk) (by
      have := rep32_int h2
      push_cast at this
      exact this)
    have h4 := is_mul h3 h3 (F := f32) (by
      have := rep32_int (n := (z k - u k) ^ 2) (by rw [abs_of_nonneg (sq_nonneg _)]; exact h1)
      push_cast at this
      rwa [pow_two] at this)
    have e : (((z k - u k) ^ 2 : ℤ) : ℚ) = ((z k : ℚ) - u k) * (z k - u k) := by push_cast; ring
    rw [e]
    exact h4
  · intro k hk
    rw [abs_of_nonneg (sum_nonneg fun _ _ => sq_nonneg _)]
    exact le_trans (sum_le_sum_of_subset_of_nonneg (range_mono hk) fun _ _ _ => sq_nonneg _) hD

theorem rep64_of_int {k : ℤ} (h : |k| ≤ 16777216) : f64.Rep k := by
  refine ⟨k, 0, by norm_num, le_trans h (by decide), by decide, ?_⟩
  have : |(k:ℚ)| ≤ 16777216 := by exact_mod_cast h
  refine lt_of_le_of_lt (lt_of_le_of_lt this (by norm_num : (16777216:ℚ) < 2 ^ 25)).le ?_
  show (2:ℚ) ^ 25 < 2 ^ 1024
  exact pow_lt_pow_right₀ (by norm_num) (by norm_num)

/-- for integer spectra whose squared distance is a square of at most 2^24 the result is exact -/
theorem C72_exact_partial (hx : IsArray m x 4 n a) (hy : IsArray m y 4 n b) (hz : IntSpectrum n a z) (hu : IntSpectrum n b u) {r : Nat}
    (hr : ∑ k ∈ range n, (z k - u k) ^ 2 = (r:ℤ) ^ 2) (hD : r ≤ 4096) :
    ∃ d, euclidean_distance x 0 y 0 n m = .ok (d, m) ∧ ∃ s, d = .fin s (r : ℚ) := by
  rw [isArray_iff] at hx hy
  have hr2 : (r:ℤ) ^ 2 ≤ 16777216 := by
    have : (r:ℤ) ≤ 4096 := by exact_mod_cast hD
    nlinarith
  have h1 := dist_sum hz hu (by rw [hr]; exact hr2)
  rw [hr] at h1
  obtain ⟨s, h2⟩ := is_conv (F := f64) h1 (rep64_of_int (by rw [abs_of_nonneg (sq_nonneg _)]; exact hr2))
  refine ⟨_, euclid_run hx hy, ?_⟩
  rw [h2]
  have hr32 : f32.Rep ((r:ℤ):ℚ) := rep32_int (by rw [abs_le]; constructor <;> omega)
  rw [Int.cast_natCast] at hr32
  rcases Nat.eq_zero_or_pos r with rfl | h0
  · refine ⟨s, ?_⟩
    simp only [Nat.cast_zero, Int.cast_zero, ne_eq, OfNat.ofNat_ne_zero, not_false_eq_true, zero_pow]
    rw [sqrt_zero]
    show f32.round s 0 = _
    rw [round_zero]
  · have e : (((r:ℤ) ^ 2 : ℤ) : ℚ) = (r:ℚ) * r := by push_cast; ring
    rw [e, sqrt_sq (by exact_mod_cast h0) (Fmt.Rep.g (by
      have := rep64_of_int (k := (r:ℤ)) (by rw [abs_le]; constructor <;> omega)
      rwa [Int.cast_natCast] at this))]
    exact is_conv ⟨false, rfl⟩ hr32

/-- for integer spectra whose squared distance is at most 2^24 the relative error is at most 2^-23 -/
theorem C72_accuracy_partial (hx : IsArray m x 4 n a) (hy : IsArray m y 4 n b) (hz : IntSpectrum n a z) (hu : IntSpectrum n b u)
    (hD : ∑ k ∈ range n, (z k - u k) ^ 2 ≤ 16777216) :
    ∃ d q, euclidean_distance x 0 y 0 n m = .ok (d, m) ∧ (∃ s, d = .fin s q) ∧
      |(q:ℝ) - Real.sqrt (∑ k ∈ range n, ((z k : ℝ) - u k) ^ 2)| ≤ Real.sqrt (∑ k ∈ range n, ((z k : ℝ) - u k) ^ 2) / 2 ^ 23 := by
  rw [isArray_iff] at hx hy
  have h1 := dist_sum hz hu hD
  have hnn : 0 ≤ ∑ k ∈ range n, (z k - u k) ^ 2 := sum_nonneg fun _ _ => sq_nonneg _
  have hre : ∑ k ∈ range n, ((z k : ℝ) - u k) ^ 2 = ((∑ k ∈ range n, (z k - u k) ^ 2 : ℤ) : ℝ) := by push_cast; rfl
  rw [hre]
  set D := ∑ k ∈ range n, (z k - u k) ^ 2 with hDd
  clear_value D
  obtain ⟨s, h2⟩ := is_conv (F := f64) h1 (rep64_of_int (by rw [abs_of_nonneg hnn]; exact hD))
  have hrun := euclid_run hx hy
  rw [h2] at hrun
  rcases eq_or_lt_of_le hnn with h0 | h0
  · subst h0
    refine ⟨_, 0, hrun, ⟨s, ?_⟩, by simp⟩
    rw [Int.cast_zero, sqrt_zero]
    exact round_zero
  · have hq : (0:ℚ) < (D:ℚ) := by exact_mod_cast h0
    have hq1 : (1:ℚ) ≤ (D:ℚ) := by exact_mod_cast h0
    have hlog : 0 ≤ Int.log 2 (D:ℚ) := by
      have := (Int.zpow_le_iff_le_log (b := 2) (by norm_num) hq (x := 0)).1 (by simpa using hq1)
      exact this
    obtain ⟨v, v1, v2⟩ := sqrt_err (F := f64) (s := s) hq (by
      have e : f64.emin + f64.t = -1022 := by decide
      rw [e]; omega)
    rw [v1] at hrun
    have hc : ((D:ℚ):ℝ) = (D:ℝ) := by norm_cast
    rw [hc] at v2
    have hs1 : (1:ℝ) ≤ Real.sqrt D := by
      rw [Real.one_le_sqrt]; exact_mod_cast h0
    have hs2 : Real.sqrt D ≤ 4096 := by
      rw [Real.sqrt_le_iff]
      refine ⟨by norm_num, ?_⟩
      have : (D:ℝ) ≤ 16777216 := by exact_mod_cast hD
      linarith
    have e53 : ((2:ℝ) ^ (f64.t + 1)) = 9007199254740992 := by
      show (2:ℝ) ^ 53 = _
      norm_num
    rw [e53] at v2
    have v3 := abs_le.1 v2
    have vpos : (1:ℝ)/2 ≤ (v:ℝ) := by linarith [v3.1]
    have vup : (v:ℝ) ≤ 5000 := by linarith [v3.2]
    have vposq : (1:ℚ)/2 ≤ v := by
      have : (((1:ℚ)/2 : ℚ) : ℝ) ≤ (v:ℝ) := by push_cast; exact vpos
      exact_mod_cast this
    have vupq : v ≤ 5000 := by exact_mod_cast vup
    have hrel := rv_rel (q := v) (by
      rw [abs_of_nonneg (by linarith)]
      refine le_trans ?_ vposq
      norm_num)
    rw [abs_of_nonneg (by linarith : (0:ℚ) ≤ v)] at hrel
    obtain ⟨s', hs'⟩ := round_rv' (F := f32) (z := false) (q := v) (by
      have := abs_le.1 hrel
      have h3 : |f32.rv v| ≤ 10000 := by rw [abs_le]; constructor <;> linarith
      refine lt_of_le_of_lt h3 ?_
      show (10000:ℚ) < 2 ^ 128
      norm_num)
    refine ⟨_, f32.rv v, hrun, ⟨s', hs'⟩, ?_⟩
    have hrelR : |((f32.rv v : ℚ):ℝ) - (v:ℝ)| ≤ (v:ℝ) / 2 ^ 24 := by exact_mod_cast hrel
    have h5 := abs_le.1 hrelR
    rw [abs_le]
    constructor <;> linarith [v3.1, v3.2, h5.1, h5.2]

/-! ### C73 -/

theorem absTrunc_some {v : FV} {s : Bool} {q : ℚ} (h : v = .fin s q) (hq : |q| < 2147483648) : ∃ c, absTrunc v = some c := by
  subst h
  obtain ⟨q1, q2⟩ := abs_lt.1 hq
  unfold absTrunc FV.trunc
  by_cases h0 : 0 ≤ q
  · have h1 : 0 ≤ ⌊q⌋ := Int.floor_nonneg.2 h0
    have h2 : ⌊q⌋ < 2147483648 := Int.floor_lt.2 (by exact_mod_cast q2)
    simp only [h0, if_true]
    rw [if_pos (by omega)]
    dsimp only
    rw [if_neg (by omega)]
    exact ⟨_, rfl⟩
  · have h1 : 0 ≤ ⌊-q⌋ := Int.floor_nonneg.2 (by linarith)
    have h2 : ⌊-q⌋ < 2147483648 := Int.floor_lt.2 (by push_cast; linarith)
    simp only [h0, if_false]
    rw [if_pos (by omega)]
    dsimp only
    rw [if_neg (by omega)]
    exact ⟨_, rfl⟩

/-- **C73**: the angle is symmetric: whenever it is defined for two spectra, it is defined and the same with the spectra exchanged -/
theorem C73_symmetric (acos : FV → FV) (hx : IsArray m x 4 n a) (hy : IsArray m y 4 n b) (r : FV) (m' : Mem) :
    spectral_angle_mapper acos (some (x, 0)) (some (y, 0)) n m = .ok (r, m') ↔
    spectral_angle_mapper acos (some (y, 0)) (some (x, 0)) n m = .ok (r, m') := by
  rw [isArray_iff] at hx hy
  by_cases h : ∀ k, k < n → absTrunc (f32.mul (f32.decode (a k)) (f32.decode (b k))) ≠ none
  · have h' : ∃ c : Nat → ℤ, ∀ k, k < n → absTrunc (f32.mul (f32.decode (a k)) (f32.decode (b k))) = some (c k) := by
      refine ⟨fun k => (absTrunc (f32.mul (f32.decode (a k)) (f32.decode (b k)))).getD 0, ?_⟩
      intro k hk
      cases e : absTrunc (f32.mul (f32.decode (a k)) (f32.decode (b k))) with
      | none => exact absurd e (h k hk)
      | some c => dsimp only; rw [e]; rfl
    obtain ⟨c, hc⟩ := h'
    rw [sam_run acos hx hy hc, sam_run acos hy hx (c := c) (fun k hk => by rw [mul_symm]; exact hc k hk), mul_symm (sumF _ n)]
  · push Not at h
    obtain ⟨k, hk, hn⟩ := h
    obtain ⟨u1, h1⟩ := sam_ub acos hx hy hk hn
    obtain ⟨u2, h2⟩ := sam_ub acos hy hx hk (by rw [mul_symm]; exact hn)
    rw [h1, h2]
    constructor <;> intro h <;> cases h

/-- it is defined if the products of corresponding elements fit in `int` -/
theorem C73_defined (acos : FV → FV) (hx : IsArray m x 4 n a) (hy : IsArray m y 4 n b) (h : ProductsFit n a b) :
    ∃ r, spectral_angle_mapper acos (some (x, 0)) (some (y, 0)) n m = .ok (r, m) := by
  rw [isArray_iff] at hx hy
  have h' : ∃ c : Nat → ℤ, ∀ k, k < n → absTrunc (f32.mul (f32.decode (a k)) (f32.decode (b k))) = some (c k) := by
    refine ⟨fun k => (absTrunc (f32.mul (f32.decode (a k)) (f32.decode (b k)))).getD 0, ?_⟩
    intro k hk
    obtain ⟨s, q, e, hq⟩ := h k hk
    obtain ⟨c, hc⟩ := absTrunc_some e hq
    dsimp only; rw [hc]; rfl
  obtain ⟨c, hc⟩ := h'
  exact ⟨_, sam_run acos hx hy hc⟩

/-- **C73 refuted**: a product of two elements of 2^31 or more in absolute value, as of reflectances scaled to 16 bits, is undefined behaviour -/
theorem C73_refuted_large (acos : FV → FV) (hx : IsArray m x 4 n a) (hy : IsArray m y 4 n b) {k : Nat} (hk : k < n)
    (h : ∃ s q, f32.mul (f32.decode (a k)) (f32.decode (b k)) = .fin s q ∧ 2147483648 ≤ |q|) :
    ∃ u, spectral_angle_mapper acos (some (x, 0)) (some (y, 0)) n m = .error (.ub u) := by
  rw [isArray_iff] at hx hy
  obtain ⟨s, q, e, hq⟩ := h
  refine sam_ub acos hx hy hk ?_
  rw [e]
  unfold absTrunc FV.trunc
  by_cases h0 : 0 ≤ q
  · rw [abs_of_nonneg h0] at hq
    have h2 : 2147483648 ≤ ⌊q⌋ := Int.le_floor.2 (by exact_mod_cast hq)
    simp only [h0, if_true]
    rw [if_neg (by omega)]
  · rw [abs_of_neg (not_le.1 h0)] at hq
    have h2 : 2147483648 ≤ ⌊-q⌋ := Int.le_floor.2 (by exact_mod_cast hq)
    simp only [h0, if_false]
    by_cases h3 : -2147483648 ≤ -⌊-q⌋ ∧ -⌊-q⌋ ≤ 2147483647
    · rw [if_pos h3]
      dsimp only
      rw [if_pos (by omega)]
    · rw [if_neg h3]

theorem absTrunc_int {v : FV} {k : ℤ} (h : v.Is (k:ℚ)) (hk : |k| ≤ 16777216) : absTrunc v = some |k| := by
  obtain ⟨s, rfl⟩ := h
  have := abs_le.1 hk
  unfold absTrunc FV.trunc
  by_cases h0 : 0 ≤ k
  · have h0' : (0:ℚ) ≤ (k:ℚ) := by exact_mod_cast h0
    simp only [h0', if_true, Int.floor_intCast]
    rw [if_pos (by omega)]
    dsimp only
    rw [if_neg (by omega)]
  · have h0' : ¬ (0:ℚ) ≤ (k:ℚ) := by exact_mod_cast h0
    simp only [h0', if_false]
    rw [← Int.cast_neg, Int.floor_intCast, neg_neg, if_pos (by omega)]
    dsimp only
    rw [if_neg (by omega)]

/-- the angle between an integer spectrum and a positive integer multiple of it is the arc cosine of 1, if the numbers are small -/
theorem C73_proportional_partial (acos : FV → FV) {c : Nat} (hx : IsArray m x 4 n a) (hy : IsArray m y 4 n b) (hz : IntSpectrum n a z)
    (hu : IntSpectrum n b (fun k => c * z k)) (hc : 0 < c) (h0 : 0 < ∑ k ∈ range n, z k ^ 2) (hs : c * ∑ k ∈ range n, z k ^ 2 ≤ 4096) :
    spectral_angle_mapper acos (some (x, 0)) (some (y, 0)) n m = .ok (f32.conv (acos (.fin false 1)), m) := by
  rw [isArray_iff] at hx hy
  have hc1 : (1:ℤ) ≤ c := by exact_mod_cast hc
  set X := ∑ k ∈ range n, z k ^ 2 with hX
  have hXle : X ≤ c * X := by nlinarith
  have hccX : (c:ℤ) * c * X ≤ 16777216 := by
    have h1 : (c:ℤ) * X * (c * X) ≤ 4096 * 4096 := by
      apply mul_le_mul hs hs (by positivity) (by norm_num)
    nlinarith [mul_nonneg (mul_nonneg (by linarith : (0:ℤ) ≤ c) (by linarith : (0:ℤ) ≤ c)) h0.le]
  have term : ∀ k, k < n → z k ^ 2 ≤ X := fun k hk => single_le_sum (f := fun k => z k ^ 2) (fun i _ => sq_nonneg _) (mem_range.2 hk)
  have part : ∀ k, k ≤ n → 0 ≤ ∑ i ∈ range k, z i ^ 2 ∧ ∑ i ∈ range k, z i ^ 2 ≤ X := fun k hk =>
    ⟨sum_nonneg fun _ _ => sq_nonneg _, sum_le_sum_of_subset_of_nonneg (range_mono hk) fun _ _ _ => sq_nonneg _⟩
  have prod : ∀ k, k < n → (f32.mul (f32.decode (a k)) (f32.decode (b k))).Is ((c * z k ^ 2 : ℤ) : ℚ) := by
    intro k hk
    have hb : |(c:ℤ) * z k ^ 2| ≤ 16777216 := by
      rw [abs_of_nonneg (by positivity)]
      nlinarith [term k hk]
    have := is_mul (F := f32) (hz k hk) (hu k hk) (by
      have := rep32_int hb
      have e : (((c:ℤ) * z k ^ 2 : ℤ) : ℚ) = (z k : ℚ) * ((c * z k : ℤ) : ℚ) := by push_cast; ring
      rwa [e] at this)
    have e : (((c:ℤ) * z k ^ 2 : ℤ) : ℚ) = (z k : ℚ) * ((c * z k : ℤ) : ℚ) := by push_cast; ring
    rw [e]; exact this
  have sqr : ∀ k, k < n → (f32.mul (f32.decode (a k)) (f32.decode (a k))).Is ((z k ^ 2 : ℤ) : ℚ) := by
    intro k hk
    have hb : |z k ^ 2| ≤ 16777216 := by
      rw [abs_of_nonneg (by positivity)]
      linarith [term k hk]
    have e : ((z k ^ 2 : ℤ) : ℚ) = (z k : ℚ) * (z k : ℚ) := by push_cast; ring
    have h1 := rep32_int hb
    rw [e] at h1 ⊢
    exact is_mul (F := f32) (hz k hk) (hz k hk) h1
  have sqr2 : ∀ k, k < n → (f32.mul (f32.decode (b k)) (f32.decode (b k))).Is ((c * c * z k ^ 2 : ℤ) : ℚ) := by
    intro k hk
    have hb : |(c:ℤ) * c * z k ^ 2| ≤ 16777216 := by
      rw [abs_of_nonneg (by positivity)]
      nlinarith [term k hk]
    have e : ((c * c * z k ^ 2 : ℤ) : ℚ) = ((c * z k : ℤ) : ℚ) * ((c * z k : ℤ) : ℚ) := by push_cast; ring
    have h1 := rep32_int hb
    rw [e] at h1 ⊢
    exact is_mul (F := f32) (hu k hk) (hu k hk) h1
  have s1 : (sumF (fun k => f32.ofInt ((c:ℤ) * z k ^ 2)) n).Is ((∑ k ∈ range n, (c:ℤ) * z k ^ 2 : ℤ) : ℚ) := by
    refine sumF_int (z := fun k => (c:ℤ) * z k ^ 2) (fun k hk => is_ofInt (rep32_int ?_)) ?_
    · rw [abs_of_nonneg (by positivity)]
      nlinarith [term k hk]
    · intro k hk
      rw [← mul_sum, abs_of_nonneg (mul_nonneg (by positivity) (part k hk).1)]
      nlinarith [(part k hk).2]
  have s2 := sumF_int (z := fun k => z k ^ 2) sqr (fun k hk => by
    rw [abs_of_nonneg (part k hk).1]; linarith [(part k hk).2])
  have s3 := sumF_int (z := fun k => (c:ℤ) * c * z k ^ 2) sqr2 (fun k hk => by
    rw [← mul_sum, abs_of_nonneg (mul_nonneg (by positivity) (part k hk).1)]
    nlinarith [(part k hk).2])
  rw [← mul_sum, ← hX] at s1 s3
  rw [← hX] at s2
  rw [sam_run acos hx hy (c := fun k => (c:ℤ) * z k ^ 2) (fun k hk => by
    rw [absTrunc_int (prod k hk) (by rw [abs_of_nonneg (by positivity)]; nlinarith [term k hk]), abs_of_nonneg (by positivity)])]
  have q1 := is_conv (F := f64) s1 (rep64_of_int (by rw [abs_of_nonneg (by positivity)]; linarith))
  have eXY : ((X:ℤ):ℚ) * (((c:ℤ) * c * X : ℤ) : ℚ) = (((c * X) * (c * X) : ℤ) : ℚ) := by push_cast; ring
  have hle : (c * X) * (c * X) ≤ 16777216 := by
    have : (c:ℤ) * X * (c * X) ≤ 4096 * 4096 := mul_le_mul hs hs (by positivity) (by norm_num)
    linarith
  have q2 := is_mul (F := f32) s2 s3 (by
    rw [eXY]
    exact rep32_int (by rw [abs_of_nonneg (by positivity)]; exact hle))
  rw [eXY] at q2
  have q3 := is_conv (F := f64) q2 (rep64_of_int (by rw [abs_of_nonneg (by positivity)]; exact hle))
  obtain ⟨t1, q1⟩ := q1
  obtain ⟨t3, q3⟩ := q3
  rw [q1, q3]
  have hcX : 0 < (c:ℤ) * X := by positivity
  have eq : (((c * X) * (c * X) : ℤ) : ℚ) = (((c:ℤ) * X : ℤ):ℚ) * (((c:ℤ) * X : ℤ):ℚ) := by push_cast; ring
  rw [eq, sqrt_sq (by exact_mod_cast hcX) (Fmt.Rep.g (rep64_of_int (by rw [abs_of_pos hcX]; linarith)))]
  have hne : (((c:ℤ) * X : ℤ):ℚ) ≠ 0 := by exact_mod_cast hcX.ne'
  have hdiv : f64.div (.fin t1 (((c:ℤ) * X : ℤ):ℚ)) (.fin false (((c:ℤ) * X : ℤ):ℚ)) = .fin false 1 := by
    show (if (((c:ℤ) * X : ℤ):ℚ) = 0 then _ else _) = _
    rw [if_neg hne, div_self hne]
    cases t1 <;> decide +kernel
  rw [hdiv]

/-- **C73 refuted**: the angle between the spectrum (64, 1) and itself is NaN, because the quotient of the rounded sums exceeds 1: the only
assumption about the library function is that the arc cosine of a number above 1 is NaN -/
theorem C73_refuted_self (acos : FV → FV) (hac : ∀ v, FV.lt (.fin false 1) v = true → acos v = .nan) (hx : IsArray m x 4 2 a)
    (h0 : a 0 = f32.encode (.fin false 64)) (h1 : a 1 = f32.encode (.fin false 1)) :
    spectral_angle_mapper acos (some (x, 0)) (some (x, 0)) 2 m = .ok (.nan, m) := by
  rw [isArray_iff] at hx
  have d0 : f32.decode (a 0) = .fin false 64 := by rw [h0]; decide +kernel
  have d1 : f32.decode (a 1) = .fin false 1 := by rw [h1]; decide +kernel
  have := sam_run acos hx hx (c := fun k => if k = 0 then 4096 else 1) (by
    intro k hk
    interval_cases k
    · rw [d0]; decide +kernel
    · rw [d1]; decide +kernel)
  have e : sumF (fun k => f32.mul (f32.decode (a k)) (f32.decode (a k))) 2 = .fin false 4097 := by
    simp only [sumF, d0, d1]
    decide +kernel
  rw [e] at this
  refine this.trans ?_
  rw [hac _ (by decide +kernel)]
  rfl

/-! sums of numbers between 0 and 1 -/

theorem sumF_unit {g : Nat → FV} {n : Nat} (h : ∀ k, k < n → ∃ s q, g k = .fin s q ∧ 0 ≤ q ∧ q ≤ 1) (hn : n ≤ 16777216) :
    ∃ s v, sumF g n = .fin s v ∧ 0 ≤ v ∧ v ≤ n ∧ ∀ c, f32.GRep c → (∃ k s q, k < n ∧ g k = .fin s q ∧ c ≤ q) → c ≤ v := by
  induction n with
  | zero => exact ⟨false, 0, rfl, le_refl _, by simp, fun c _ ⟨k, _, _, h, _⟩ => by omega⟩
  | succ n ih =>
    obtain ⟨s, v, e, v0, v1, v2⟩ := ih (fun k hk => h k (by omega)) (by omega)
    obtain ⟨s', q, e', q0, q1⟩ := h n (by omega)
    have hle : v + q ≤ ((n + 1 : Nat) : ℚ) := by push_cast; linarith
    have hrep : f32.Rep (((n+1 : Nat) : ℤ) : ℚ) := rep32_int (by rw [abs_le]; constructor <;> omega)
    have hup : f32.rv (v + q) ≤ ((n + 1 : Nat) : ℚ) := rv_le (by
      have := hrep.g
      rwa [Int.cast_natCast] at this) hle
    have hlo : 0 ≤ f32.rv (v + q) := rv_nonneg (by linarith)
    obtain ⟨t, ht⟩ := round_rv' (F := f32) (z := s && s') (q := v + q) (by
      rw [abs_of_nonneg hlo]
      have : ((n + 1 : Nat) : ℚ) ≤ 16777216 := by exact_mod_cast hn
      refine lt_of_le_of_lt (le_trans hup this) ?_
      show (16777216:ℚ) < 2 ^ 128
      norm_num)
    refine ⟨t, f32.rv (v + q), ?_, hlo, hup, ?_⟩
    · rw [sumF, e, e']; exact ht
    · rintro c hc ⟨k, s'', q'', hk, hg, hcq⟩
      refine rv_ge hc ?_
      rcases Nat.eq_or_lt_of_le (Nat.le_of_lt_succ hk) with rfl | hk'
      · rw [e'] at hg
        cases hg
        linarith
      · linarith [v2 c hc ⟨k, s'', q'', hk', hg, hcq⟩]

theorem mul_unit {u v : FV} {s s' : Bool} {q q' : ℚ} (hu : u = .fin s q) (hv : v = .fin s' q') (h : |q| < 1) (h' : |q'| < 1) :
    ∃ t r, f32.mul u v = .fin t r ∧ |r| ≤ 1 ∧ (0 ≤ q * q' → 0 ≤ r) ∧ (∀ c, f32.GRep c → c ≤ q * q' → c ≤ r) := by
  subst hu; subst hv
  have hp : |q * q'| ≤ 1 := by
    rw [abs_mul]
    calc |q| * |q'| ≤ 1 * 1 := mul_le_mul h.le h'.le (abs_nonneg _) (by norm_num)
      _ = 1 := one_mul 1
  have hb := abs_le.1 hp
  have g1 : f32.GRep 1 := by
    have := grep_pow (F := f32) (k := 0) (by decide)
    simpa using this
  have r1 : f32.rv (q * q') ≤ 1 := rv_le g1 hb.2
  have r2 : -1 ≤ f32.rv (q * q') := rv_ge (GRep.neg g1) hb.1
  have hr : |f32.rv (q * q')| ≤ 1 := abs_le.2 ⟨r2, r1⟩
  obtain ⟨t, ht⟩ := round_rv' (F := f32) (z := s != s') (q := q * q') (by
    refine lt_of_le_of_lt hr ?_
    show (1:ℚ) < 2 ^ 128
    norm_num)
  exact ⟨t, _, ht, hr, fun h => rv_nonneg h, fun c hc h => rv_ge hc h⟩

/-- **C73 refuted**: for spectra with elements between 2^-10 and 1 - 2^-10, as reflectances are, the result does not depend on the spectra: it is the arc
cosine of zero even if the spectra are equal, because the products are truncated to integers -/
theorem C73_refuted_reflectance (acos : FV → FV) (hx : IsArray m x 4 n a) (hy : IsArray m y 4 n b) (hn : 0 < n) (hn' : n ≤ 16777216)
    (ha : ∀ k, k < n → ∃ q, FloatIs f32 (a k) q ∧ 1 / 1024 ≤ q ∧ q ≤ 1023 / 1024)
    (hb : ∀ k, k < n → ∃ q, FloatIs f32 (b k) q ∧ 1 / 1024 ≤ q ∧ q ≤ 1023 / 1024) :
    spectral_angle_mapper acos (some (x, 0)) (some (y, 0)) n m = .ok (f32.conv (acos (.fin false 0)), m) := by
  rw [isArray_iff] at hx hy
  have g20 : f32.GRep (1 / 1048576) := by
    have := grep_pow (F := f32) (k := -20) (by decide)
    have e : (2:ℚ) ^ (-20:ℤ) = 1 / 1048576 := by norm_num
    rwa [e] at this
  have sq : ∀ {a b : Nat → Nat} k, k < n → (∃ q, FloatIs f32 (a k) q ∧ 1 / 1024 ≤ q ∧ q ≤ 1023 / 1024) →
      (∃ q, FloatIs f32 (b k) q ∧ 1 / 1024 ≤ q ∧ q ≤ 1023 / 1024) →
      ∃ s q, f32.mul (f32.decode (a k)) (f32.decode (b k)) = .fin s q ∧ 1 / 1048576 ≤ q ∧ q < 1 := by
    rintro a b k hk ⟨q, ⟨s, e⟩, l, u⟩ ⟨q', ⟨s', e'⟩, l', u'⟩
    rw [e, e']
    have hlo : (1:ℚ) / 1048576 ≤ q * q' := by nlinarith
    have g1 : f32.GRep (1023 / 1024) := ⟨1023, -10, by norm_num, by decide, by decide⟩
    have hup : q * q' ≤ 1023 / 1024 := by nlinarith
    have r1 := rv_le g1 hup
    have r2 := rv_ge g20 hlo
    obtain ⟨t, ht⟩ := round_rv' (F := f32) (z := s != s') (q := q * q') (by
      rw [abs_of_nonneg (by linarith)]
      refine lt_of_le_of_lt r1 ?_
      show (1023/1024:ℚ) < 2 ^ 128
      norm_num)
    exact ⟨t, _, ht, r2, by linarith⟩
  have hc : ∀ k, k < n → absTrunc (f32.mul (f32.decode (a k)) (f32.decode (b k))) = some 0 := by
    intro k hk
    obtain ⟨s, q, e, l, u⟩ := sq k hk (ha k hk) (hb k hk)
    rw [e]
    unfold absTrunc FV.trunc
    have h0 : 0 ≤ q := by linarith
    have hf : ⌊q⌋ = 0 := Int.floor_eq_iff.2 ⟨by simpa using h0, by simpa using u⟩
    simp only [h0, if_true, hf]
    decide
  rw [sam_run acos hx hy (c := fun _ => 0) hc]
  have z0 : sumF (fun _ => f32.ofInt 0) n = .fin false 0 := sumF_zero (fun k _ => by decide +kernel)
  rw [z0]
  have S : ∀ {a : Nat → Nat}, (∀ k, k < n → ∃ q, FloatIs f32 (a k) q ∧ 1 / 1024 ≤ q ∧ q ≤ 1023 / 1024) →
      ∃ s v, sumF (fun k => f32.mul (f32.decode (a k)) (f32.decode (a k))) n = .fin s v ∧ 1 / 1048576 ≤ v ∧ v ≤ 16777216 := by
    intro a ha
    obtain ⟨s, v, e, v0, v1, v2⟩ := sumF_unit (g := fun k => f32.mul (f32.decode (a k)) (f32.decode (a k))) (n := n) (by
      intro k hk
      obtain ⟨s, q, e, l, u⟩ := sq k hk (ha k hk) (ha k hk)
      exact ⟨s, q, e, by linarith, u.le⟩) hn'
    refine ⟨s, v, e, v2 _ g20 ?_, le_trans v1 (by exact_mod_cast hn')⟩
    obtain ⟨s, q, e, l, u⟩ := sq 0 hn (ha 0 hn) (ha 0 hn)
    exact ⟨0, s, q, hn, e, l⟩
  obtain ⟨s1, v1, e1, l1, u1⟩ := S ha
  obtain ⟨s2, v2, e2, l2, u2⟩ := S hb
  rw [e1, e2]
  have hp : (2:ℚ) ^ (-40:ℤ) ≤ v1 * v2 := by
    have : (2:ℚ) ^ (-40:ℤ) = 1 / 1048576 * (1 / 1048576) := by norm_num
    rw [this]
    exact mul_le_mul l1 l2 (by norm_num) (by linarith)
  have hp' : v1 * v2 ≤ 2 ^ (48:ℤ) := by
    have : (2:ℚ) ^ (48:ℤ) = 16777216 * 16777216 := by norm_num
    rw [this]
    exact mul_le_mul u1 u2 (by linarith) (by norm_num)
  have r1 := rv_ge (grep_pow (F := f32) (k := -40) (by decide)) hp
  have r2 := rv_le (grep_pow (F := f32) (k := 48) (by decide)) hp'
  have pos40 : (0:ℚ) < 2 ^ (-40:ℤ) := by positivity
  obtain ⟨t, ht⟩ := round_rv' (F := f32) (z := s1 != s2) (q := v1 * v2) (by
    rw [abs_of_nonneg (by linarith)]
    refine lt_of_le_of_lt r2 ?_
    show (2:ℚ) ^ (48:ℤ) < 2 ^ 128
    norm_num)
  have em : f32.mul (.fin s1 v1) (.fin s2 v2) = .fin t (f32.rv (v1 * v2)) := ht
  rw [em]
  have hd : ∀ s (w : ℚ), 0 < w → f64.div (f64.conv (.fin false 0)) (.fin s w) = .fin (false != s) 0 := by
    intro s w hw
    have : f64.conv (.fin false 0) = .fin false 0 := by decide +kernel
    rw [this]
    show (if w = 0 then _ else f64.round _ (0 / w)) = _
    rw [if_neg hw.ne', zero_div, round_zero]
  -- the conversion to double and the square root are positive numbers
  have q1 := rv_ge (grep_pow (F := f64) (k := -40) (by decide)) r1
  have q2 := rv_le (grep_pow (F := f64) (k := 48) (by decide)) r2
  obtain ⟨t', ht'⟩ := round_rv' (F := f64) (z := t) (q := f32.rv (v1 * v2)) (by
    rw [abs_of_nonneg (by linarith)]
    refine lt_of_le_of_lt q2 ?_
    show (2:ℚ) ^ (48:ℤ) < 2 ^ 1024
    calc (2:ℚ) ^ (48:ℤ) < 2 ^ 100 := by norm_num
      _ < 2 ^ 1024 := pow_lt_pow_right₀ (by norm_num) (by norm_num))
  have ec : f64.conv (.fin t (f32.rv (v1 * v2))) = .fin t' (f64.rv (f32.rv (v1 * v2))) := ht'
  rw [ec]
  set W := f64.rv (f32.rv (v1 * v2))
  have hW : 0 < W := by linarith
  obtain ⟨v, w1, w2⟩ := sqrt_err (F := f64) (s := t') hW (by
    have e : f64.emin + f64.t = -1022 := by decide
    rw [e]
    have := (Int.zpow_le_iff_le_log (b := 2) (by norm_num) hW (x := -40)).1 (by exact_mod_cast q1)
    omega)
  rw [w1]
  have hv : 0 < v := by
    have hs : 0 < Real.sqrt (W:ℝ) := Real.sqrt_pos.2 (by exact_mod_cast hW)
    have e53 : ((2:ℝ) ^ (f64.t + 1)) = 9007199254740992 := by
      show (2:ℝ) ^ 53 = _
      norm_num
    rw [e53] at w2
    have := (abs_le.1 w2).1
    have h3 : (0:ℝ) < (v:ℝ) := by linarith
    exact_mod_cast h3
  rw [hd _ _ hv]
  rfl

/-! ### C74 -/

/-- **C74**: `spectrum_SAM_match` returns a new byte image that is 1 exactly where the angle between the spectrum of the pixel and the
reference, as `spectral_angle_mapper` computes it, is at least the threshold, and 0 elsewhere; nothing that existed is changed -/
theorem C74_match (acos : FV → FV) (hm : m.WF) {p S L B sp : Nat} {a : Nat → Nat → Nat → Nat} {r : Nat → Nat} {w : Nat → UInt8} {thr : FV}
    (hs : IsCubeN m p .bip S L B 4 4 a w) (hr : IsArray m sp 4 B r) (hN : S * L * B * 4 ≤ 2147483551)
    (hfit : ∀ i j, i < L → j < S → ProductsFit B (a i j) r) :
    ∃ (angle : Nat → Nat → FV) (q : Nat) (m' : Mem),
      (∀ i j, i < L → j < S → ∀ m0 x y, IsArray m0 x 4 B (a i j) → IsArray m0 y 4 B r →
        spectral_angle_mapper acos (some (x, 0)) (some (y, 0)) B m0 = .ok (angle i j, m0)) ∧
      spectrum_SAM_match acos (some p) (some sp) thr m = .ok (some q, m') ∧
      IsImage8 m' q L S 1 (fun i j _ => if FV.le thr (angle i j) then 1 else 0) ∧ Frame m m' ∧ FreshImg m m' q ∧ m'.WF := by
  have h' : ∃ c : Nat → Nat → Nat → ℤ, ∀ i j k, i < L → j < S → k < B →
      absTrunc (f32.mul (f32.decode (a i j k)) (f32.decode (r k))) = some (c i j k) := by
    refine ⟨fun i j k => (absTrunc (f32.mul (f32.decode (a i j k)) (f32.decode (r k)))).getD 0, ?_⟩
    intro i j k hi hj hk
    obtain ⟨s, q, e, hq⟩ := hfit i j hi hj k hk
    obtain ⟨c, hc⟩ := absTrunc_some e hq
    dsimp only; rw [hc]; rfl
  obtain ⟨c, hc⟩ := h'
  obtain ⟨m', h1, h2, h3, h4, h5⟩ := samMatch_run acos (thr := thr) hm hs (isArray_iff.1 hr) hN hc
  refine ⟨fun i j => samValue acos B (a i j) r (c i j), _, m', ?_, h1, h2, h3, h4, h5⟩
  intro i j hi hj m0 x y hx hy
  exact sam_run acos (isArray_iff.1 hx) (isArray_iff.1 hy) (fun k hk => hc i j k hi hj hk)

/-- **C74 refuted**: the marks are on the wrong pixels: a pixel whose spectrum equals the reference is marked 0 for every positive threshold,
if only the arc cosine of 1 is 0 -/
theorem C74_refuted_sense (acos : FV → FV) (hac : acos (.fin false 1) = .fin false 0) (hm : m.WF) {p S L B sp i0 j0 : Nat}
    {a : Nat → Nat → Nat → Nat} {r : Nat → Nat} {w : Nat → UInt8} {s : Bool} {thr : ℚ} (hthr : 0 < thr)
    (hs : IsCubeN m p .bip S L B 4 4 a w) (hr : IsArray m sp 4 B r) (hN : S * L * B * 4 ≤ 2147483551)
    (hfit : ∀ i j, i < L → j < S → ProductsFit B (a i j) r) (hi : i0 < L) (hj : j0 < S) (heq : ∀ k, k < B → a i0 j0 k = r k)
    (hz : IntSpectrum B r z) (h0 : 0 < ∑ k ∈ range B, z k ^ 2) (h1 : ∑ k ∈ range B, z k ^ 2 ≤ 4096) :
    ∃ q m' px, spectrum_SAM_match acos (some p) (some sp) (.fin s thr) m = .ok (some q, m') ∧ IsImage8 m' q L S 1 px ∧ px i0 j0 0 = 0 := by
  obtain ⟨angle, q, m', h2, h3, h4, _⟩ := C74_match acos (thr := .fin s thr) hm hs hr hN hfit
  refine ⟨q, m', _, h3, h4, ?_⟩
  have e : IsArray m sp 4 B (a i0 j0) := by
    rw [isArray_iff] at hr ⊢
    refine ⟨hr.1.congr ?_, fun k hk => by rw [heq k hk]; exact hr.2 k hk⟩
    intro x hx
    unfold encN
    rw [heq _ (by omega)]
  have h5 := h2 i0 j0 hi hj m sp sp e hr
  rw [C73_proportional_partial acos (c := 1) (z := z) e hr (fun k hk => by rw [heq k hk]; exact hz k hk) (fun k hk => by simpa using hz k hk)
    (by norm_num) h0 (by simpa using h1), hac] at h5
  have h6 : angle i0 j0 = .fin false 0 := by
    have : f32.conv (.fin false 0) = .fin false 0 := by decide +kernel
    rw [this] at h5
    exact (congrArg Prod.fst (Except.ok.inj h5)).symm
  rw [h6]
  have h7 : FV.le (.fin s thr) (.fin false 0) = false := by
    have : ¬ thr < 0 := not_lt.2 hthr.le
    have h8 : ¬ thr = 0 := hthr.ne'
    simp [FV.le, FV.lt, FV.feq, this, h8]
  rw [h7]
  rfl

/-! ### C75 -/

/-- **C75**: a file of at most `length` numbers is read into the first entries of a new array of `length` elements, in order -/
theorem C75_read_partial {len fuel : Nat} (l : List FV) (hl : l.length ≤ len) (hf : l.length < fuel) (hg : ∀ v ∈ l, ∃ b, v = f32.decode b) (m : Mem) :
    ∃ h m' e, read_spectrum_file fuel (some (l.map Item.num)) len m = .ok (h, m') ∧ IsArray m' h 4 len e ∧
      (∀ i (hi : i < l.length), f32.decode (e i) = l[i]) ∧ m.next ≤ h ∧ Frame m m' := by
  have h0 : HoldsN (m.grow (len * 4) (m.junk m.next)) m.next 4 len _ := holdsN_any (by norm_num) (grow_holds m (len * 4) _)
  obtain ⟨b, b1, b2, b3, b4⟩ := spectrumLoop_nums l _ _ fuel (.fin false 0) 0 h0 (by omega) hf
  refine ⟨m.next, (m.grow (len * 4) (m.junk m.next)).putN m.next 4 len b, b, ?_, isArray_iff.2 (holdsN_putN _ b4), ?_, le_refl _, ?_⟩
  · unfold read_spectrum_file
    have e1 : ((len : Int) * 4).toNat = len * 4 := by omega
    have e2 : ¬ ((len:Int) < 0) := by omega
    dsimp only
    rw [bind_ok (show (pure (l.map Item.num) : M (List Item)) m = .ok (l.map Item.num, m) from rfl), if_neg e2, e1, bind_ok (malloc_run _ _)]
    exact (bind_ok b1).trans rfl
  · intro i hi
    have := b2 i hi
    rw [Nat.zero_add] at this
    rw [this, show l.getD i .nan = l[i] by simp [hi]]
    have hgood : f32.Good l[i] := by
      obtain ⟨c, hc⟩ := hg l[i] (List.getElem_mem hi)
      rw [hc]
      exact good_decode f32_std c
    rw [Nat.mod_eq_of_lt (f32_encode_lt hgood), f32_dec_enc hgood]
  · intro h hh
    refine ⟨?_, rfl, rfl⟩
    have : h ≠ m.next := by omega
    simp [Mem.putN, Mem.put, Mem.setBlk, Mem.grow, this]

/-- **C75 refuted**: a file with more numbers than `length`, or with anything that is not a number, makes the function write beyond the array -/
theorem C75_refuted_overrun {len fuel : Nat} (items : List Item) (h : Item.junk ∈ items ∨ len < items.length) (hf : len < fuel) (m : Mem) :
    read_spectrum_file fuel (some items) len m = .error (.ub .oob) := by
  have h0 : HoldsN (m.grow (len * 4) (m.junk m.next)) m.next 4 len _ := holdsN_any (by norm_num) (grow_holds m (len * 4) _)
  have := spectrumLoop_oob fuel items _ _ (.fin false 0) 0 h0 (by omega) (by omega) (by rw [Nat.zero_add]; exact h)
  unfold read_spectrum_file
  have e1 : ((len : Int) * 4).toNat = len * 4 := by omega
  have e2 : ¬ ((len:Int) < 0) := by omega
  dsimp only
  rw [bind_ok (show (pure items : M (List Item)) m = .ok (items, m) from rfl), if_neg e2, e1, bind_ok (malloc_run _ _)]
  exact bind_err this

end

/-! ### The hypotheses can be met -/

/-- two arrays of two `float`s: (3, 4) and (6, 8), and the array (64, 1) -/
def demoSpec (u v : ℚ) : Nat → Nat := fun k => if k = 0 then f32.encode (.fin false u) else f32.encode (.fin false v)

theorem demoSpec_in (m : Mem) {u v : ℚ} (h : f32.encode (.fin false u) < 256 ^ 4) (h' : f32.encode (.fin false v) < 256 ^ 4) :
    IsArray (m.grow (2 * 4) (encN 4 (demoSpec u v))) m.next 4 2 (demoSpec u v) := by
  rw [isArray_iff]
  refine ⟨grow_holds _ _ _, ?_⟩
  intro k _
  unfold demoSpec
  split <;> assumption

theorem array_grow {m : Mem} (hm : m.WF) {h w n N : Nat} {a : Nat → Nat} {f : Nat → UInt8} (h' : IsArray m h w n a) : IsArray (m.grow N f) h w n a := by
  rw [isArray_iff] at *
  exact ⟨h'.1.grow hm, h'.2⟩

/-- integer spectra at distance 5, one a multiple of the other -/
example : ∃ m x y, IsArray m x 4 2 (demoSpec 3 4) ∧ IsArray m y 4 2 (demoSpec 6 8) ∧
    IntSpectrum 2 (demoSpec 3 4) (fun k => if k = 0 then 3 else 4) ∧ IntSpectrum 2 (demoSpec 6 8) (fun k => (2 : Nat) * (if k = 0 then 3 else 4)) ∧
    ∑ k ∈ range 2, ((if k = 0 then 3 else 4 : ℤ) - ((2 : Nat) : ℤ) * (if k = 0 then 3 else 4)) ^ 2 = ((5 : Nat) : ℤ) ^ 2 ∧
    ((2 : Nat) : ℤ) * ∑ k ∈ range 2, (if k = 0 then 3 else 4 : ℤ) ^ 2 ≤ 4096 ∧ ProductsFit 2 (demoSpec 3 4) (demoSpec 6 8) := by
  refine ⟨(Mem.empty.grow _ _).grow _ _, _, _, array_grow (grow_WF empty_WF _ _) (demoSpec_in Mem.empty (by decide +kernel) (by decide +kernel)),
    demoSpec_in _ (by decide +kernel) (by decide +kernel), ?_, ?_, by decide, by decide, ?_⟩
  · intro k hk
    interval_cases k
    · exact ⟨false, by decide +kernel⟩
    · exact ⟨false, by decide +kernel⟩
  · intro k hk
    interval_cases k
    · exact ⟨false, by decide +kernel⟩
    · exact ⟨false, by decide +kernel⟩
  · intro k hk
    interval_cases k
    · exact ⟨false, 18, by decide +kernel, by norm_num⟩
    · exact ⟨false, 32, by decide +kernel, by norm_num⟩

example : ∃ m x, IsArray m x 4 2 (demoSpec 64 1) ∧ demoSpec 64 1 0 = f32.encode (.fin false 64) ∧ demoSpec 64 1 1 = f32.encode (.fin false 1) :=
  ⟨_, _, demoSpec_in Mem.empty (by decide +kernel) (by decide +kernel), rfl, rfl⟩

/-- reflectances -/
example : ∃ m x, IsArray m x 4 2 (demoSpec (1/4) (1/2)) ∧ ∀ k, k < 2 → ∃ q, FloatIs f32 (demoSpec (1/4) (1/2) k) q ∧ 1 / 1024 ≤ q ∧ q ≤ 1023 / 1024 := by
  refine ⟨_, _, demoSpec_in Mem.empty (by decide +kernel) (by decide +kernel), ?_⟩
  intro k hk
  interval_cases k
  · exact ⟨1/4, ⟨false, by decide +kernel⟩, by norm_num, by norm_num⟩
  · exact ⟨1/2, ⟨false, by decide +kernel⟩, by norm_num, by norm_num⟩

/-- numbers whose product does not fit in `int` -/
example : ∃ m x, IsArray m x 4 2 (demoSpec 65535 65535) ∧
    ∃ s q, f32.mul (f32.decode (demoSpec 65535 65535 0)) (f32.decode (demoSpec 65535 65535 0)) = .fin s q ∧ 2147483648 ≤ |q| :=
  ⟨_, _, demoSpec_in Mem.empty (by decide +kernel) (by decide +kernel), false, 4294836224, by decide +kernel, by norm_num [abs_of_pos]⟩

/-- a spectrum with an infinite element -/
example : ∃ m x, IsArray m x 4 1 (fun _ => f32.encode (.inf false)) ∧ ∃ s, f32.decode (f32.encode (.inf false)) = .inf s :=
  ⟨Mem.empty.grow (1 * 4) (encN 4 fun _ => f32.encode (.inf false)), _, isArray_iff.2 ⟨grow_holds _ _ _, fun _ _ => (by decide +kernel : f32.encode (.inf false) < 256 ^ 4)⟩, false, by decide +kernel⟩

/-- a cube of 2 samples, 3 lines and 2 bands, a destination image and a reference spectrum equal to the spectrum of every pixel -/
example : ∃ m p q sp a b w, m.WF ∧ IsCubeN m p .bip 2 3 2 4 4 a w ∧ IsImageN m q 3 2 4 1 4 b ∧ IsArray m sp 4 2 (demoSpec 3 4) ∧
    (∀ h, ¬ (Owns m p h ∧ PixelBlock m q h)) ∧ (∀ i j, i < 3 → j < 2 → ProductsFit 2 (a i j) (demoSpec 3 4)) ∧
    (∀ k, k < 2 → a 1 1 k = demoSpec 3 4 k) ∧ IntSpectrum 2 (demoSpec 3 4) (fun k => if k = 0 then 3 else 4) ∧
    0 < ∑ k ∈ range 2, (if k = 0 then 3 else 4 : ℤ) ^ 2 ∧ ∑ k ∈ range 2, (if k = 0 then 3 else 4 : ℤ) ^ 2 ≤ 4096 := by
  have hlt : ∀ k, demoSpec 3 4 k < 256 ^ 4 := by
    intro k
    unfold demoSpec
    split <;> decide +kernel
  let m1 := convMem Mem.empty .bip 2 3 2 4 4 (fun _ _ k t => leByte (demoSpec 3 4 k) t) (fun _ => 0)
  let m2 := m1.newImage 3 2 4 1 4 (imgBytes 2 1 4 fun _ _ _ t => leByte 7 t)
  let m3 := m2.grow (2 * 4) (encN 4 (demoSpec 3 4))
  have hm1 : m1.WF := convMem_WF empty_WF .bip
  have hm2 : m2.WF := newImage_WF hm1
  have c1 : IsCube m1 2 .bip 2 3 2 4 4 (fun _ _ k t => leByte (demoSpec 3 4 k) t) (fun _ => 0) :=
    newCube_isCube .bip (by decide) (by decide) (by decide) rfl
  have f12 : Frame m1 m2 := newImage_frame m1
  have f23 : Frame m2 m3 := fun h hh => ⟨grow_blk_ne _ _ _ (by omega), rfl, rfl⟩
  have i2 : IsImage m2 4 3 2 4 1 4 (fun _ _ _ t => leByte 7 t) := newImage_isImage (m := m1) rfl (by decide) (by decide) (by decide)
  refine ⟨m3, 2, 4, _, fun _ _ k => demoSpec 3 4 k, fun _ _ _ => 7, fun _ => 0, grow_WF hm2 _ _,
    ⟨isCube_frame hm2 (isCube_frame hm1 c1 f12) f23, fun _ _ k _ _ _ => hlt k⟩,
    ⟨img_frame hm2 i2 f23, fun _ _ _ _ _ _ => (by decide : 7 < 256 ^ 4)⟩,
    isArray_iff.2 ⟨grow_holds _ _ _, fun k _ => hlt k⟩, ?_, ?_, fun _ _ => rfl, ?_, by decide, by decide⟩
  · rintro h ⟨o, hdr, e1, rfl⟩
    have e1' : some (newSHdr m1 3 2 4 1 4) = some hdr := e1
    cases e1'
    rcases o with h | ⟨hd, h1, h2⟩
    · exact absurd h (by decide)
    · have h1' : some (newHdr Mem.empty 2 3 2 4 Layout.bip.tag) = some hd := h1
      cases h1'
      rcases h2 with h2 | h2
      · exact absurd h2 (by decide)
      · exact absurd h2 (by decide)
  · intro i j _ _ k hk
    interval_cases k
    · exact ⟨false, 9, (by decide +kernel : f32.mul (f32.decode (demoSpec 3 4 0)) (f32.decode (demoSpec 3 4 0)) = FV.fin false 9), by norm_num⟩
    · exact ⟨false, 16, (by decide +kernel : f32.mul (f32.decode (demoSpec 3 4 1)) (f32.decode (demoSpec 3 4 1)) = FV.fin false 16), by norm_num⟩
  · intro k hk
    interval_cases k
    · exact ⟨false, by decide +kernel⟩
    · exact ⟨false, by decide +kernel⟩

/-- a cube and a destination for its transpose, and one with smaller elements -/
example (dt' : Int) (E' : Nat) (hE' : elemBytes dt' = some E') : ∃ m, IsCube m 2 .bsq 2 3 4 2 2 demoV demoW ∧
    IsCube m 5 .bsq 3 2 4 dt' E' (fun _ _ _ _ => 0) (fun _ => 0) ∧ Separate m 2 5 := by
  let m := convMem (demoMem .bsq) .bsq 3 2 4 dt' E' (fun _ _ _ _ => 0) (fun _ => 0)
  have h1 : IsCube m 2 .bsq 2 3 4 2 2 demoV demoW := isCube_frame (demo_WF _) (demo_isCube _) (convMem_frame _ _)
  have h2 : IsCube m 5 .bsq 3 2 4 dt' E' (fun _ _ _ _ => 0) (fun _ => 0) := by
    show IsCube _ ((demoMem .bsq).next + 2) _ _ _ _ _ _ _ _
    exact newCube_isCube .bsq (by decide) (by decide) (by decide) hE'
  refine ⟨m, h1, h2, ?_⟩
  rintro h ⟨o1, o2⟩
  have f2 := convMem_fresh (S := 3) (L := 2) (B := 4) (dt := dt') (E := E') (v := fun _ _ _ _ => 0)
    (w := fun _ => 0) (demoMem .bsq) .bsq h o2
  have hn : (demoMem .bsq).next = 3 := rfl
  rcases o1 with rfl | ⟨hdr, e1, e2⟩
  · omega
  · have e1' : some (newHdr Mem.empty 2 3 4 2 Layout.bsq.tag) = some hdr := e1
    cases e1'
    rcases e2 with e2 | e2
    · have : h = 0 := e2
      omega
    · have : some 1 = some h := e2
      cases this
      omega

/-- a file of two numbers for three bands -/
example : ([FV.fin false 1, .fin false 2] : List FV).length ≤ 3 ∧ ∀ v ∈ [FV.fin false 1, .fin false 2], ∃ b, v = f32.decode b := by
  refine ⟨by decide, ?_⟩
  intro v hv
  simp only [List.mem_cons, List.not_mem_nil, or_false] at hv
  rcases hv with rfl | rfl
  · exact ⟨f32.encode (.fin false 1), by decide +kernel⟩
  · exact ⟨f32.encode (.fin false 2), by decide +kernel⟩

end HyperCV
