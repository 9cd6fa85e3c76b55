/- C104: the principal component analysis. -/
import Verif.Proof.Pca
import Verif.Props.Spectral
import Verif.Props.Decomp
import Verif.Props.Draw
import Verif.Props.DataType

namespace HyperCV
open Spec

section
variable {m : Mem} {p r S L B E it : Nat} {dt : Int} {a b : Nat → Nat → Nat → Nat} {v : Nat → Nat → Nat → Nat → UInt8} {w w' : Nat → UInt8}

theorem pcaIn_dec (B : Nat) (a : Nat → Nat → Nat → Nat) (i j t : Nat) :
    f32.decode (pcaIn B a i j t) = f32.sub (f32.decode (a i j t)) (pixelMean (fun k => f32.decode (a i j k)) B) := by
  unfold pcaIn pixelMean
  rw [f32_dec_enc (good_sub _ _ _), f32_dec_enc (good_div _ _ _)]
  congr 2
  exact (floatSum_eq _ _).symm

/-- **C104 (partial)**: for every pair of separate cubes of `float`s of the same dimensions, interleaved by pixel, and every number of iterations the function
returns normally, there is one matrix `V` for the whole cube such that what is in the result for a pixel has been increased by the product of `V` with the
spectrum of the pixel less its mean, and nothing else that existed before has changed.  Missing: that the columns of `V` are the principal directions; C88 shows
that they are not. -/
theorem C104_run_partial (hm : m.WF) (ha : GoodAddresses m) (hp : IsCubeN m p .bip S L B 4 4 a w) (hr : IsCubeN m r .bip S L B 4 4 b w')
    (hsep : Separate m p r) (b1 : S * L * B * 4 ≤ 2147483551) (b2 : B * B * 4 ≤ 2147483551) :
    ∃ m' d hdr, ∃ V : Nat → Nat → Nat, hyper_mat_pca (some p) (some r) it m = .ok ((), m') ∧ IsCubeN m' p .bip S L B 4 4 a w ∧
      IsCubeN m' r .bip S L B 4 4 d w' ∧
      (∀ i j k, i < L → j < S → k < B → f32.decode (d i j k) = productSum (f32.decode (b i j k))
        (fun t => f32.sub (f32.decode (a i j t)) (pixelMean (fun u => f32.decode (a i j u)) B)) (fun t => f32.decode (V t k)) B) ∧
      m'.hm = m.hm ∧ m'.sm = m.sm ∧ m.hm r = some hdr ∧ (∀ x, x ≠ hdr.data → m.blk x ≠ none → m'.blk x = m.blk x) ∧ m'.WF := by
  obtain ⟨m', F, hdr, e1, -, e2, e3, e4, e5, e6, e7, e8⟩ := pca_run (it := it) (eig_any (B := B) (by omega)) hm ha hp hr hsep b1 b2
  have old : ∀ x, m.blk x ≠ none → x < m.next := by
    intro x hx
    by_contra c
    exact hx (hm x (by omega)).1
  refine ⟨m', _, hdr, fun t k => F (t * B + k), e1, ⟨?_, hp.2⟩, e3, ?_, e4, e5, e2, fun x h1 h2 => e6 x h1 (old x h2), e8⟩
  · refine ⟨hp.1.size, hp.1.posS, hp.1.posL, hp.1.posB, ?_⟩
    obtain ⟨ph, pw, pf, p1, p2, p3, p4, p5, p6, p7, p8, p9, p10, p11⟩ := hp.1.obj
    have n1 : ph.data ≠ hdr.data := fun e => hsep ph.data ⟨Or.inr ⟨ph, p1, Or.inl rfl⟩, Or.inr ⟨hdr, e2, Or.inl e⟩⟩
    have n2 : pw ≠ hdr.data := fun e => hsep pw ⟨Or.inr ⟨ph, p1, Or.inr p7⟩, Or.inr ⟨hdr, e2, Or.inl e⟩⟩
    have keep : ∀ {x n f}, x ≠ hdr.data → Bytes m x n f → Bytes m' x n f := by
      rintro x n f hx ⟨l, c1, c2⟩
      exact ⟨l, by rw [e6 x hx (old x (by rw [c1]; exact Option.some_ne_none _)), c1], c2⟩
    exact ⟨ph, pw, pf, by rw [e4]; exact p1, p2, p3, p4, p5, p6, p7, p8, keep n1 p9, keep n2 p10, p11⟩
  · intro i j k _ _ _
    dsimp only
    rw [mulBits_dec]
    congr 1
    funext t
    exact pcaIn_dec B a i j t

/-- **C104 is false**: every call leaves `2 * it + 1` blocks of memory behind -/
theorem C104_leak_refuted (hm : m.WF) (ha : GoodAddresses m) (hp : IsCubeN m p .bip S L B 4 4 a w) (hr : IsCubeN m r .bip S L B 4 4 b w')
    (hsep : Separate m p r) (b1 : S * L * B * 4 ≤ 2147483551) (b2 : B * B * 4 ≤ 2147483551) :
    ∃ m', hyper_mat_pca (some p) (some r) it m = .ok ((), m') ∧ MoreBlocks m m' (2 * it + 1) := by
  obtain ⟨m', F, hdr, e1, -, e2, e3, e4, e5, e6, e7, e8⟩ := pca_run (it := it) (eig_any (B := B) (by omega)) hm ha hp hr hsep b1 b2
  refine ⟨m', e1, (m.next + 14 + ·), fun i j _ _ h => Nat.add_left_cancel h, ?_, ?_⟩
  · intro i hi
    show m.blk (m.next + 14 + i) = none ∧ m'.blk (m.next + 14 + i) ≠ none
    exact ⟨(hm _ (by omega)).1, (e7 _ (by omega)).2 ⟨by omega, by omega⟩⟩
  · intro x h1 h2
    have hx : m.next ≤ x := by
      by_contra c
      have hd : x ≠ hdr.data := by
        rintro rfl
        obtain ⟨rh, _, _, q1, _, _, _, _, _, _, _, q9, _⟩ := hr.1.obj
        rw [e2] at q1; cases q1
        obtain ⟨l, q, _⟩ := q9
        rw [h1] at q; cases q
      rw [e6 x hd (by omega)] at h2
      exact h2 h1
    obtain ⟨c1, c2⟩ := (e7 x hx).1 h2
    exact ⟨x - (m.next + 14), by omega, show x = m.next + 14 + (x - (m.next + 14)) by omega⟩

/-- **C104 is false**: for a single band the result keeps the values that it had before, whatever the cube contains -/
theorem C104_one_band_refuted {x y : Nat → Nat → ℚ} (hm : m.WF) (ha : GoodAddresses m) (hp : IsCubeN m p .bip S L 1 4 4 a w)
    (hr : IsCubeN m r .bip S L 1 4 4 b w') (hsep : Separate m p r) (b1 : S * L * 4 ≤ 2147483551)
    (hx : ∀ i j, i < L → j < S → FloatIs f32 (a i j 0) (x i j)) (hy : ∀ i j, i < L → j < S → FloatIs f32 (b i j 0) (y i j)) :
    ∃ m' d, hyper_mat_pca (some p) (some r) it m = .ok ((), m') ∧ IsCubeN m' r .bip S L 1 4 4 d w' ∧
      ∀ i j, i < L → j < S → FloatIs f32 (d i j 0) (y i j) := by
  obtain ⟨m', F, hdr, e1, eF, e2, e3, -⟩ := pca_run (it := it) eig_one hm ha hp hr hsep (by omega) (by norm_num)
  refine ⟨m', _, e1, e3, ?_⟩
  intro i j hi hj
  have hX : (f32.decode (a i j 0)).Is (x i j) := hx i j hi hj
  have hY : (f32.decode (b i j 0)).Is (y i j) := hy i j hi hj
  have rX := (good_val (good_decode f32_std _) hX).2
  have rY := (good_val (good_decode f32_std _) hY).2
  have h1 : (f32.ofInt 1).Is 1 := ⟨false, by decide +kernel⟩
  have hs : (f32.add (.fin false 0) (f32.decode (a i j 0))).Is (x i j) := by
    have := is_add (F := f32) (a := .fin false 0) ⟨false, rfl⟩ hX (by rwa [zero_add])
    rwa [zero_add] at this
  have hmean : (pixelMean (fun u => f32.decode (a i j u)) 1).Is (x i j) := by
    have := is_div hs h1 one_ne_zero (by rwa [div_one])
    rwa [div_one] at this
  have hc : (f32.decode (pcaIn 1 a i j 0)).Is 0 := by
    rw [pcaIn_dec]
    have := is_sub (F := f32) hX hmean (by rw [sub_self]; exact rep_zero _)
    rwa [sub_self] at this
  have hV : (f32.decode (F (0 * 1 + 0))).Is 1 := by
    rw [show F (0 * 1 + 0) = 1065353216 from eF]
    exact ⟨false, by decide +kernel⟩
  have hmul : (f32.mul (f32.decode (pcaIn 1 a i j 0)) (f32.decode (F (0 * 1 + 0)))).Is 0 := by
    have := is_mul (F := f32) hc hV (by rw [zero_mul]; exact rep_zero _)
    rwa [zero_mul (1:ℚ)] at this
  show FV.Is (f32.decode (mulBits _ _ _ 1)) _
  rw [mulBits_dec]
  have := is_add hY hmul (by rwa [add_zero])
  rwa [add_zero (y i j)] at this

theorem pca_type {h : HyperMat} (hp : m.hm p = some h) (r : Option Nat) (it : Int) :
    hyper_mat_pca (some p) r it m = hyper_mat_pca (some p) r it (m.withH p { h with data_type := 4 }) := by
  unfold hyper_mat_pca
  have g1 : derefH (some p) m = .ok (h, m) := getH_ok hp
  have g2 : derefH (some p) (m.withH p { h with data_type := 4 }) = .ok (_, m.withH p { h with data_type := 4 }) := getH_ok (withH_hm_self _ _ _)
  rw [bind_ok g1, bind_ok g2, nonNull_some, bind_ok (setH_ok hp), nonNull_some]
  have : (m.withH p { h with data_type := 4 }).withH p { h with data_type := 4 } = m.withH p { h with data_type := 4 } := by
    unfold Mem.withH
    congr 1
    funext q
    by_cases c : q = p
    · simp [c]
    · simp [c]
  refine Eq.trans ?_ (bind_ok (setH_ok (withH_hm_self _ _ _))).symm
  rw [this]

theorem withH_WF {h h' : HyperMat} (hm : m.WF) (hp : m.hm p = some h) : (m.withH p h').WF := by
  intro x hx
  have lp := hm_below hm hp
  have : m.next ≤ x := hx
  obtain ⟨c1, c2, c3⟩ := hm x this
  exact ⟨c1, by rw [withH_hm_ne _ _ (by omega)]; exact c2, c3⟩

/-- **C104 is false**: the element type is not checked but overwritten: for a cube of four-byte integers, signed or not, the call returns normally, the bit
patterns have been used as `float`s and the cube is left as a cube of `float`s with the same bit patterns -/
theorem C104_type_refuted (hdt : dt = 3 ∨ dt = 13) (hm : m.WF) (ha : GoodAddresses m) (hp : IsCubeN m p .bip S L B dt 4 a w)
    (hr : IsCubeN m r .bip S L B 4 4 b w') (hsep : Separate m p r) (b1 : S * L * B * 4 ≤ 2147483551) (b2 : B * B * 4 ≤ 2147483551) :
    ∃ m', hyper_mat_pca (some p) (some r) it m = .ok ((), m') ∧ IsCubeN m' p .bip S L B 4 4 a w ∧ ¬ ∃ c, IsCubeN m' p .bip S L B dt 4 c w := by
  obtain ⟨ph, pw, pf, p1, p2, p3, p4, p5, p6, p7, p8, p9, p10, p11⟩ := hp.1.obj
  obtain ⟨rh, rw', rf, q1, q2, q3, q4, q5, q6, q7, q8, q9, q10, q11⟩ := hr.1.obj
  have hne : r ≠ p := fun e => hsep p ⟨Or.inl rfl, Or.inl e.symm⟩
  obtain ⟨m', d, hdr, V, e1, e2, -⟩ := C104_run_partial (m := m.withH p { ph with data_type := 4 }) (p := p) (r := r) (a := a) (b := b) (w := w) (w' := w')
    (S := S) (L := L) (B := B) (it := it) (withH_WF hm p1) ha
    ⟨⟨rfl, hp.1.posS, hp.1.posL, hp.1.posB, _, pw, pf, withH_hm_self _ _ _, p2, p3, p4, rfl, p6, p7, p8, p9, p10, p11⟩, hp.2⟩
    ⟨⟨rfl, hp.1.posS, hp.1.posL, hp.1.posB, rh, rw', rf, by rw [withH_hm_ne _ _ hne]; exact q1, q2, q3, q4, q5, q6, q7, q8, q9, q10, q11⟩, hr.2⟩ (by
      rintro x ⟨c1, c2⟩
      refine hsep x ⟨?_, ?_⟩
      · rcases c1 with c | ⟨h, c, c'⟩
        · exact Or.inl c
        · rw [withH_hm_self] at c; cases c
          exact Or.inr ⟨ph, p1, c'⟩
      · rcases c2 with c | ⟨h, c, c'⟩
        · exact Or.inl c
        · rw [withH_hm_ne _ _ hne] at c
          exact Or.inr ⟨h, c, c'⟩) b1 b2
  refine ⟨m', by rw [pca_type p1]; exact e1, e2, ?_⟩
  rintro ⟨c, hc⟩
  obtain ⟨h1, _, _, x1, _, _, _, x5, _⟩ := e2.1.obj
  obtain ⟨h2, _, _, y1, _, _, _, y5, _⟩ := hc.1.obj
  rw [x1] at y1; cases y1
  rw [x5] at y5
  omega

/-- **C104 is false**: for elements of less than four bytes, that is for the usual bytes and shorts, the function reads beyond the end of the cube, whatever
it contains -/
theorem C104_small_type_refuted (hE : E < 4) (hm : m.WF) (hp : IsCube m p .bip S L B dt E v w) (b1 : S * L * B * 4 ≤ 2147483551) (it : Int) :
    hyper_mat_pca (some p) (some r) it m = .error (.ub .oob) := by
  obtain ⟨ph, pw, pf, p1, p2, p3, p4, p5, p6, p7, p8, p9, p10, p11⟩ := hp.obj
  rw [bytes_iff] at p9
  have lp := p9.lt_next hm
  have hSL : S * L ≤ S * L * B := Nat.le_mul_of_pos_right _ hp.posB
  rw [pca_type p1]
  have wf : (m.withH p { ph with data_type := 4 }).WF := withH_WF hm p1
  set m0 := m.withH p { ph with data_type := 4 } with em0
  have hn : m0.next = m.next := rfl
  have hp0 : m0.hm p = some { ph with data_type := 4 } := withH_hm_self _ _ _
  obtain ⟨m1, r1, w1⟩ := create_new wf hp.posL hp.posS (by rw [Nat.mul_comm L]; omega)
  unfold hyper_mat_pca
  have g1 : derefH (some p) m0 = .ok (_, m0) := getH_ok hp0
  have sp : setH p { ph with data_type := 4 } m0 = .ok ((), m0) := by
    rw [setH_ok hp0]
    congr 2
    rw [em0]
    unfold Mem.withH
    congr 1
    funext q
    by_cases c : q = p
    · simp [c]
    · simp [c]
  rw [bind_ok g1, nonNull_some]
  refine (bind_ok sp).trans ?_
  rw [bind_ok g1]
  dsimp only
  rw [p2, p3, bind_ok r1]
  refine bind_err (mean_reads_beyond (sh := { ph with data_type := 4 }) (f := pf) hp.posS hp.posL hp.posB hE (by rw [w1.hm]; exact hp0) p2 p3 p4 p6 ?_
    ⟨isImage_of hp.posL hp.posS w1.hd w1.data, fun _ _ _ _ _ _ => by norm_num⟩ (by omega) ?_)
  · have : m1.blk ph.data = m0.blk ph.data := w1.blk _ (by rw [hn]; omega)
    unfold Holds
    rw [this]
    exact p9
  · rintro x ⟨rfl, h2, x2, x3⟩
    rw [w1.hd] at x2; cases x2
    have : ph.data = m0.next := x3
    rw [hn] at this
    omega

end

/-- two cubes of the same dimensions in one heap -/
def twoCubes (S L B : Nat) (dt dt' : Int) (E E' : Nat) (a b : Nat → Nat → Nat → Nat) : Mem :=
  convMem (convMem Mem.empty .bip S L B dt E (fun i j k t => leByte (a i j k) t) fun _ => 0) .bip S L B dt' E' (fun i j k t => leByte (b i j k) t) fun _ => 0

theorem twoCubes_ok {S L B E E' : Nat} {dt dt' : Int} {a b : Nat → Nat → Nat → Nat} (hS : 0 < S) (hL : 0 < L) (hB : 0 < B) (hE : elemBytes dt = some E)
    (hE' : elemBytes dt' = some E') (ha : ∀ i j k, i < L → j < S → k < B → a i j k < 256 ^ E) (hb : ∀ i j k, i < L → j < S → k < B → b i j k < 256 ^ E') :
    (twoCubes S L B dt dt' E E' a b).WF ∧ GoodAddresses (twoCubes S L B dt dt' E E' a b) ∧
      IsCubeN (twoCubes S L B dt dt' E E' a b) 2 .bip S L B dt E a (fun _ => 0) ∧
      IsCubeN (twoCubes S L B dt dt' E E' a b) 5 .bip S L B dt' E' b (fun _ => 0) ∧ Separate (twoCubes S L B dt dt' E E' a b) 2 5 := by
  let m1 := convMem Mem.empty .bip S L B dt E (fun i j k t => leByte (a i j k) t) fun _ => 0
  have w1 : m1.WF := convMem_WF empty_WF .bip
  have c1 : IsCube m1 2 .bip S L B dt E (fun i j k t => leByte (a i j k) t) (fun _ => 0) := newCube_isCube .bip hS hL hB hE
  have c2 : IsCube (twoCubes S L B dt dt' E E' a b) 5 .bip S L B dt' E' (fun i j k t => leByte (b i j k) t) (fun _ => 0) := by
    show IsCube _ (m1.next + 2) _ _ _ _ _ _ _ _
    exact newCube_isCube .bip hS hL hB hE'
  refine ⟨convMem_WF w1 .bip, fun _ => ⟨rfl, by show 0 % 64 ≠ 48; norm_num⟩, ⟨isCube_frame w1 c1 (convMem_frame m1 .bip), ha⟩, ⟨c2, hb⟩, ?_⟩
  rintro h ⟨o1, o2⟩
  have f2 := convMem_fresh (S := S) (L := L) (B := B) (dt := dt') (E := E') (v := fun i j k t => leByte (b i j k) t) (w := fun _ => 0) m1 .bip h o2
  have hn : m1.next = 3 := rfl
  rcases o1 with rfl | ⟨hdr, e1, e2⟩
  · omega
  · have e1' : some (newHdr Mem.empty S L B dt Layout.bip.tag) = some hdr := e1
    cases e1'
    rcases e2 with e2 | e2
    · have : h = 0 := e2
      omega
    · have : some 1 = some h := e2
      cases this
      omega

/-- **C104 is false**: for a pixel whose bands are equal (here two bands of value 1) the components are not numbers -/
theorem C104_grey_refuted : ∃ m' d, hyper_mat_pca (some 2) (some 5) 1 (twoCubes 1 1 2 4 4 4 4 (fun _ _ _ => 1065353216) fun _ _ _ => 0) = .ok ((), m') ∧
    IsCubeN m' 5 .bip 1 1 2 4 4 d (fun _ => 0) ∧ ∀ k, k < 2 → f32.decode (d 0 0 k) = .nan := by
  have e : blkOf (hyper_mat_pca (some 2) (some 5) 1 (twoCubes 1 1 2 4 4 4 4 (fun _ _ _ => 1065353216) fun _ _ _ => 0)) 3 =
      some (tab 8 (encN 4 fun _ => 2143289344)) := by decide +kernel
  obtain ⟨t1, t2, t3, t4, t5⟩ := twoCubes_ok (S := 1) (L := 1) (B := 2) (dt := 4) (dt' := 4) (E := 4) (E' := 4) (a := fun _ _ _ => 1065353216) (b := fun _ _ _ => 0)
    (by decide) (by decide) (by decide) rfl rfl (fun _ _ _ _ _ _ => by norm_num) (fun _ _ _ _ _ _ => by norm_num)
  obtain ⟨m', d, hdr, V, e1, -, e3, -, e5, -⟩ := C104_run_partial (it := 1) t1 t2 t3 t4 t5 (by norm_num) (by norm_num)
  obtain ⟨u, m2, x1, x2⟩ := blkOf_some e
  rw [Nat.cast_one] at e1
  rw [e1] at x1
  cases x1
  obtain ⟨h, hw, hf, q1, q2, q3, q4, q5, q6, q7, q8, q9, q10, q11⟩ := e3.1.obj
  have hd : h.data = 3 := by
    rw [e5, show (twoCubes 1 1 2 4 4 4 4 (fun _ _ _ => 1065353216) fun _ _ _ => 0).hm 5 = some ⟨1, 1, 2, 4, Layout.bip.tag, [], 3, some 4⟩ from rfl] at q1
    cases q1
    rfl
  refine ⟨m', fun _ _ _ => 2143289344, e1, ⟨⟨rfl, by decide, by decide, by decide, h, hw, _, q1, q2, q3, q4, q5, q6, q7, q8, bytes_iff.2 (by rw [hd]; exact x2), q10, ?_⟩,
    fun _ _ _ _ _ _ => by norm_num⟩, fun _ _ => by dsimp only; decide +kernel⟩
  intro i j k t _ _ _ ht
  rw [encN_at _ ht]

/-- cubes of every shape meet the hypotheses of the theorems above -/
example (S L B : Nat) (hS : 0 < S) (hL : 0 < L) (hB : 0 < B) : ∃ m, m.WF ∧ GoodAddresses m ∧
    IsCubeN m 2 .bip S L B 4 4 (fun i j k => (i + 2 * j + 3 * k) % 256) (fun _ => 0) ∧ IsCubeN m 5 .bip S L B 4 4 (fun _ _ _ => 0) (fun _ => 0) ∧ Separate m 2 5 :=
  ⟨_, twoCubes_ok hS hL hB rfl rfl (fun i j k _ _ _ => lt_trans (Nat.mod_lt _ (by norm_num : 0 < 256)) (by norm_num)) (fun _ _ _ _ _ _ => by norm_num)⟩

/-- a cube of one band with the value 3 everywhere and a result in which 5 is stored -/
example : ∃ m, m.WF ∧ GoodAddresses m ∧ IsCubeN m 2 .bip 2 3 1 4 4 (fun _ _ _ => f32.encode (.fin false 3)) (fun _ => 0) ∧
    IsCubeN m 5 .bip 2 3 1 4 4 (fun _ _ _ => f32.encode (.fin false 5)) (fun _ => 0) ∧ Separate m 2 5 ∧
    FloatIs f32 (f32.encode (.fin false 3)) 3 ∧ FloatIs f32 (f32.encode (.fin false 5)) 5 := by
  obtain ⟨t1, t2, t3, t4, t5⟩ := twoCubes_ok (S := 2) (L := 3) (B := 1) (dt := 4) (dt' := 4) (E := 4) (E' := 4) (a := fun _ _ _ => f32.encode (.fin false 3))
    (b := fun _ _ _ => f32.encode (.fin false 5)) (by decide) (by decide) (by decide) rfl rfl (fun _ _ _ _ _ _ => by decide +kernel)
    (fun _ _ _ _ _ _ => by decide +kernel)
  exact ⟨_, t1, t2, t3, t4, t5, ⟨false, by decide +kernel⟩, ⟨false, by decide +kernel⟩⟩

/-- a cube of integers and a cube of bytes -/
example : (∃ m, m.WF ∧ GoodAddresses m ∧ IsCubeN m 2 .bip 2 3 4 3 4 (fun i j k => i + j + k) (fun _ => 0) ∧
    IsCubeN m 5 .bip 2 3 4 4 4 (fun _ _ _ => 0) (fun _ => 0) ∧ Separate m 2 5) ∧
    ∃ m, m.WF ∧ IsCubeN m 2 .bip 2 3 4 1 1 (fun i j k => i + j + k) (fun _ => 0) :=
  ⟨⟨_, twoCubes_ok (by decide) (by decide) (by decide) rfl rfl (fun i j k _ _ _ => by omega) (fun _ _ _ _ _ _ => by norm_num)⟩,
    _, cubeHeap_WF, cubeHeap_cube (by decide) (by decide) (by decide) rfl (fun i j k _ _ _ => by omega)⟩

end HyperCV
