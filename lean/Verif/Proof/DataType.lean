import Verif.Proof.Interleave
import Verif.Proof.Typed
import Verif.Proof.Image
import Verif.Model.DataType
import Verif.Spec.Typed

namespace HyperCV
open Spec

theorem newHdr_tag (m : Mem) (S L B : Nat) (dt : Int) (lay : Layout) (pad : List Char) :
    newHdr m S L B dt (lay.tag ++ pad) = newHdr m S L B dt lay.tag := by
  cases lay <;> rfl

theorem newCube_tag (m : Mem) (S L B : Nat) (dt : Int) (N : Nat) (lay : Layout) (pad : List Char)
    (f w : Nat → UInt8) :
    m.newCube S L B dt N (lay.tag ++ pad) f w = m.newCube S L B dt N lay.tag f w := by
  unfold Mem.newCube; rw [newHdr_tag]

theorem create_tag_ok {m : Mem} (hm : m.WF) {S L B E : Nat} {dt : Int} {h : HyperMat} {lay : Layout}
    (ht : h.interleave = lay.tag)
    (hS : 0 < S) (hL : 0 < L) (hB : 0 < B) (hE : elemBytes dt = some E)
    (hN : S * L * B * E ≤ 2147483647) (hW : 4 * B ≤ 2147483647) :
    create_hyper_mat S L B dt h.tagMem m
      = .ok (some (m.next + 2), m.newCube S L B dt (S * L * B * E) lay.tag (fun _ => 0) (fun _ => 0)) := by
  unfold HyperMat.tagMem
  rw [ht, create_ok hm hS hL hB hE hN hW (by rw [List.length_append, tag_length]; omega), newCube_tag]

theorem size_eval3 {S L B : Nat} (hL : 0 < L) (hB : 0 < B) (hN : S * L * B ≤ 2147483647) :
    (CI.lit (S:Int) * CI.lit (L:Int) * CI.lit (B:Int) : CI) = CI.lit ((S * L * B : Nat) : Int) := by
  have h : S * L * B < 2147483648 := by omega
  ci_down

/-- an element in storage order -/
theorem cube_elem {lay : Layout} {S L B E : Nat} {f : Nat → UInt8} {a : Nat → Nat → Nat → Nat}
    (hf : ∀ i j k t, i < L → j < S → k < B → t < E → f (lay.pos S L B i j k * E + t) = leByte (a i j k) t)
    {e : Nat} (he : e < S * L * B) :
    ∃ i j k, i < L ∧ j < S ∧ k < B ∧ e = lay.pos S L B i j k ∧
      ∀ t, t < E → f (e * E + t) = leByte (a i j k) t := by
  obtain ⟨i, j, k, hi, hj, hk, rfl⟩ := unpos_spec lay he
  exact ⟨i, j, k, hi, hj, hk, rfl, fun t ht => hf i j k t hi hj hk ht⟩

theorem convElems_run {m : Mem} (hm : m.WF) {p S L B E E' : Nat} {t t' : Int} {lay : Layout}
    {a : Nat → Nat → Nat → Nat} {w : Nat → UInt8} {g : Nat → Nat}
    (hc : IsCubeN m p lay S L B t E a w) (hE' : elemBytes t' = some E')
    (hN : S * L * B * E ≤ 2147483647) (hN' : S * L * B * E' ≤ 2147483647) (hW : 4 * B ≤ 2147483647) :
    convElems (some p) t t' E E' g m = .ok (some (m.next + 2),
      m.newCube S L B t' (S * L * B * E') lay.tag
        (cubeBytes lay S L B E' (fun i j k t => leByte (g (a i j k)) t)) w) := by
  obtain ⟨⟨hE, hS, hL, hB, hdr, wb, f, h1, h2, h3, h4, h5, h6, h7, h8, h9, h10, h11⟩, hlt⟩ := hc
  rw [bytes_iff] at h9 h10
  obtain ⟨e1, e2, e3⟩ := get_elemsize_eq hE
  obtain ⟨e1', e2', e3'⟩ := get_elemsize_eq hE'
  have hdlt := h9.lt_next hm
  unfold convElems
  rw [bind_ok (show derefH (some p) _ = _ from getH_ok h1)]
  rw [h2, h3, h4, h5]
  simp only [decide_true, cassert_bind_true]
  rw [bind_ok (create_tag_ok hm h6 hS hL hB hE' hN' hW)]
  rw [bind_ok (show derefH (some (m.next + 2)) _ = _ from getH_ok (newCube_hm m S L B t' _ lay.tag _ _))]
  have hN0 : S * L * B ≤ 2147483647 := by
    refine le_trans ?_ hN
    exact Nat.le_mul_of_pos_right _ e2
  rw [ev_bind (size_eval3 hL hB hN0)]
  have hs : Holds (m.newCube S L B t' (S * L * B * E') lay.tag (fun _ => 0) (fun _ => 0)) hdr.data
      (S * L * B * E) f := newCube_holds_old hm h9
  have hl : Fills (forI 0 ((S * L * B : Nat) : Int) fun i => do
      let x ← loadN E hdr.data i
      storeN E' (newHdr m S L B t' lay.tag).data i (g x))
      (m.newCube S L B t' (S * L * B * E') lay.tag (fun _ => 0) (fun _ => 0)) m.next (S * L * B * E')
      (cubeBytes lay S L B E' (fun i j k t => leByte (g (a i j k)) t))
      (fun p => ∃ i, i < S * L * B ∧ (i * E' ≤ p ∧ p < i * E' + E')) := by
    apply Fills.loop (P := fun i p => i * E' ≤ p ∧ p < i * E' + E')
    intro e he
    obtain ⟨i, j, k, hi, hj, hk, rfl, hb⟩ := cube_elem h11 he
    apply Fills.bind (a := a i j k)
    · intro g'
      exact loadN_val (hs.put_ne (by omega)) (slot_le he) hb (hlt i j k hi hj hk)
    · apply storeN_fills (slot_le he)
      intro t ht
      exact cubeBytes_at lay hi hj hk ht
  rw [bind_ok (hl.total ?_ (newCube_data m S L B t' _ lay.tag _ _)), newCube_put_data]
  · rw [bind_ok (copyWave_run hm h7 h10)]
    rfl
  · intro p hp
    refine ⟨p / E', Nat.div_lt_of_lt_mul (by rw [Nat.mul_comm]; exact hp), ?_⟩
    have := Nat.div_add_mod p E'
    have h' := Nat.mod_lt p e2'
    rw [Nat.mul_comm] at this
    omega

theorem newCube_fresh (m : Mem) {S L B : Nat} {dt : Int} {N : Nat} {il : List Char} {f w : Nat → UInt8} :
    FreshCube m (m.newCube S L B dt N il f w) (m.next + 2) := by
  intro h hh
  rcases hh with rfl | ⟨hdr, h1, h2⟩
  · omega
  · rw [newCube_hm] at h1
    obtain rfl := Option.some.inj h1
    rcases h2 with rfl | h2
    · exact le_refl _
    · have := Option.some.inj h2
      show m.next ≤ h
      omega

/-- an elementwise conversion converts, when its element function satisfies `R` -/
theorem convElems_converts {t t' : Int} {E E' : Nat} {g : Nat → Nat} {R : Nat → Nat → Prop}
    (hE : elemBytes t = some E) (hE' : elemBytes t' = some E')
    (hg : ∀ x, x < 256 ^ E → g x < 256 ^ E') (hR : ∀ x, x < 256 ^ E → R x (g x)) :
    ConvertsElems (fun p => convElems p t t' E E' g) t t' R := by
  intro m p lay S L B E1 E1' a w hm hc hE1' hN hN' hW
  have := hc.1.size
  rw [hE] at this
  obtain rfl := Option.some.inj this
  rw [hE'] at hE1'
  obtain rfl := Option.some.inj hE1'
  refine ⟨m.next + 2, _, fun i j k => g (a i j k), convElems_run hm hc hE' hN hN' hW, ⟨?_, ?_⟩, ?_, ?_, ?_, ?_⟩
  · exact newCube_isCube lay hc.1.posS hc.1.posL hc.1.posB hE'
  · intro i j k hi hj hk
    exact hg _ (hc.2 i j k hi hj hk)
  · intro i j k hi hj hk
    exact hR _ (hc.2 i j k hi hj hk)
  · exact newCube_fresh m
  · exact newCube_frame m
  · exact newCube_WF hm

/-! ### Numbers -/

theorem bitsOf_lt (w : Nat) (x : Int) : bitsOf w x < 256 ^ w := by
  unfold bitsOf
  have h := Int.emod_lt_of_pos x (by positivity : (0:Int) < 256 ^ w)
  have h0 := Int.emod_nonneg x (by positivity : (256 ^ w : Int) ≠ 0)
  have : ((x % 256 ^ w).toNat : Int) < ((256 ^ w : Nat) : Int) := by
    rw [Int.toNat_of_nonneg h0]; push_cast; exact h
  exact_mod_cast this

theorem bitsOf_nat {w : Nat} {x : Int} (h0 : 0 ≤ x) (h : x < 256 ^ w) : (bitsOf w x : Int) = x := by
  unfold bitsOf
  rw [Int.emod_eq_of_lt h0 h, Int.toNat_of_nonneg h0]

theorem signed_bitsOf {w : Nat} (hw : 0 < w) {x : Int} (h0 : -(256 ^ w / 2) ≤ x) (h : x < 256 ^ w / 2) :
    signed w (bitsOf w x) = x := by
  obtain ⟨k, hk⟩ : ∃ k : Nat, 256 ^ w = 2 * k := by
    refine ⟨128 * 256 ^ (w - 1), ?_⟩
    obtain ⟨w', rfl⟩ : ∃ w', w = w' + 1 := ⟨w - 1, by omega⟩
    rw [pow_succ]; simp; ring
  have hk' : (256 : Int) ^ w = 2 * (k : Int) := by exact_mod_cast hk
  unfold signed bitsOf
  rw [hk', hk]
  rw [hk'] at h0 h
  have e : (2 * (k : Int)) / 2 = k := by omega
  have e' : (2 * k) / 2 = k := by omega
  rw [e] at h0 h
  rw [e']
  by_cases hx : 0 ≤ x
  · rw [Int.emod_eq_of_lt hx (by omega), if_pos (by omega)]
    omega
  · have e2 : x % (2 * (k : Int)) = x + 2 * k := by
      rw [← Int.add_emod_right, Int.emod_eq_of_lt (by omega) (by omega)]
    rw [e2, if_neg (by omega)]
    omega

/-- small naturals are numbers of both formats -/
theorem f32_rep_nat {n : Nat} (h : n ≤ 16777216) : f32.Rep (n : ℚ) := by
  have := rep_int (F := f32) (n := (n : ℤ)) (by
    show |(n:ℤ)| ≤ 2 ^ (23 + 1)
    rw [abs_of_nonneg (by omega)]; omega) (by decide) (by decide)
  exact_mod_cast this

theorem f64_rep_nat {n : Nat} (h : n ≤ 9007199254740992) : f64.Rep (n : ℚ) := by
  have := rep_int (F := f64) (n := (n : ℤ)) (by
    show |(n:ℤ)| ≤ 2 ^ (52 + 1)
    rw [abs_of_nonneg (by omega)]; omega) (by decide) (by decide)
  exact_mod_cast this

theorem round_rep_nat {F : Fmt} {n : Nat} (h : F.Rep (n : ℚ)) : F.round false (n : ℚ) = .fin false n := by
  by_cases h0 : n = 0
  · subst h0; exact round_zero
  · rw [round_rep h (by exact_mod_cast h0)]
    congr 1
    simp

/-- `x * 1.0` converted to `float` has the value `x` -/
theorem widen_float {x : Nat} (h : x ≤ 16777216) :
    f32.conv (f64.mul (f64.ofInt x) (.fin false 1)) = .fin false x := by
  unfold Fmt.ofInt
  have e1 : f64.round false (((x : Nat) : ℤ) : ℚ) = .fin false x := by
    rw [show (((x : Nat) : ℤ) : ℚ) = (x : ℚ) by push_cast; rfl]
    exact round_rep_nat (f64_rep_nat (by omega))
  rw [e1]
  unfold Fmt.mul
  simp only [mul_one, bne_self_eq_false]
  rw [round_rep_nat (f64_rep_nat (by omega))]
  exact round_rep_nat (f32_rep_nat h)

theorem decode_widen {x : Nat} (h : x ≤ 16777216) :
    f32.decode (f32.encode (f32.conv (f64.mul (f64.ofInt x) (.fin false 1)))) = .fin false x := by
  rw [widen_float h]
  apply decode_encode (by decide) (f32_rep_nat h)
  intro _
  simp

theorem rne_of_nearest {x : ℚ} {n : ℤ} (h : NearestEven x n) : rne x = n := rne_unique h.1 h.2

end HyperCV

namespace HyperCV
open Spec

/-! ### A heap holding one given cube -/

/-- a heap that contains exactly one cube, with the given elements -/
def cubeHeap (lay : Layout) (S L B : Nat) (dt : Int) (E : Nat) (a : Nat → Nat → Nat → Nat) : Mem :=
  Mem.empty.newCube S L B dt (S * L * B * E) lay.tag (cubeBytes lay S L B E (fun i j k t => leByte (a i j k) t))
    (fun _ => 0)

theorem emptyMem_WF : Mem.empty.WF := fun _ _ => ⟨rfl, rfl, rfl⟩

theorem cubeHeap_WF {lay : Layout} {S L B : Nat} {dt : Int} {E : Nat} {a : Nat → Nat → Nat → Nat} :
    (cubeHeap lay S L B dt E a).WF := newCube_WF emptyMem_WF

theorem cubeHeap_cube {lay : Layout} {S L B : Nat} {dt : Int} {E : Nat} {a : Nat → Nat → Nat → Nat}
    (hS : 0 < S) (hL : 0 < L) (hB : 0 < B) (hE : elemBytes dt = some E)
    (ha : ∀ i j k, i < L → j < S → k < B → a i j k < 256 ^ E) :
    IsCubeN (cubeHeap lay S L B dt E a) 2 lay S L B dt E a (fun _ => 0) :=
  ⟨newCube_isCube lay hS hL hB hE, ha⟩

/-- the elements of a cube are determined by the heap -/
theorem isCubeN_unique {m : Mem} {p : Nat} {lay : Layout} {S L B : Nat} {dt : Int} {E : Nat}
    {a b : Nat → Nat → Nat → Nat} {w w' : Nat → UInt8}
    (ha : IsCubeN m p lay S L B dt E a w) (hb : IsCubeN m p lay S L B dt E b w') :
    ∀ i j k, i < L → j < S → k < B → a i j k = b i j k := by
  intro i j k hi hj hk
  obtain ⟨⟨_, _, _, _, hdr, wb, f, h1, -, -, -, -, -, -, -, h9, -, h11⟩, hla⟩ := ha
  obtain ⟨⟨_, _, _, _, hdr', wb', f', h1', -, -, -, -, -, -, -, h9', -, h11'⟩, hlb⟩ := hb
  rw [h1] at h1'
  obtain rfl := Option.some.inj h1'
  rw [bytes_iff] at h9 h9'
  have hu := (h9.unique h9').2
  rw [← leNat_tab (w := E) (f := leByte (a i j k)) (fun _ _ => rfl) (hla i j k hi hj hk),
    ← leNat_tab (w := E) (f := leByte (b i j k)) (fun _ _ => rfl) (hlb i j k hi hj hk)]
  congr 1
  apply tab_congr
  intro t ht
  have hb := byte_lt lay (E := E) hi hj hk
  rw [← h11 i j k t hi hj hk ht, ← h11' i j k t hi hj hk ht]
  exact hu _ (by omega)

/-- an elementwise conversion satisfies `R` exactly if its element function does -/
theorem convElems_iff {t t' : Int} {E E' : Nat} {g : Nat → Nat} {R : Nat → Nat → Prop}
    (hE : elemBytes t = some E) (hE' : elemBytes t' = some E')
    (hg : ∀ x, x < 256 ^ E → g x < 256 ^ E') :
    ConvertsElems (fun p => convElems p t t' E E' g) t t' R ↔ ∀ x, x < 256 ^ E → R x (g x) := by
  refine ⟨?_, convElems_converts hE hE' hg⟩
  intro h x hx
  have hc := cubeHeap_cube (lay := .bsq) (S := 1) (L := 1) (B := 1) (dt := t) (E := E) (a := fun _ _ _ => x)
    (by omega) (by omega) (by omega) hE (by intros; exact hx)
  obtain ⟨_, _, e3⟩ := get_elemsize_eq hE
  obtain ⟨_, _, e3'⟩ := get_elemsize_eq hE'
  obtain ⟨q, m', b, h1, h2, h3, -⟩ := h _ _ _ _ _ _ _ _ _ _ cubeHeap_WF hc hE' (by omega) (by omega) (by omega)
  beta_reduce at h1
  rw [convElems_run cubeHeap_WF hc hE' (by omega) (by omega) (by omega)] at h1
  obtain ⟨rfl, rfl⟩ := Prod.mk.inj (Except.ok.inj h1) |>.imp (fun h => Option.some.inj h) id
  have h4 : IsCubeN _ _ _ _ _ _ _ _ (fun _ _ _ => g x) _ :=
    ⟨newCube_isCube (m := cubeHeap .bsq 1 1 1 t E (fun _ _ _ => x)) (w := fun _ => 0)
      (v := fun _ _ _ t => leByte (g x) t) Layout.bsq hc.1.posS hc.1.posL hc.1.posB hE',
      fun _ _ _ _ _ _ => hg x hx⟩
  have h5 := isCubeN_unique h4 h2 0 0 0 (by omega) (by omega) (by omega)
  have h6 := h3 0 0 0 (by omega) (by omega) (by omega)
  rw [← h5] at h6
  exact h6

theorem imgBytes_enc {C ch E i j c t : Nat} {a : Nat → Nat → Nat → Nat} (hj : j < C) (hc : c < ch) (ht : t < E) :
    imgBytes C ch E (fun i j c t => leByte (a i j c) t) (((i * C + j) * ch + c) * E + t) = leByte (a i j c) t :=
  imgBytes_at hj hc ht

/-- reading one element of an image -/
theorem img_load {m : Mem} {h R C ch E i j c : Nat} {a : Nat → Nat → Nat → Nat}
    (hh : Holds m h (R * C * ch * E) (imgBytes C ch E (fun i j c t => leByte (a i j c) t)))
    (hi : i < R) (hj : j < C) (hc : c < ch) (ha : a i j c < 256 ^ E) :
    loadN E h (((i * C + j) * ch + c : Nat) : Int) m = .ok (a i j c, m) :=
  loadN_val hh (slot_le (img8_lt hi hj hc)) (fun _ ht => imgBytes_enc hj hc ht) ha

theorem sm_float2uchar_run {m : Mem} (hm : m.WF) {p R C ch : Nat} {a : Nat → Nat → Nat → Nat}
    (h : IsImageN m p R C 4 ch 4 a) (hN : R * C * ch * 4 ≤ 2147483551) :
    simple_mat_float2uchar (some p) m = .ok (some (m.next + 1), m.newImage R C 1 ch 1
      (imgBytes C ch 1 (fun i j c _ => narrow_sm_uchar (hypercv_round (f32.decode (a i j c)))))) := by
  obtain ⟨h, hlt⟩ := h
  obtain ⟨hdr, h1, h2, h3, h4, h5, h6, h7⟩ := img_open h
  unfold simple_mat_float2uchar
  rw [nonNull_some, bind_ok (getS_ok h1), h2, h3, h4, h5]
  simp only [decide_true, cassert_bind_true]
  rw [bind_ok (create_sm_ok (E := 1) h.posR h.posC h.posCh rfl (by omega))]
  rw [bind_ok (show derefS (some (m.next + 1)) _ = _ from getS_ok (newImage_sm m R C 1 ch 1 _))]
  rw [ev_bind (size3_eval h.posC h.posCh (by omega))]
  have hdl := h7.lt_next hm
  have hs := newImage_holds_old hm (R := R) (C := C) (dt := 1) (ch := ch) (E := 1)
    (f := fun p => if p < R * C * 1 then 0 else m.junk m.next p) h7
  have hl : Fills (forI 0 ((R * C * ch : Nat) : Int) fun i => do
      let x ← loadN 4 hdr.data i
      store (newSHdr m R C 1 ch 1).data i (narrow_sm_uchar (hypercv_round (f32.decode x))))
      (m.newImage R C 1 ch 1 (fun p => if p < R * C * 1 then 0 else m.junk m.next p)) m.next (R * C * ch * 1)
      (imgBytes C ch 1 (fun i j c _ => narrow_sm_uchar (hypercv_round (f32.decode (a i j c)))))
      (fun p => ∃ i, i < R * C * ch ∧ p = i) := by
    apply Fills.loop (P := fun i p => p = i)
    intro e he
    obtain ⟨i, j, c, hi, hj, hc, rfl⟩ := img8_cover he
    apply Fills.bind (a := a i j c)
    · intro g
      exact img_load (hs.put_ne (by omega)) hi hj hc (hlt i j c hi hj hc)
    · apply Fills.store (by omega)
      exact (imgBytes_at8 (px := fun i j c => narrow_sm_uchar (hypercv_round (f32.decode (a i j c)))) hj hc).symm
  rw [bind_ok (hl.total ?_ (newImage_data m R C 1 ch 1 _)), newImage_put]
  · rfl
  · intro p hp
    exact ⟨p, by omega, rfl⟩

/-- bit patterns of integers as floats -/
theorem f32_rep_int {n : ℤ} (h : |n| ≤ 16777216) : f32.Rep (n : ℚ) :=
  rep_int (F := f32) h (by decide) (by decide)

theorem enc_lt {n : ℚ} {s : Bool} (h : f32.Rep n) : f32.encode (.fin s n) < 256 ^ 4 :=
  encode_lt (F := f32) (by decide) h

theorem round_int_enc {n : ℤ} {q : ℚ} (hq : q = n) (h : f32.Rep q)
    (hr : -2147483648 ≤ n ∧ n ≤ 2147483647) :
    hypercv_round (f32.decode (f32.encode (.fin (q < 0) q))) = n := by
  rw [decode_encode (by decide) h (by intro _; rfl)]
  subst hq
  simp only [hypercv_round, rne_int, hr, and_self, if_true]

end HyperCV
