import Verif.Proof.HyperMat
import Verif.Model.Interleave

namespace HyperCV
open Spec

/-! ### Positions -/

theorem mix_lt {a b x M : Nat} (ha : a < b) (hx : x < M) : a * M + x < b * M := by
  have : (a + 1) * M ≤ b * M := Nat.mul_le_mul_right M ha
  have e : (a + 1) * M = a * M + M := by ring
  omega

theorem mix_div {a x M : Nat} (hx : x < M) : (a * M + x) / M = a := by
  rw [Nat.mul_comm, Nat.mul_add_div (by omega), Nat.div_eq_of_lt hx]; omega

theorem mix_mod {a x M : Nat} (hx : x < M) : (a * M + x) % M = x := by
  rw [Nat.mul_comm, Nat.mul_add_mod, Nat.mod_eq_of_lt hx]

theorem pos_lt (lay : Layout) {S L B i j k : Nat} (hi : i < L) (hj : j < S) (hk : k < B) :
    lay.pos S L B i j k < S * L * B := by
  cases lay
  · have := mix_lt (mix_lt hk hi) hj
    calc _ < B * L * S := this
      _ = S * L * B := by ring
  · have := mix_lt (mix_lt hi hk) hj
    calc _ < L * B * S := this
      _ = S * L * B := by ring
  · have := mix_lt (mix_lt hi hj) hk
    calc _ < L * S * B := this
      _ = S * L * B := by ring

/-- coordinates of a position: (line, sample, band) -/
def Layout.unpos (lay : Layout) (S L B e : Nat) : Nat × Nat × Nat :=
  match lay with
  | .bsq => (e / S % L, e % S, e / S / L)
  | .bil => (e / S / B, e % S, e / S % B)
  | .bip => (e / B / S, e / B % S, e % B)

theorem unpos_pos (lay : Layout) {S L B i j k : Nat} (hi : i < L) (hj : j < S) (hk : k < B) :
    Layout.unpos lay S L B (lay.pos S L B i j k) = (i, j, k) := by
  cases lay <;> simp [Layout.unpos, Layout.pos, mix_div, hi, hj, hk, Nat.mod_eq_of_lt]

theorem unpos_spec (lay : Layout) {S L B e : Nat} (he : e < S * L * B) :
    ∃ i j k, i < L ∧ j < S ∧ k < B ∧ e = lay.pos S L B i j k := by
  have hS : 0 < S := by rcases Nat.eq_zero_or_pos S with h | h; (subst h; simp at he); exact h
  have hL : 0 < L := by rcases Nat.eq_zero_or_pos L with h | h; (subst h; simp at he); exact h
  have hB : 0 < B := by rcases Nat.eq_zero_or_pos B with h | h; (subst h; simp at he); exact h
  cases lay
  · refine ⟨e / S % L, e % S, e / S / L, Nat.mod_lt _ hL, Nat.mod_lt _ hS, ?_, ?_⟩
    · rw [Nat.div_div_eq_div_mul]; exact Nat.div_lt_of_lt_mul he
    · show e = (e / S / L * L + e / S % L) * S + e % S
      rw [Nat.div_add_mod', Nat.div_add_mod']
  · refine ⟨e / S / B, e % S, e / S % B, ?_, Nat.mod_lt _ hS, Nat.mod_lt _ hB, ?_⟩
    · rw [Nat.div_div_eq_div_mul]
      apply Nat.div_lt_of_lt_mul
      calc e < S * L * B := he
        _ = S * B * L := by ring
    · show e = (e / S / B * B + e / S % B) * S + e % S
      rw [Nat.div_add_mod', Nat.div_add_mod']
  · refine ⟨e / B / S, e / B % S, e % B, ?_, Nat.mod_lt _ hS, Nat.mod_lt _ hB, ?_⟩
    · rw [Nat.div_div_eq_div_mul]
      apply Nat.div_lt_of_lt_mul
      calc e < S * L * B := he
        _ = B * S * L := by ring
    · show e = (e / B / S * S + e / B % S) * B + e % B
      rw [Nat.div_add_mod', Nat.div_add_mod']

/-- bytes of a cube with values `v` in order `lay` -/
def cubeBytes (lay : Layout) (S L B E : Nat) (v : Nat → Nat → Nat → Nat → UInt8) (p : Nat) : UInt8 :=
  let c := Layout.unpos lay S L B (p / E)
  v c.1 c.2.1 c.2.2 (p % E)

theorem cubeBytes_at (lay : Layout) {S L B E i j k t : Nat} {v : Nat → Nat → Nat → Nat → UInt8}
    (hi : i < L) (hj : j < S) (hk : k < B) (ht : t < E) :
    cubeBytes lay S L B E v (lay.pos S L B i j k * E + t) = v i j k t := by
  unfold cubeBytes
  rw [mix_div ht, mix_mod ht, unpos_pos lay hi hj hk]

theorem byte_lt (lay : Layout) {S L B E i j k : Nat} (hi : i < L) (hj : j < S) (hk : k < B) :
    lay.pos S L B i j k * E + E ≤ S * L * B * E := by
  have h := pos_lt lay hi hj hk
  calc lay.pos S L B i j k * E + E = (lay.pos S L B i j k + 1) * E := by ring
    _ ≤ S * L * B * E := Nat.mul_le_mul_right E h

/-- every byte position belongs to some element -/
theorem byte_cover (lay : Layout) {S L B E p : Nat} (hp : p < S * L * B * E) :
    ∃ i j k, i < L ∧ j < S ∧ k < B ∧ lay.pos S L B i j k * E ≤ p ∧ p < lay.pos S L B i j k * E + E := by
  have hE : 0 < E := by rcases Nat.eq_zero_or_pos E with h | h; (subst h; simp at hp); exact h
  have h1 : p / E < S * L * B := by
    apply Nat.div_lt_of_lt_mul
    calc p < S * L * B * E := hp
      _ = E * (S * L * B) := by ring
  obtain ⟨i, j, k, hi, hj, hk, he⟩ := unpos_spec lay h1
  refine ⟨i, j, k, hi, hj, hk, ?_⟩
  rw [← he]
  have := Nat.div_add_mod p E
  have h2 := Nat.mod_lt p hE
  constructor
  · exact Nat.div_mul_le_self p E
  · rw [mul_comm]; omega

/-! ### Index evaluation -/

theorem eval_bil {S L B E i j k : Nat} (hi : i < L) (hj : j < S) (hk : k < B) (hE : 0 < E)
    (hN : S * L * B * E ≤ 2147483647) :
    ((CI.lit (i:Int) * CI.lit (S:Int) * CI.lit (B:Int) + CI.lit (k:Int) * CI.lit (S:Int)
      + CI.lit (j:Int)) * CI.lit (E:Int) : CI)
      = CI.lit ((Layout.bil.pos S L B i j k * E : Nat) : Int) := by
  have e : Layout.bil.pos S L B i j k * E = (i * S * B + k * S + j) * E := by
    simp only [Layout.pos]; ring
  have hb := byte_lt .bil (E := E) hi hj hk
  rw [e] at hb ⊢
  have h : (i * S * B + k * S + j) * E < 2147483648 := by omega
  have hS : 0 < S := by omega
  have hB : 0 < B := by omega
  ci_down

theorem eval_bsq {S L B E i j k : Nat} (hi : i < L) (hj : j < S) (hk : k < B) (hE : 0 < E)
    (hN : S * L * B * E ≤ 2147483647) :
    ((CI.lit (k:Int) * CI.lit (S:Int) * CI.lit (L:Int) + CI.lit (i:Int) * CI.lit (S:Int)
      + CI.lit (j:Int)) * CI.lit (E:Int) : CI)
      = CI.lit ((Layout.bsq.pos S L B i j k * E : Nat) : Int) := by
  have e : Layout.bsq.pos S L B i j k * E = (k * S * L + i * S + j) * E := by
    simp only [Layout.pos]; ring
  have hb := byte_lt .bsq (E := E) hi hj hk
  rw [e] at hb ⊢
  have h : (k * S * L + i * S + j) * E < 2147483648 := by omega
  have hS : 0 < S := by omega
  have hL : 0 < L := by omega
  ci_down

theorem eval_bip {S L B E i j k : Nat} (hi : i < L) (hj : j < S) (hk : k < B) (hE : 0 < E)
    (hN : S * L * B * E ≤ 2147483647) :
    ((CI.lit (i:Int) * CI.lit (S:Int) * CI.lit (B:Int) + CI.lit (j:Int) * CI.lit (B:Int)
      + CI.lit (k:Int)) * CI.lit (E:Int) : CI)
      = CI.lit ((Layout.bip.pos S L B i j k * E : Nat) : Int) := by
  have e : Layout.bip.pos S L B i j k * E = (i * S * B + j * B + k) * E := by
    simp only [Layout.pos]; ring
  have hb := byte_lt .bip (E := E) hi hj hk
  rw [e] at hb ⊢
  have h : (i * S * B + j * B + k) * E < 2147483648 := by omega
  have hS : 0 < S := by omega
  have hB : 0 < B := by omega
  ci_down

/-! ### Copying one element -/

theorem copyElem_fills {m : Mem} {s d N Ns E d0 s0 : Nat} {f new : Nat → UInt8}
    (hs : Holds m s Ns f) (hne : s ≠ d) (hd : d0 + E ≤ N) (hs0 : s0 + E ≤ Ns)
    (hN : N ≤ 2147483647) (hNs : Ns ≤ 2147483647)
    (hnew : ∀ t, t < E → new (d0 + t) = f (s0 + t)) :
    Fills (copyElem d (d0 : Int) s (s0 : Int) (E : Int)) m d N new (fun p => d0 ≤ p ∧ p < d0 + E) := by
  unfold copyElem
  refine Fills.congr (new := new) (Fills.loop (P := fun t p => p = d0 + t) ?_) ?_ (fun _ _ _ => rfl)
  · intro t ht
    rw [u32_nat (n := d0) (by omega), u32_nat (n := s0) (by omega)]
    have e1 : ((s0 : Int) + (t : Int)) = ((s0 + t : Nat) : Int) := by push_cast; rfl
    have e2 : ((d0 : Int) + (t : Int)) = ((d0 + t : Nat) : Int) := by push_cast; rfl
    rw [e1, e2, u32_nat (n := s0 + t) (by omega), u32_nat (n := d0 + t) (by omega)]
    apply Fills.bind (a := f (s0 + t))
    · intro g
      exact load_ok (hs.put_ne hne) (by omega)
    · exact Fills.store (by omega) (hnew t ht).symm
  · intro p hp
    constructor
    · rintro ⟨t, ht, rfl⟩; omega
    · intro h; exact ⟨p - d0, by omega, by omega⟩

/-- what a conversion loop body must do at coordinates `(i,j,k)` -/
theorem elem_fills {m : Mem} {s d S L B E i j k : Nat} (a b : Layout) {f : Nat → UInt8}
    (hs : Holds m s (S * L * B * E) f) (hne : s ≠ d) (hN : S * L * B * E ≤ 2147483647)
    {v : Nat → Nat → Nat → Nat → UInt8}
    (hv : ∀ i j k t, i < L → j < S → k < B → t < E → f (a.pos S L B i j k * E + t) = v i j k t)
    (hi : i < L) (hj : j < S) (hk : k < B) :
    Fills (copyElem d ((b.pos S L B i j k * E : Nat) : Int) s ((a.pos S L B i j k * E : Nat) : Int) (E : Int))
      m d (S * L * B * E) (cubeBytes b S L B E v)
      (fun p => b.pos S L B i j k * E ≤ p ∧ p < b.pos S L B i j k * E + E) := by
  apply copyElem_fills hs hne (byte_lt b hi hj hk) (byte_lt a hi hj hk) hN hN
  intro t ht
  rw [cubeBytes_at b hi hj hk ht, hv i j k t hi hj hk ht]

/-! ### Opening an `IsCube` -/

theorem copyWave_run {m : Mem} (hm : m.WF) {src : HyperMat} {S L B N : Nat} {dt : Int} {il : List Char}
    {wb : Nat} {f w : Nat → UInt8} (hw : src.wavelength = some wb) (hwb : Holds m wb (4 * B) w) :
    copyWave src (newHdr m S L B dt il) B (m.newCube S L B dt N il f (fun _ => 0))
      = .ok ((), m.newCube S L B dt N il f w) := by
  unfold copyWave
  rw [hw]
  simp only [newHdr]
  have h1 : Holds (m.newCube S L B dt N il f (fun _ => 0)) wb (4 * B) w := newCube_holds_old hm hwb
  have hlt := hwb.lt_next hm
  have key := memcpy_ok (doff := 0) (soff := 0) (k := 4 * B) h1
    (newCube_wave m S L B dt N il f (fun _ => 0)) (by omega) (by omega) (by omega)
  have e : ((B : Int) * 4) = ((4 * B : Nat) : Int) := by push_cast; ring
  rw [e]
  simp only [Int.natCast_zero] at key
  rw [key, newCube_put_wave]
  refine congrArg (fun x => Except.ok ((), x)) ?_
  apply newCube_congr
  · intro i _; rfl
  · intro i hi; simp [hi]

/-- the whole second half of a conversion: create the result, run a loop nest that fills it, copy the
wavelengths -/
theorem conv_tail {m : Mem} (hm : m.WF) {src : HyperMat} {S L B E : Nat} {dt : Int} (b : Layout)
    {wb : Nat} {w : Nat → UInt8} {v : Nat → Nat → Nat → Nat → UInt8}
    (hS : 0 < S) (hL : 0 < L) (hB : 0 < B) (hE : elemBytes dt = some E)
    (hN : S * L * B * E ≤ 2147483647) (hW : 4 * B ≤ 2147483647)
    (hw : src.wavelength = some wb) (hwb : Holds m wb (4 * B) w)
    (loops : HyperMat → M Unit) (P : Nat → Prop)
    (hP : ∀ p, p < S * L * B * E → P p)
    (hl : Fills (loops (newHdr m S L B dt b.tag))
      (m.newCube S L B dt (S * L * B * E) b.tag (fun _ => 0) (fun _ => 0)) m.next (S * L * B * E)
      (cubeBytes b S L B E v) P) :
    (do
      let q ← create_hyper_mat S L B dt b.tag
      let res ← derefH q
      loops res
      copyWave src res B
      pure q : M (Option Nat)) m
    = .ok (some (m.next + 2), m.newCube S L B dt (S * L * B * E) b.tag (cubeBytes b S L B E v) w) := by
  rw [bind_ok (create_ok hm hS hL hB hE hN hW (by cases b <;> decide))]
  rw [bind_ok (show derefH (some (m.next + 2)) _ = _ from getH_ok (newCube_hm m S L B dt _ b.tag _ _))]
  rw [bind_ok (hl.total hP (newCube_data m S L B dt _ b.tag _ _)), newCube_put_data]
  rw [bind_ok (copyWave_run hm hw hwb)]
  rfl

/-- the result of `conv_tail` is the expected cube -/
theorem newCube_isCube {m : Mem} {S L B E : Nat} {dt : Int} (b : Layout)
    {w : Nat → UInt8} {v : Nat → Nat → Nat → Nat → UInt8}
    (hS : 0 < S) (hL : 0 < L) (hB : 0 < B) (hE : elemBytes dt = some E) :
    IsCube (m.newCube S L B dt (S * L * B * E) b.tag (cubeBytes b S L B E v) w) (m.next + 2) b
      S L B dt E v w where
  size := hE
  posS := hS
  posL := hL
  posB := hB
  obj := by
    refine ⟨newHdr m S L B dt b.tag, m.next + 1, cubeBytes b S L B E v, newCube_hm m S L B dt _ _ _ _,
      rfl, rfl, rfl, rfl, ?_, rfl, ?_, bytes_iff.2 (newCube_data m S L B dt _ _ _ _),
      bytes_iff.2 (newCube_wave m S L B dt _ _ _ _), ?_⟩
    · cases b <;> rfl
    · simp [newHdr]
    · intro i j k t hi hj hk ht
      exact cubeBytes_at b hi hj hk ht

/-- three nested filling loops -/
theorem nest3 {n1 n2 n3 : Nat} {body : Int → Int → Int → M Unit} {m : Mem} {d N : Nat}
    {new : Nat → UInt8} {P : Nat → Nat → Nat → Nat → Prop}
    (h : ∀ a b c, a < n1 → b < n2 → c < n3 → Fills (body (a:Int) (b:Int) (c:Int)) m d N new (P a b c)) :
    Fills (forI 0 (n1 : Int) fun a => forI 0 (n2 : Int) fun b => forI 0 (n3 : Int) fun c => body a b c)
      m d N new (fun p => ∃ a, a < n1 ∧ ∃ b, b < n2 ∧ ∃ c, c < n3 ∧ P a b c p) := by
  apply Fills.loop (P := fun a p => ∃ b, b < n2 ∧ ∃ c, c < n3 ∧ P a b c p)
  intro a ha
  apply Fills.loop (P := fun b p => ∃ c, c < n3 ∧ P a b c p)
  intro b hb
  apply Fills.loop (P := fun c p => P a b c p)
  intro c hc
  exact h a b c ha hb hc

section conversions

variable {m : Mem} {p S L B E : Nat} {dt : Int}
  {v : Nat → Nat → Nat → Nat → UInt8} {w : Nat → UInt8}

/-- final memory of a conversion to layout `b` -/
def convMem (m : Mem) (b : Layout) (S L B : Nat) (dt : Int) (E : Nat)
    (v : Nat → Nat → Nat → Nat → UInt8) (w : Nat → UInt8) : Mem :=
  m.newCube S L B dt (S * L * B * E) b.tag (cubeBytes b S L B E v) w

/-- shape shared by the six conversion routines; `loops` is the loop nest of the routine -/
def convShape (a b : Layout) (loops : HyperMat → HyperMat → M Unit) (arg : Option Nat) : M (Option Nat) := do
  let p ← nonNull arg
  let mat ← getH p
  if cmpstr mat.tagMem b.tag = 1 then
    hyper_mat_copy arg
  else do
  cassert (cmpstr mat.tagMem a.tag = 1)
  let q ← create_hyper_mat mat.samples mat.lines mat.bands mat.data_type b.tag
  let res ← derefH q
  loops mat res
  copyWave mat res mat.bands
  pure q

theorem convShape_run (a b : Layout) (hab : a ≠ b) (hm : m.WF) (hc : IsCube m p a S L B dt E v w)
    (hN : S * L * B * E ≤ 2147483647) (hW : 4 * B ≤ 2147483647)
    (loops : HyperMat → HyperMat → M Unit)
    (hl : ∀ (hdr res : HyperMat) (m1 : Mem) (f : Nat → UInt8),
      hdr.samples = S → hdr.lines = L → hdr.bands = B → get_elemsize hdr.data_type = E → 0 < E →
      hdr.data ≠ res.data → Holds m1 hdr.data (S * L * B * E) f →
      (∀ i j k t, i < L → j < S → k < B → t < E → f (a.pos S L B i j k * E + t) = v i j k t) →
      ∃ P : Nat → Prop, (∀ p, p < S * L * B * E → P p) ∧
        Fills (loops hdr res) m1 res.data (S * L * B * E) (cubeBytes b S L B E v) P) :
    convShape a b loops (some p) m = .ok (some (m.next + 2), convMem m b S L B dt E v w) := by
  obtain ⟨hE, hS, hL, hB, hdr, wb, f, h1, h2, h3, h4, h5, h6, h7, h8, h9, h10, h11⟩ := hc
  rw [bytes_iff] at h9 h10
  obtain ⟨e1, e2, e3⟩ := get_elemsize_eq hE
  have hdlt := h9.lt_next hm
  unfold convShape
  rw [nonNull_some, bind_ok (getH_ok h1)]
  have c1 : ¬ cmpstr hdr.tagMem b.tag = 1 := by
    unfold HyperMat.tagMem; rw [h6, cmpstr_tag_tag]; exact hab
  have c2 : decide (cmpstr hdr.tagMem a.tag = 1) = true := by
    unfold HyperMat.tagMem; rw [h6]; simp [cmpstr_tag_tag]
  rw [if_neg c1, c2]
  simp only [cassert_bind_true]
  rw [h2, h3, h4, h5]
  obtain ⟨P, hP, hF⟩ := hl hdr (newHdr m S L B dt b.tag)
    (m.newCube S L B dt (S * L * B * E) b.tag (fun _ => 0) (fun _ => 0)) f h2 h3 h4
    (by rw [h5]; exact e1) e2 (by simp only [newHdr]; omega) (newCube_holds_old hm h9) h11
  exact conv_tail hm b hS hL hB hE hN hW h7 h10 (loops hdr) P hP hF

theorem bil2bsq_eq (arg : Option Nat) : bil2bsq arg = convShape .bil .bsq (fun mat res =>
    forI 0 mat.bands fun k => forI 0 mat.lines fun i => forI 0 mat.samples fun j => do
        let bil_index ← ev ((i * mat.samples * mat.bands + k * mat.samples + j) * get_elemsize mat.data_type)
        let bsq_index ← ev ((k * mat.samples * mat.lines + i * mat.samples + j) * get_elemsize mat.data_type)
        copyElem res.data bsq_index mat.data bil_index (get_elemsize mat.data_type)) arg := rfl

theorem bil2bip_eq (arg : Option Nat) : bil2bip arg = convShape .bil .bip (fun mat res =>
    forI 0 mat.lines fun i => forI 0 mat.samples fun j => forI 0 mat.bands fun k => do
        let bil_index ← ev ((i * mat.samples * mat.bands + k * mat.samples + j) * get_elemsize mat.data_type)
        let bip_index ← ev ((i * mat.samples * mat.bands + j * mat.bands + k) * get_elemsize mat.data_type)
        copyElem res.data bip_index mat.data bil_index (get_elemsize mat.data_type)) arg := rfl

theorem bsq2bil_eq (arg : Option Nat) : bsq2bil arg = convShape .bsq .bil (fun mat res =>
    forI 0 mat.lines fun i => forI 0 mat.bands fun k => forI 0 mat.samples fun j => do
        let bsq_index ← ev ((k * mat.samples * mat.lines + i * mat.samples + j) * get_elemsize mat.data_type)
        let bil_index ← ev ((i * mat.samples * mat.bands + k * mat.samples + j) * get_elemsize mat.data_type)
        copyElem res.data bil_index mat.data bsq_index (get_elemsize mat.data_type)) arg := rfl

theorem bsq2bip_eq (arg : Option Nat) : bsq2bip arg = convShape .bsq .bip (fun mat res =>
    forI 0 mat.lines fun i => forI 0 mat.samples fun j => forI 0 mat.bands fun k => do
        let bsq_index ← ev ((k * mat.samples * mat.lines + i * mat.samples + j) * get_elemsize mat.data_type)
        let bip_index ← ev ((i * mat.samples * mat.bands + j * mat.bands + k) * get_elemsize mat.data_type)
        copyElem res.data bip_index mat.data bsq_index (get_elemsize mat.data_type)) arg := rfl

theorem bip2bsq_eq (arg : Option Nat) : bip2bsq arg = convShape .bip .bsq (fun mat res =>
    forI 0 mat.lines fun i => forI 0 mat.samples fun j => forI 0 mat.bands fun k => do
        let bsq_index ← ev ((k * mat.samples * mat.lines + i * mat.samples + j) * get_elemsize mat.data_type)
        let bip_index ← ev ((i * mat.samples * mat.bands + j * mat.bands + k) * get_elemsize mat.data_type)
        copyElem res.data bsq_index mat.data bip_index (get_elemsize mat.data_type)) arg := rfl

theorem bip2bil_eq (arg : Option Nat) : bip2bil arg = convShape .bip .bil (fun mat res =>
    forI 0 mat.lines fun i => forI 0 mat.samples fun j => forI 0 mat.bands fun k => do
        let bil_index ← ev ((i * mat.samples * mat.bands + k * mat.samples + j) * get_elemsize mat.data_type)
        let bip_index ← ev ((i * mat.samples * mat.bands + j * mat.bands + k) * get_elemsize mat.data_type)
        copyElem res.data bil_index mat.data bip_index (get_elemsize mat.data_type)) arg := rfl

theorem bil2bsq_run (hm : m.WF) (hc : IsCube m p .bil S L B dt E v w)
    (hN : S * L * B * E ≤ 2147483647) (hW : 4 * B ≤ 2147483647) :
    bil2bsq (some p) m = .ok (some (m.next + 2), convMem m .bsq S L B dt E v w) := by
  rw [bil2bsq_eq]
  apply convShape_run .bil .bsq (by decide) hm hc hN hW
  intro hdr res m1 f a1 a2 a3 a4 hE0 hne hs hv
  refine ⟨_, ?_, (by
    rw [a1, a2, a3, a4]
    refine nest3 (P := fun k i j p => Layout.bsq.pos S L B i j k * E ≤ p ∧ p < Layout.bsq.pos S L B i j k * E + E) ?_
    intro k i j hk hi hj
    apply Fills.bind (fun g => ev_ok (eval_bil hi hj hk hE0 hN) _)
    apply Fills.bind (fun g => ev_ok (eval_bsq hi hj hk hE0 hN) _)
    exact elem_fills .bil .bsq hs hne hN hv hi hj hk)⟩
  intro p hp
  obtain ⟨i, j, k, hi, hj, hk, h⟩ := byte_cover .bsq hp
  exact ⟨k, hk, i, hi, j, hj, h⟩

theorem bil2bip_run (hm : m.WF) (hc : IsCube m p .bil S L B dt E v w)
    (hN : S * L * B * E ≤ 2147483647) (hW : 4 * B ≤ 2147483647) :
    bil2bip (some p) m = .ok (some (m.next + 2), convMem m .bip S L B dt E v w) := by
  rw [bil2bip_eq]
  apply convShape_run .bil .bip (by decide) hm hc hN hW
  intro hdr res m1 f a1 a2 a3 a4 hE0 hne hs hv
  refine ⟨_, ?_, (by
    rw [a1, a2, a3, a4]
    refine nest3 (P := fun i j k p => Layout.bip.pos S L B i j k * E ≤ p ∧ p < Layout.bip.pos S L B i j k * E + E) ?_
    intro i j k hi hj hk
    apply Fills.bind (fun g => ev_ok (eval_bil hi hj hk hE0 hN) _)
    apply Fills.bind (fun g => ev_ok (eval_bip hi hj hk hE0 hN) _)
    exact elem_fills .bil .bip hs hne hN hv hi hj hk)⟩
  intro p hp
  obtain ⟨i, j, k, hi, hj, hk, h⟩ := byte_cover .bip hp
  exact ⟨i, hi, j, hj, k, hk, h⟩

theorem bsq2bil_run (hm : m.WF) (hc : IsCube m p .bsq S L B dt E v w)
    (hN : S * L * B * E ≤ 2147483647) (hW : 4 * B ≤ 2147483647) :
    bsq2bil (some p) m = .ok (some (m.next + 2), convMem m .bil S L B dt E v w) := by
  rw [bsq2bil_eq]
  apply convShape_run .bsq .bil (by decide) hm hc hN hW
  intro hdr res m1 f a1 a2 a3 a4 hE0 hne hs hv
  refine ⟨_, ?_, (by
    rw [a1, a2, a3, a4]
    refine nest3 (P := fun i k j p => Layout.bil.pos S L B i j k * E ≤ p ∧ p < Layout.bil.pos S L B i j k * E + E) ?_
    intro i k j hi hk hj
    apply Fills.bind (fun g => ev_ok (eval_bsq hi hj hk hE0 hN) _)
    apply Fills.bind (fun g => ev_ok (eval_bil hi hj hk hE0 hN) _)
    exact elem_fills .bsq .bil hs hne hN hv hi hj hk)⟩
  intro p hp
  obtain ⟨i, j, k, hi, hj, hk, h⟩ := byte_cover .bil hp
  exact ⟨i, hi, k, hk, j, hj, h⟩

theorem bsq2bip_run (hm : m.WF) (hc : IsCube m p .bsq S L B dt E v w)
    (hN : S * L * B * E ≤ 2147483647) (hW : 4 * B ≤ 2147483647) :
    bsq2bip (some p) m = .ok (some (m.next + 2), convMem m .bip S L B dt E v w) := by
  rw [bsq2bip_eq]
  apply convShape_run .bsq .bip (by decide) hm hc hN hW
  intro hdr res m1 f a1 a2 a3 a4 hE0 hne hs hv
  refine ⟨_, ?_, (by
    rw [a1, a2, a3, a4]
    refine nest3 (P := fun i j k p => Layout.bip.pos S L B i j k * E ≤ p ∧ p < Layout.bip.pos S L B i j k * E + E) ?_
    intro i j k hi hj hk
    apply Fills.bind (fun g => ev_ok (eval_bsq hi hj hk hE0 hN) _)
    apply Fills.bind (fun g => ev_ok (eval_bip hi hj hk hE0 hN) _)
    exact elem_fills .bsq .bip hs hne hN hv hi hj hk)⟩
  intro p hp
  obtain ⟨i, j, k, hi, hj, hk, h⟩ := byte_cover .bip hp
  exact ⟨i, hi, j, hj, k, hk, h⟩

theorem bip2bsq_run (hm : m.WF) (hc : IsCube m p .bip S L B dt E v w)
    (hN : S * L * B * E ≤ 2147483647) (hW : 4 * B ≤ 2147483647) :
    bip2bsq (some p) m = .ok (some (m.next + 2), convMem m .bsq S L B dt E v w) := by
  rw [bip2bsq_eq]
  apply convShape_run .bip .bsq (by decide) hm hc hN hW
  intro hdr res m1 f a1 a2 a3 a4 hE0 hne hs hv
  refine ⟨_, ?_, (by
    rw [a1, a2, a3, a4]
    refine nest3 (P := fun i j k p => Layout.bsq.pos S L B i j k * E ≤ p ∧ p < Layout.bsq.pos S L B i j k * E + E) ?_
    intro i j k hi hj hk
    apply Fills.bind (fun g => ev_ok (eval_bsq hi hj hk hE0 hN) _)
    apply Fills.bind (fun g => ev_ok (eval_bip hi hj hk hE0 hN) _)
    exact elem_fills .bip .bsq hs hne hN hv hi hj hk)⟩
  intro p hp
  obtain ⟨i, j, k, hi, hj, hk, h⟩ := byte_cover .bsq hp
  exact ⟨i, hi, j, hj, k, hk, h⟩

theorem bip2bil_run (hm : m.WF) (hc : IsCube m p .bip S L B dt E v w)
    (hN : S * L * B * E ≤ 2147483647) (hW : 4 * B ≤ 2147483647) :
    bip2bil (some p) m = .ok (some (m.next + 2), convMem m .bil S L B dt E v w) := by
  rw [bip2bil_eq]
  apply convShape_run .bip .bil (by decide) hm hc hN hW
  intro hdr res m1 f a1 a2 a3 a4 hE0 hne hs hv
  refine ⟨_, ?_, (by
    rw [a1, a2, a3, a4]
    refine nest3 (P := fun i j k p => Layout.bil.pos S L B i j k * E ≤ p ∧ p < Layout.bil.pos S L B i j k * E + E) ?_
    intro i j k hi hj hk
    apply Fills.bind (fun g => ev_ok (eval_bil hi hj hk hE0 hN) _)
    apply Fills.bind (fun g => ev_ok (eval_bip hi hj hk hE0 hN) _)
    exact elem_fills .bip .bil hs hne hN hv hi hj hk)⟩
  intro p hp
  obtain ⟨i, j, k, hi, hj, hk, h⟩ := byte_cover .bil hp
  exact ⟨i, hi, j, hj, k, hk, h⟩

theorem convMem_isCube (m : Mem) (b : Layout) (hc : IsCube m p a S L B dt E v w) :
    IsCube (convMem m b S L B dt E v w) (m.next + 2) b S L B dt E v w :=
  newCube_isCube b hc.posS hc.posL hc.posB hc.size

theorem convMem_frame (m : Mem) (b : Layout) : Frame m (convMem m b S L B dt E v w) := newCube_frame m

theorem convMem_WF (hm : m.WF) (b : Layout) : (convMem m b S L B dt E v w).WF := newCube_WF hm

/-- with the target tag, every conversion routine goes through `hyper_mat_copy` and returns NULL -/
theorem convShape_same (a b : Layout) (loops : HyperMat → HyperMat → M Unit) {hdr : HyperMat}
    (hp : m.hm p = some hdr) (ht : hdr.interleave = b.tag) :
    convShape a b loops (some p) m = .ok (none, m) := by
  unfold convShape
  rw [nonNull_some, bind_ok (getH_ok hp)]
  have c1 : cmpstr hdr.tagMem b.tag = 1 := by
    unfold HyperMat.tagMem; rw [ht, cmpstr_tag_tag]
  rw [if_pos c1]
  rfl

end conversions

end HyperCV
