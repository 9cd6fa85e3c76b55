/- Properties of images: creation, deletion, reshape, transposition, flips, thresholds
(C10, C11, C18, C19, C20, C23, C24, C25). -/
import Verif.Proof.Geometric
import Verif.Proof.Range
import Verif.Props.Cube

namespace HyperCV
open Spec

/-! ### Concrete images for the non-vacuity checks -/

def demoPx (i j c t : Nat) : UInt8 := UInt8.ofNat (3 + 70 * i + 20 * j + 5 * c + t)

/-- a heap containing a 2x3 image with 2 byte channels at handle 1 and a 2x3 image with 2 byte channels at
handle 3 -/
def demoImgs (ch : Nat) : Mem :=
  (Mem.empty.newImage 2 3 1 ch 1 (imgBytes 3 ch 1 demoPx)).newImage 2 3 1 ch 1 (imgBytes 3 ch 1 (fun _ _ _ _ => 9))

theorem empty_WF : Mem.empty.WF := by intro h _; exact ⟨rfl, rfl, rfl⟩

theorem demoImgs_WF (ch : Nat) : (demoImgs ch).WF := newImage_WF (newImage_WF empty_WF)

theorem demoImgs_src {ch : Nat} (h : 0 < ch) :
    IsImage8 (demoImgs ch) 1 2 3 ch (fun i j c => demoPx i j c 0) := by
  refine img_congr (img_frame (newImage_WF empty_WF)
    (newImage_isImage (m := Mem.empty) (px := demoPx) rfl (by decide) (by decide) h)
    (newImage_frame _)) ?_
  intro i j c t _ _ _ ht
  have : t = 0 := by omega
  subst this; rfl

theorem demoImgs_dst {ch : Nat} (h : 0 < ch) : IsImage8 (demoImgs ch) 3 2 3 ch (fun _ _ _ => 9) :=
  newImage_isImage (m := Mem.empty.newImage 2 3 1 ch 1 (imgBytes 3 ch 1 demoPx)) rfl (by decide) (by decide) h

theorem demoImgs_sep (ch : Nat) : SepPixels (demoImgs ch) 1 3 := by
  rintro h ⟨⟨a, h1, rfl⟩, ⟨b, h2, h3⟩⟩
  have h1' : some (newSHdr Mem.empty 2 3 1 ch 1) = some a := h1
  have h2' : some (newSHdr (Mem.empty.newImage 2 3 1 ch 1 (imgBytes 3 ch 1 demoPx)) 2 3 1 ch 1) = some b := h2
  cases h1'; cases h2'
  cases h3

/-! ### C10 -/

/-- **C10**, one channel: a new image has the requested header, all elements are zero whatever the heap
contained before, it lives in fresh storage and nothing else changes.
Missing from the full property: several channels, see `C10_refuted`. -/
theorem C10_create_image_partial {m : Mem} (hm : m.WF) {R C E : Nat} {dt : Int} (hR : 0 < R) (hC : 0 < C)
    (hE : elemBytes dt = some E) (hN : R * C * E ≤ 2147483551) :
    ∃ q m', create_simple_mat R C dt 1 m = .ok (some q, m') ∧
      IsImage m' q R C dt 1 E (fun _ _ _ _ => 0) ∧ FreshImg m m' q ∧ Frame m m' ∧ m'.WF := by
  have h := create_sm_ok (m := m) (ch := 1) hR hC (by omega) hE (by rwa [Nat.mul_one])
  refine ⟨_, _, h, ?_, newImage_fresh m, newImage_frame m, newImage_WF hm⟩
  rw [newImage_congr m (g := imgBytes C 1 E (fun _ _ _ _ => 0))]
  · exact newImage_isImage hE hR hC (by omega)
  · intro i hi
    rw [Nat.mul_one] at hi
    rw [if_pos hi]; rfl

example : Mem.empty.WF ∧ 0 < 2 ∧ 0 < 3 ∧ elemBytes 4 = some 4 ∧ 2 * 3 * 4 ≤ 2147483551 :=
  ⟨empty_WF, by decide, by decide, rfl, by decide⟩

/-- What several channels really get: only the first `R*C*E` of the `R*C*ch*E` bytes are zero, the others
keep whatever the allocated memory contained. -/
theorem C10_multichannel {m : Mem} {R C ch E : Nat} {dt : Int} (hR : 0 < R) (hC : 0 < C) (hch : 0 < ch)
    (hE : elemBytes dt = some E) (hN : R * C * ch * E ≤ 2147483551) :
    ∃ q m' hdr, create_simple_mat R C dt ch m = .ok (some q, m') ∧ m'.sm q = some hdr ∧
      Bytes m' hdr.data (R * C * ch * E) (fun p => if p < R * C * E then 0 else m.junk m.next p) :=
  ⟨_, _, _, create_sm_ok hR hC hch hE hN, newImage_sm m R C dt ch E _, bytes_iff.2 (newImage_data m R C dt ch E _)⟩

/-- a heap whose free memory is full of ones -/
def dirtyMem : Mem := { Mem.empty with junk := fun _ _ => 1 }

/-- **C10 refuted** for several channels -/
theorem C10_refuted : ¬ (∀ (m : Mem) (R C ch E : Nat) (dt : Int), m.WF → 0 < R → 0 < C → 0 < ch →
    elemBytes dt = some E → R * C * ch * E ≤ 2147483551 →
    ∃ q m', create_simple_mat R C dt ch m = .ok (some q, m') ∧
      IsImage m' q R C dt ch E (fun _ _ _ _ => 0)) := by
  intro h
  obtain ⟨q, m', h1, h2⟩ := h dirtyMem 1 1 3 1 1 (by intro h _; exact ⟨rfl, rfl, rfl⟩) (by decide)
    (by decide) (by decide) rfl (by decide)
  have h3 := create_sm_ok (m := dirtyMem) (R := 1) (C := 1) (ch := 3) (E := 1) (dt := 1) (by decide)
    (by decide) (by decide) rfl (by decide)
  have h4 : (some q, m') = _ := Except.ok.inj (h1.symm.trans h3)
  obtain ⟨hq, hm'⟩ := Prod.mk.injEq _ _ _ _ ▸ h4
  cases hq
  subst hm'
  obtain ⟨hdr, k1, -, -, -, -, -, k2⟩ := img_open h2
  rw [newImage_sm] at k1
  cases k1
  have := (Holds.unique (newImage_data dirtyMem 1 1 1 3 1 _) k2).2 1 (by decide)
  revert this
  decide

/-! ### C11 -/

/-- **C11**, part: creating an image and deleting it gives back the heap as it was, for every 16-byte
aligned header address that is not 48 modulo 64.
Missing: addresses 48 modulo 64 (`C11_bad_address`) and external pixels (`C11_external_leak`). -/
theorem C11_create_delete_partial {m : Mem} (hm : m.WF) {R C ch E : Nat} {dt : Int} (hR : 0 < R) (hC : 0 < C)
    (hch : 0 < ch) (hE : elemBytes dt = some E) (hN : R * C * ch * E ≤ 2147483551)
    (ha : m.addr (m.next + 1) % 16 = 0) (hb : m.addr (m.next + 1) % 64 ≠ 48) :
    ∃ m', (do let q ← create_simple_mat R C dt ch; delete_simple_mat q) m = .ok ((), m') ∧
      m'.blk = m.blk ∧ m'.hm = m.hm ∧ m'.sm = m.sm := by
  rw [bind_ok (create_sm_ok hR hC hch hE hN)]
  rw [delete_sm_run (newImage_sm m R C dt ch E _) rfl ha hb]
  refine ⟨_, rfl, ?_, rfl, ?_⟩
  · funext q
    by_cases hq : q = m.next
    · subst hq
      have := (hm m.next (Nat.le_refl _)).1
      simp [newSHdr, this]
    · have := newImage_blk_old m (R := R) (C := C) (dt := dt) (ch := ch) (E := E)
        (f := fun p => if p < R * C * E then 0 else m.junk m.next p) hq
      simp [newSHdr, hq, this]
  · funext q
    by_cases hq : q = m.next + 1
    · subst hq
      have := (hm (m.next + 1) (by omega)).2.2
      simp [this]
    · have := newImage_sm_old m (R := R) (C := C) (dt := dt) (ch := ch) (E := E)
        (f := fun p => if p < R * C * E then 0 else m.junk m.next p) hq
      simp [hq, this]

example : Mem.empty.WF ∧ 0 < 2 ∧ 0 < 3 ∧ 0 < 3 ∧ elemBytes 12 = some 2 ∧ 2 * 3 * 3 * 2 ≤ 2147483551 ∧
    Mem.empty.addr (Mem.empty.next + 1) % 16 = 0 ∧ Mem.empty.addr (Mem.empty.next + 1) % 64 ≠ 48 :=
  ⟨empty_WF, by decide, by decide, by decide, rfl, by decide, rfl, by decide⟩

/-- **C11 refuted**: if the allocator returns an address that is 48 modulo 64 (which is 16-byte aligned),
deleting a freshly created image passes an interior pointer to `free`. -/
theorem C11_bad_address {m : Mem} {R C ch E : Nat} {dt : Int} (hR : 0 < R) (hC : 0 < C)
    (hch : 0 < ch) (hE : elemBytes dt = some E) (hN : R * C * ch * E ≤ 2147483551)
    (hb : m.addr (m.next + 1) % 64 = 48) :
    (do let q ← create_simple_mat R C dt ch; delete_simple_mat q : M Unit) m = .error (.ub .badFree) := by
  rw [bind_ok (create_sm_ok hR hC hch hE hN)]
  exact delete_sm_bad (newImage_sm m R C dt ch E _) rfl hb

example : ∃ m : Mem, m.WF ∧ m.addr (m.next + 1) % 64 = 48 ∧ m.addr (m.next + 1) % 16 = 0 :=
  ⟨{ Mem.empty with addr := fun _ => 1072 }, fun _ _ => ⟨rfl, rfl, rfl⟩, rfl, rfl⟩

/-- **C11**, external pixels at an address more than 64 above the header: both are freed, and nothing
else. -/
theorem C11_external_partial {m : Mem} {p : Nat} {hdr : SimpleMat} {l : List UInt8} (h : m.sm p = some hdr)
    (hi : hdr.inl = false) (hl : m.blk hdr.data = some l) (ha : m.addr p + 64 < m.addr hdr.data) :
    ∃ m', delete_simple_mat (some p) m = .ok ((), m') ∧ m'.sm p = none ∧ m'.blk hdr.data = none ∧
      m'.hm = m.hm ∧ (∀ q, q ≠ p → m'.sm q = m.sm q) ∧ (∀ q, q ≠ hdr.data → m'.blk q = m.blk q) := by
  have e : delete_simple_mat (some p) m = (do free hdr.data; freeImage p hdr : M Unit) m := by
    simp only [delete_simple_mat, h, pixelAddr, hi]
    show (if _ then _ else _) = _
    rw [if_neg (by simp; omega)]; rfl
  rw [e]
  have f : free hdr.data m = .ok ((), m.setBlk hdr.data none) := by simp [free, hl]
  rw [bind_ok f]
  refine ⟨_, rfl, by simp, by simp [Mem.setBlk], rfl, ?_, ?_⟩
  · intro q hq; simp [hq, Mem.setBlk]
  · intro q hq; simp [hq, Mem.setBlk]

/-- **C11 refuted** for external pixels: if the caller's pixel block lies at an address not more than 64
above the header, for example anywhere below it, deleting the image leaks the pixels. -/
theorem C11_external_leak {m : Mem} {p : Nat} {hdr : SimpleMat} (h : m.sm p = some hdr)
    (hi : hdr.inl = false) (ha : m.addr hdr.data ≤ m.addr p + 64) :
    ∃ m', delete_simple_mat (some p) m = .ok ((), m') ∧ m'.sm p = none ∧ m'.blk = m.blk := by
  have e : delete_simple_mat (some p) m = freeImage p hdr m := by
    simp only [delete_simple_mat, h, pixelAddr, hi]
    show (if _ then _ else _) = _
    rw [if_pos (by simp; omega)]
  rw [e]
  refine ⟨_, rfl, by simp, ?_⟩
  funext q; simp [hi]

/-- **C11**, images over the caller's pixels: creating one and deleting it gives back all headers; the caller's block `d` is released too exactly when it lies more than
64 above the address of the new header, and is kept otherwise. -/
theorem C11_create_delete_external {m : Mem} (hm : m.WF) {R C ch d : Nat} {dt : Int} {l : List UInt8} (hR : 0 < R) (hC : 0 < C) (hl : m.blk d = some l) :
    ∃ m', (do let q ← create_simple_mat_with_data R C dt ch (some d); delete_simple_mat q) m = .ok ((), m') ∧
      m'.hm = m.hm ∧ m'.sm = m.sm ∧ (∀ q, q ≠ d → m'.blk q = m.blk q) ∧
      m'.blk d = if m.addr m.next + 64 < m.addr d then none else some l := by
  have run : create_simple_mat_with_data R C dt ch (some d) m = .ok (some m.next,
      { m with sm := fun q => if q = m.next then some ⟨R, C, dt, ch, get_elemsize dt, d, false⟩ else m.sm q, next := m.next + 1 }) := by
    unfold create_simple_mat_with_data
    rw [cassert_bind (by simp; omega)]
    rfl
  rw [bind_ok run]
  have h0 : m.sm m.next = none := (hm m.next (Nat.le_refl _)).2.2
  have back : ∀ m' : Mem, m'.sm m.next = none → (∀ q, q ≠ m.next → m'.sm q = m.sm q) → m'.sm = m.sm := by
    intro m' h1 h2
    funext q
    by_cases hq : q = m.next
    · subst hq; rw [h1, h0]
    · exact h2 q hq
  by_cases ha : m.addr m.next + 64 < m.addr d
  · obtain ⟨m', r1, r2, r3, r4, r5, r6⟩ := C11_external_partial (p := m.next) (hdr := ⟨R, C, dt, ch, get_elemsize dt, d, false⟩) (l := l)
      (m := { m with sm := fun q => if q = m.next then some ⟨R, C, dt, ch, get_elemsize dt, d, false⟩ else m.sm q, next := m.next + 1 })
      (by simp) rfl hl ha
    refine ⟨m', r1, r4, back m' r2 fun q hq => (r5 q hq).trans (by simp [hq]), r6, ?_⟩
    rw [if_pos ha]; exact r3
  · have e : delete_simple_mat (some m.next)
        { m with sm := fun q => if q = m.next then some ⟨R, C, dt, ch, get_elemsize dt, d, false⟩ else m.sm q, next := m.next + 1 } =
      freeImage m.next ⟨R, C, dt, ch, get_elemsize dt, d, false⟩
        { m with sm := fun q => if q = m.next then some ⟨R, C, dt, ch, get_elemsize dt, d, false⟩ else m.sm q, next := m.next + 1 } := by
      simp only [delete_simple_mat, pixelAddr, if_true]
      rw [if_pos (by simp; omega)]
    rw [e]
    refine ⟨_, rfl, rfl, back _ (by simp) (fun q hq => by simp [hq]), fun q _ => by simp, ?_⟩
    rw [if_neg ha]
    simp [hl]

/-- a heap with a block of six bytes that meets the hypotheses, at an address below all headers -/
example : ∃ m : Mem, m.WF ∧ m.blk 0 = some [1, 2, 3, 4, 5, 6] ∧ ¬ m.addr m.next + 64 < m.addr 0 :=
  ⟨Mem.empty.grow 6 (fun i => UInt8.ofNat (i + 1)), grow_WF empty_WF _ _, rfl, by decide⟩

/-- both situations of external pixels arise from `create_simple_mat_with_data` on a caller's block -/
example (a b : Nat) : ∃ m m' p hdr l,
    create_simple_mat_with_data 2 3 1 1 (some 0) m = .ok (some p, m') ∧ m'.sm p = some hdr ∧ hdr.inl = false ∧
    m'.blk hdr.data = some l ∧ m'.addr p = a ∧ m'.addr hdr.data = b :=
  ⟨{ Mem.empty with
      next := 1
      blk := fun h => if h = 0 then some [1, 2, 3, 4, 5, 6] else none
      addr := fun h => if h = 0 then b else a }, _, _, _, _, rfl, rfl, rfl, rfl, rfl, rfl⟩

/-! ### C18 -/

/-- **C18**: reshaping yields an image of the requested shape and type whose bytes are the cube's bytes in
the same order; the cube is unchanged and the image is freshly allocated. -/
theorem C18_reshape {m : Mem} {p S L B E R C : Nat} {dt : Int} {lay : Layout}
    {v : Nat → Nat → Nat → Nat → UInt8} {w : Nat → UInt8} (hm : m.WF)
    (hc : IsCube m p lay S L B dt E v w) (hN : S * L * B * E ≤ 2147483551)
    (hR : 0 < R) (hC : 0 < C) (hRC : R * C = S * L * B) :
    ∃ q m' hc hi bytes px, reshape_hypermat_2_simplemat (some p) R C m = .ok (some q, m') ∧
      m.hm p = some hc ∧ m.blk hc.data = some bytes ∧ m'.sm q = some hi ∧ m'.blk hi.data = some bytes ∧
      IsImage m' q R C dt 1 E px ∧
      (∀ i j k i' j', i < L → j < S → k < B → i' < R → j' < C → i' * C + j' = lay.pos S L B i j k →
        ∀ t, t < E → px i' j' 0 t = v i j k t) ∧
      FreshImg m m' q ∧ Frame m m' := by
  have hrun := reshape_run hm hc hN hR hC hRC
  obtain ⟨hE, hS, hL, hB, hdr, wb, f, h1, h2, h3, h4, h5, h6, h7, h8, h9, h10, h11⟩ := hc
  rw [bytes_iff] at h9
  have h9' : Holds m hdr.data (S * L * B * E) (cubeBytes lay S L B E v) := by
    apply h9.congr
    intro q hq
    obtain ⟨i, j, k, hi, hj, hk, hq1, hq2⟩ := byte_cover lay hq
    obtain ⟨t, rfl⟩ := Nat.exists_eq_add_of_le hq1
    rw [h11 i j k t hi hj hk (by omega), cubeBytes_at lay hi hj hk (by omega)]
  have hsz : R * C * 1 * E = S * L * B * E := by rw [Nat.mul_one, hRC]
  have hd := newImage_data m R C dt 1 E (cubeBytes lay S L B E v)
  refine ⟨_, _, hdr, newSHdr m R C dt 1 E, _,
    (fun i j _ t => cubeBytes lay S L B E v ((i * C + j) * E + t)), hrun, h1, h9',
    newImage_sm m R C dt 1 E _, ?_, ?_, ?_, newImage_fresh m, newImage_frame m⟩
  · have : (m.newImage R C dt 1 E (cubeBytes lay S L B E v)).blk (newSHdr m R C dt 1 E).data = _ := hd
    rw [this, hsz]
  · refine ⟨hE, hR, hC, by omega, _, _, newImage_sm m R C dt 1 E _, rfl, rfl, rfl, rfl, rfl,
      bytes_iff.2 hd, ?_⟩
    intro i j c t hi hj hc ht
    have : c = 0 := by omega
    subst this
    simp
  · intro i j k i' j' hi hj hk hi' hj' e t ht
    show cubeBytes lay S L B E v ((i' * C + j') * E + t) = _
    rw [e, cubeBytes_at lay hi hj hk ht]

/-- **C18**, refusal: a request that changes the number of elements is refused. -/
theorem C18_reshape_refused {m : Mem} {p S L B E R C : Nat} {dt : Int} {lay : Layout}
    {v : Nat → Nat → Nat → Nat → UInt8} {w : Nat → UInt8}
    (hc : IsCube m p lay S L B dt E v w) (hN : S * L * B * E ≤ 2147483647) (hC : 0 < C)
    (hD : R * C ≤ 2147483647) (hRC : R * C ≠ S * L * B) :
    reshape_hypermat_2_simplemat (some p) R C m = .error .exit := by
  obtain ⟨hE, hS, hL, hB, hdr, wb, f, h1, h2, h3, h4, h5, h6, h7, h8, h9, h10, h11⟩ := hc
  obtain ⟨e1, e2, e3⟩ := get_elemsize_eq hE
  unfold reshape_hypermat_2_simplemat
  rw [bind_ok (show derefH (some p) m = _ from getH_ok h1), h2, h3, h4]
  have hS1 : S * L * B ≤ S * L * B * E := Nat.le_mul_of_pos_right _ e2
  rw [ev_bind (size3_eval hL hB (by omega))]
  have x0 : (CI.lit (R:Int) * CI.lit (C:Int) : CI) = CI.lit ((R * C : Nat) : Int) := by
    have h : R * C < 2147483648 := by omega
    ci_down
  rw [ev_bind x0]
  have : decide (((S * L * B : Nat) : Int) = ((R * C : Nat) : Int)) = false := by
    simp only [decide_eq_false_iff_not]; omega
  rw [this]
  rfl

example : (demoMem .bip).WF ∧ IsCube (demoMem .bip) 2 .bip 2 3 4 2 2 demoV demoW ∧ 4 * 6 = 2 * 3 * 4 ∧
    5 * 5 ≠ 2 * 3 * 4 := ⟨demo_WF _, demo_isCube _, by decide, by decide⟩

/-! ### C19 -/

/-- **C19**, one channel: every element moves from (i, j) to (j, i), for every element type; only the
destination pixels change.  Missing: several channels, see `C19_refuted`. -/
theorem C19_transpose_partial {m : Mem} {rp sp R C E : Nat} {dt : Int} {px px' : Nat → Nat → Nat → Nat → UInt8}
    (hr : IsImage m rp C R dt 1 E px') (hs : IsImage m sp R C dt 1 E px)
    (hsep : SepPixels m sp rp) (hN : R * C * E ≤ 2147483647) :
    ∃ m', simple_mat_transport (some rp) (some sp) m = .ok ((), m') ∧
      IsImage m' rp C R dt 1 E (fun i j c t => px j i c t) ∧ IsImage m' sp R C dt 1 E px ∧
      OnlyPixels m m' rp := by
  obtain ⟨m', h1, h2, h3⟩ := transport_run hr hs hsep hN
  exact ⟨m', h1, h2, img_only hs hsep h3, h3⟩

/-- **C19**, involution: transposing into `rp` and then into `tp` (which may be the source image) makes `tp`
equal to the original. -/
theorem C19_involution_partial {m : Mem} {rp sp tp R C E : Nat} {dt : Int}
    {px px' px'' : Nat → Nat → Nat → Nat → UInt8}
    (hr : IsImage m rp C R dt 1 E px') (hs : IsImage m sp R C dt 1 E px) (ht : IsImage m tp R C dt 1 E px'')
    (hsep : SepPixels m sp rp) (hsep' : SepPixels m rp tp) (hN : R * C * E ≤ 2147483647) :
    ∃ m', (do simple_mat_transport (some rp) (some sp); simple_mat_transport (some tp) (some rp) : M Unit) m
        = .ok ((), m') ∧ IsImage m' tp R C dt 1 E px := by
  obtain ⟨m1, h1, h2, h3⟩ := transport_run hr hs hsep hN
  have hsep2 : SepPixels m tp rp := fun h ⟨a, b⟩ => hsep' h ⟨b, a⟩
  obtain ⟨m2, k1, k2, k3⟩ := transport_run (img_only ht hsep2 h3) h2 (sep_only hsep' h3)
    (by rwa [Nat.mul_comm C R])
  exact ⟨m2, by rw [bind_ok h1, k1], k2⟩

/-- demonstration heap for the transpose: a 2x3 float-sized image at 1 and a 3x2 one at 3 -/
def demoTr : Mem :=
  (Mem.empty.newImage 2 3 4 1 4 (imgBytes 3 1 4 demoPx)).newImage 3 2 4 1 4 (imgBytes 2 1 4 (fun _ _ _ _ => 9))

theorem demoTr_sep : SepPixels demoTr 1 3 := by
  rintro h ⟨⟨a, h1, rfl⟩, ⟨b, h2, h3⟩⟩
  have h1' : some (newSHdr Mem.empty 2 3 4 1 4) = some a := h1
  have h2' : some (newSHdr (Mem.empty.newImage 2 3 4 1 4 (imgBytes 3 1 4 demoPx)) 3 2 4 1 4) = some b := h2
  cases h1'; cases h2'
  cases h3

example : IsImage demoTr 3 3 2 4 1 4 (fun _ _ _ _ => 9) ∧ IsImage demoTr 1 2 3 4 1 4 demoPx ∧
    SepPixels demoTr 1 3 ∧ 2 * 3 * 4 ≤ 2147483647 :=
  ⟨newImage_isImage (m := Mem.empty.newImage 2 3 4 1 4 (imgBytes 3 1 4 demoPx)) rfl (by decide) (by decide) (by decide),
   img_frame (newImage_WF empty_WF)
    (newImage_isImage (m := Mem.empty) (px := demoPx) rfl (by decide) (by decide) (by decide)) (newImage_frame _),
   demoTr_sep, by decide⟩

/-- contents of block `h` after running `x`, if it returns normally -/
def blockAfter {α : Type} (x : M α) (m : Mem) (h : Nat) : Option (List UInt8) :=
  match x m with
  | .ok (_, m') => m'.blk h
  | .error _ => none

/-- the abnormal outcome of `x`, if any -/
def errOf {α : Type} (x : M α) (m : Mem) : Option Err :=
  match x m with
  | .ok _ => none
  | .error e => some e

theorem errOf_some {α : Type} {x : M α} {m : Mem} {e : Err} (h : errOf x m = some e) : x m = .error e := by
  unfold errOf at h
  cases hx : x m with
  | ok v => rw [hx] at h; cases h
  | error e' => rw [hx] at h; cases h; rfl

theorem blockAfter_some {α : Type} {x : M α} {m : Mem} {h : Nat} {l : List UInt8}
    (hb : blockAfter x m h = some l) : ∃ a m', x m = .ok (a, m') ∧ m'.blk h = some l := by
  unfold blockAfter at hb
  cases hx : x m with
  | ok v => rw [hx] at hb; exact ⟨v.1, v.2, rfl, hb⟩
  | error e' => rw [hx] at hb; cases hb

/-- pixel bytes of the image a computation returns -/
def imgAfter (x : M (Option Nat)) (m : Mem) : Option (List UInt8) :=
  match x m with
  | .ok (some q, m') => match m'.sm q with
    | some h => m'.blk h.data
    | none => none
  | _ => none

theorem imgAfter_at {x : M (Option Nat)} {m m' : Mem} {q R C ch E : Nat} {dt : Int}
    {px : Nat → Nat → Nat → Nat → UInt8} {l : List UInt8} (hx : x m = .ok (some q, m'))
    (h : IsImage m' q R C dt ch E px) (hl : imgAfter x m = some l) {i j c t : Nat} (hi : i < R) (hj : j < C)
    (hc : c < ch) (ht : t < E) : l[((i * C + j) * ch + c) * E + t]? = some (px i j c t) := by
  obtain ⟨hdr, h1, -, -, -, -, -, h7⟩ := img_open h
  unfold imgAfter at hl
  rw [hx] at hl
  simp only [h1] at hl
  rw [h7] at hl
  rw [← Option.some.inj hl, tab_get? _ (img_lt hi hj hc ht), imgBytes_at hj hc ht]

/-- demonstration heap: a 2x2 image with two byte channels at 1 and another at 3 -/
def demoTr2 : Mem :=
  (Mem.empty.newImage 2 2 1 2 1 (imgBytes 2 2 1 demoPx)).newImage 2 2 1 2 1 (imgBytes 2 2 1 (fun _ _ _ _ => 9))

/-- **C19 refuted** for several channels: the transpose of a 2x2 image with two channels is wrong. -/
theorem C19_refuted : ¬ (∀ (m : Mem) (rp sp R C ch E : Nat) (dt : Int) (px px' : Nat → Nat → Nat → Nat → UInt8),
    IsImage m rp C R dt ch E px' → IsImage m sp R C dt ch E px → SepPixels m sp rp →
    R * C * ch * E ≤ 2147483647 →
    ∃ m', simple_mat_transport (some rp) (some sp) m = .ok ((), m') ∧
      IsImage m' rp C R dt ch E (fun i j c t => px j i c t)) := by
  intro h
  have hsep : SepPixels demoTr2 1 3 := by
    rintro h ⟨⟨a, h1, rfl⟩, ⟨b, h2, h3⟩⟩
    have h1' : some (newSHdr Mem.empty 2 2 1 2 1) = some a := h1
    have h2' : some (newSHdr (Mem.empty.newImage 2 2 1 2 1 (imgBytes 2 2 1 demoPx)) 2 2 1 2 1) = some b := h2
    cases h1'; cases h2'
    cases h3
  obtain ⟨m', h1, h2⟩ := h demoTr2 3 1 2 2 2 1 1 demoPx (fun _ _ _ _ => 9)
    (newImage_isImage (m := Mem.empty.newImage 2 2 1 2 1 (imgBytes 2 2 1 demoPx)) rfl (by decide) (by decide) (by decide))
    (img_frame (newImage_WF empty_WF)
      (newImage_isImage (m := Mem.empty) (px := demoPx) rfl (by decide) (by decide) (by decide)) (newImage_frame _))
    hsep (by decide)
  obtain ⟨data, inl, k1, k2⟩ := img_lit h2
  have e1 : blockAfter (simple_mat_transport (some 3) (some 1)) demoTr2 2
      = some [3, 23, 8, 28, 9, 9, 9, 9] := by decide +kernel
  have e2 : (match simple_mat_transport (some 3) (some 1) demoTr2 with
      | .ok (_, m') => (m'.sm 3).map (·.data) | .error _ => none) = some 2 := by decide +kernel
  rw [blockAfter, h1] at e1
  rw [h1] at e2
  simp only [k1, Option.map_some, Option.some.injEq] at e1 e2
  subst e2
  unfold Holds at k2
  rw [e1] at k2
  revert k2
  decide +kernel

/-! ### C20 -/

/-- the mirrored images -/
def flipped (code : Int) (R C : Nat) (px : Nat → Nat → Nat → UInt8) (i j c : Nat) : UInt8 :=
  if code = 0 then px (R - 1 - i) j c
  else if code = -1 then px (R - 1 - i) (C - 1 - j) c
  else px i (C - 1 - j) c

/-- **C20**, codes 1 and 0: destination pixel (i, cols-1-j) resp. (rows-1-i, j) receives source pixel (i, j) in
every channel; only the destination's pixels change. -/
theorem C20_flip_single {m : Mem} {sp dp R C ch : Nat} {px px' : Nat → Nat → Nat → UInt8} {code : Int}
    (hcode : code = 1 ∨ code = 0) (hs : IsImage8 m sp R C ch px) (hd : IsImage8 m dp R C ch px')
    (hsep : SepPixels m sp dp) (hN : R * C * ch ≤ 2147483647) :
    ∃ m', simple_mat_flip (some sp) (some dp) code m = .ok ((), m') ∧
      IsImage8 m' dp R C ch (flipped code R C px) ∧ IsImage8 m' sp R C ch px ∧ OnlyPixels m m' dp := by
  obtain ⟨sd, si, a1, -⟩ := img8_lit hs
  obtain ⟨dd, di, b1, -⟩ := img8_lit hd
  have pre : ∀ x : Int, simple_mat_flip (some sp) (some dp) x m =
      (if x = 1 then simple_mat_flip_horizontal (some sp) (some dp)
       else if x = 0 then simple_mat_flip_vertical (some sp) (some dp)
       else if x = -1 then (do
          let temp ← simple_mat_copy (some sp)
          simple_mat_flip_horizontal (some sp) temp
          simple_mat_flip_vertical temp (some dp)
          delete_simple_mat temp)
       else simple_mat_flip_horizontal (some sp) (some dp) : M Unit) m := by
    intro x
    unfold simple_mat_flip
    rw [nonNull_some, nonNull_some, bind_ok (getS_ok a1), bind_ok (getS_ok b1)]
    simp only [and_self, decide_true, cassert_bind_true]
  rcases hcode with rfl | rfl
  · obtain ⟨m', h1, h2, h3⟩ := flip_h_run hs hd hsep hN
    refine ⟨m', ?_, h2, img_only hs hsep h3, h3⟩
    rw [pre, if_pos rfl, h1]
  · obtain ⟨m', h1, h2, h3⟩ := flip_v_run hs hd hsep hN
    refine ⟨m', ?_, h2, img_only hs hsep h3, h3⟩
    rw [pre, if_neg (by decide), if_pos rfl, h1]

/-- **C20**, code -1, for allocator addresses other than 48 modulo 64 (the temporary image is deleted, see
C11); source and destination may even coincide.  Missing: the remaining addresses, `C20_flip_all_bad`. -/
theorem C20_flip_all_partial {m : Mem} {sp dp R C ch : Nat} {px px' : Nat → Nat → Nat → UInt8}
    (hm : m.WF) (hs : IsImage8 m sp R C ch px) (hd : IsImage8 m dp R C ch px')
    (hN : R * C * ch ≤ 2147483551)
    (ha : m.addr (m.next + 1) % 16 = 0) (hb : m.addr (m.next + 1) % 64 ≠ 48) :
    ∃ m', simple_mat_flip (some sp) (some dp) (-1) m = .ok ((), m') ∧
      IsImage8 m' dp R C ch (flipped (-1) R C px) ∧ OnlyPixels m m' dp := by
  obtain ⟨m', h1, h2, h3, -⟩ := flip_all_run hm hs hd hN ha hb
  exact ⟨m', h1, h2, h3⟩

/-- **C20 refuted** for code -1 when the temporary image is allocated at an address 48 modulo 64. -/
theorem C20_flip_all_bad {m : Mem} {sp dp R C ch : Nat} {px px' : Nat → Nat → Nat → UInt8}
    (hm : m.WF) (hs : IsImage8 m sp R C ch px) (hd : IsImage8 m dp R C ch px')
    (hN : R * C * ch ≤ 2147483551) (hb : m.addr (m.next + 1) % 64 = 48) :
    simple_mat_flip (some sp) (some dp) (-1) m = .error (.ub .badFree) :=
  flip_all_bad hm hs hd hN hb

theorem flipped_twice {code : Int} {R C : Nat} {px : Nat → Nat → Nat → UInt8} {i j c : Nat}
    (hi : i < R) (hj : j < C) : flipped code R C (flipped code R C px) i j c = px i j c := by
  have e1 : R - 1 - (R - 1 - i) = i := by omega
  have e2 : C - 1 - (C - 1 - j) = j := by omega
  unfold flipped
  split
  · rw [e1]
  · split
    · rw [e1, e2]
    · rw [e2]

/-- **C20**, involution for codes 1 and 0: flipping into `dp` and back into `tp` (which may be the source)
gives the original. -/
theorem C20_involution {m : Mem} {sp dp tp R C ch : Nat} {px px' px'' : Nat → Nat → Nat → UInt8} {code : Int}
    (hcode : code = 1 ∨ code = 0) (hs : IsImage8 m sp R C ch px) (hd : IsImage8 m dp R C ch px')
    (ht : IsImage8 m tp R C ch px'')
    (hsep : SepPixels m sp dp) (hsep' : SepPixels m dp tp) (hN : R * C * ch ≤ 2147483647) :
    ∃ m', (do simple_mat_flip (some sp) (some dp) code; simple_mat_flip (some dp) (some tp) code : M Unit) m
        = .ok ((), m') ∧ IsImage8 m' tp R C ch px := by
  obtain ⟨m1, h1, h2, -, h3⟩ := C20_flip_single hcode hs hd hsep hN
  have hsep2 : SepPixels m tp dp := fun h ⟨a, b⟩ => hsep' h ⟨b, a⟩
  obtain ⟨m2, k1, k2, -, k3⟩ := C20_flip_single hcode h2 (img_only ht hsep2 h3) (sep_only hsep' h3) hN
  exact ⟨m2, by rw [bind_ok h1, k1], img8_congr k2 (fun i j c hi hj _ => flipped_twice hi hj)⟩

/-- **C20**, involution for code -1, possibly in place (`sp = dp`) -/
theorem C20_involution_all_partial {m : Mem} {sp dp R C ch : Nat} {px px' : Nat → Nat → Nat → UInt8}
    (hm : m.WF) (hs : IsImage8 m sp R C ch px) (hd : IsImage8 m dp R C ch px')
    (hN : R * C * ch ≤ 2147483551) (ha : ∀ h, m.addr h % 16 = 0 ∧ m.addr h % 64 ≠ 48) :
    ∃ m', (do simple_mat_flip (some sp) (some dp) (-1); simple_mat_flip (some dp) (some dp) (-1) : M Unit) m
        = .ok ((), m') ∧ IsImage8 m' dp R C ch px ∧ OnlyPixels m m' dp := by
  obtain ⟨m1, h1, h2, h3, hadr⟩ := flip_all_run hm hs hd hN (ha _).1 (ha _).2
  obtain ⟨m2, k1, k2, k3, -⟩ := flip_all_run (only_WF hm hd h3) h2 h2 hN (by rw [hadr]; exact (ha _).1)
    (by rw [hadr]; exact (ha _).2)
  refine ⟨m2, by rw [bind_ok h1, k1], img8_congr k2 ?_, only_trans h3 k3⟩
  intro i j c hi hj _
  have e1 : R - 1 - (R - 1 - i) = i := by omega
  have e2 : C - 1 - (C - 1 - j) = j := by omega
  simp only [e1, e2]

/-- **C20**, composition: flipping with the two single codes in either order gives the same image as code
-1. -/
theorem C20_compose {m : Mem} {sp dp tp R C ch : Nat} {px px' px'' : Nat → Nat → Nat → UInt8} {c1 c2 : Int}
    (hcode : (c1 = 1 ∧ c2 = 0) ∨ (c1 = 0 ∧ c2 = 1))
    (hs : IsImage8 m sp R C ch px) (hd : IsImage8 m dp R C ch px') (ht : IsImage8 m tp R C ch px'')
    (hsep : SepPixels m sp dp) (hsep' : SepPixels m dp tp) (hN : R * C * ch ≤ 2147483647) :
    ∃ m', (do simple_mat_flip (some sp) (some dp) c1; simple_mat_flip (some dp) (some tp) c2 : M Unit) m
        = .ok ((), m') ∧ IsImage8 m' tp R C ch (flipped (-1) R C px) := by
  obtain ⟨m1, h1, h2, -, h3⟩ := C20_flip_single (code := c1) (by omega) hs hd hsep hN
  have hsep2 : SepPixels m tp dp := fun h ⟨a, b⟩ => hsep' h ⟨b, a⟩
  obtain ⟨m2, k1, k2, -, k3⟩ := C20_flip_single (code := c2) (by omega) h2 (img_only ht hsep2 h3)
    (sep_only hsep' h3) hN
  refine ⟨m2, by rw [bind_ok h1, k1], img8_congr k2 (fun i j c hi hj _ => ?_)⟩
  rcases hcode with ⟨rfl, rfl⟩ | ⟨rfl, rfl⟩ <;> simp [flipped]

example : (demoImgs 2).WF ∧ IsImage8 (demoImgs 2) 1 2 3 2 (fun i j c => demoPx i j c 0) ∧
    IsImage8 (demoImgs 2) 3 2 3 2 (fun _ _ _ => 9) ∧ SepPixels (demoImgs 2) 1 3 ∧
    SepPixels (demoImgs 2) 3 1 ∧ 2 * 3 * 2 ≤ 2147483551 ∧
    (∀ h, (demoImgs 2).addr h % 16 = 0 ∧ (demoImgs 2).addr h % 64 ≠ 48) :=
  ⟨demoImgs_WF 2, demoImgs_src (by decide), demoImgs_dst (by decide), demoImgs_sep 2,
   fun h ⟨a, b⟩ => demoImgs_sep 2 h ⟨b, a⟩, by decide, fun _ => ⟨rfl, show (0 : Nat) % 64 ≠ 48 by decide⟩⟩

/-! ### C23, C24 -/

/-- the documented threshold functions on `int` values: BINARY 0, BINARY_INV 1, TRUNC 2, TOZERO 3,
TOZERO_INV 4 -/
def threshSpec (mode thresh max v : Int) : Int :=
  if mode = 0 then (if v > thresh then max else 0)
  else if mode = 1 then (if v > thresh then 0 else max)
  else if mode = 2 then min v thresh
  else if mode = 3 then (if v > thresh then v else 0)
  else (if v > thresh then 0 else v)

theorem threshold_modes {m : Mem} {sp dp R C : Nat} {px px' : Nat → Nat → Nat → UInt8} {mode : Int}
    (thresh max : Int) (hmode : 0 ≤ mode ∧ mode ≤ 4)
    (hs : IsImage8 m sp R C 1 px) (hd : IsImage8 m dp R C 1 px') (hN : R * C ≤ 2147483647) :
    ∃ m', hypercv_threshold (some sp) (some dp) thresh max mode m = .ok ((), m') ∧
      IsImage8 m' dp R C 1 (fun i j c => uchar (threshSpec mode thresh max (ival (px i j c)))) ∧
      OnlyPixels m m' dp := by
  have pre : decide (mode = 0 ∨ mode = 1 ∨ mode = 2 ∨ mode = 3 ∨ mode = 4 ∨ mode = 7 ∨ mode = 8 ∨ mode = 16)
      = true := by simp only [decide_eq_true_eq]; omega
  unfold hypercv_threshold
  rw [nonNull_some, nonNull_some, pre, cassert_bind_true]
  have h5 : mode = 0 ∨ mode = 1 ∨ mode = 2 ∨ mode = 3 ∨ mode = 4 := by omega
  rcases h5 with rfl | rfl | rfl | rfl | rfl
  · obtain ⟨m', h1, h2, h3⟩ := threshold_run (fun v => if v > thresh then max else 0) hs hd hN
    exact ⟨m', h1, h2, h3⟩
  · obtain ⟨m', h1, h2, h3⟩ := threshold_run (fun v => if v ≤ thresh then max else 0) hs hd hN
    refine ⟨m', h1, img8_congr h2 (fun i j c _ _ _ => congrArg uchar ?_), h3⟩
    simp only [threshSpec]
    split <;> split <;> simp_all
  · obtain ⟨m', h1, h2, h3⟩ := threshold_run (fun v => if v > thresh then thresh else v) hs hd hN
    refine ⟨m', h1, img8_congr h2 (fun i j c _ _ _ => congrArg uchar ?_), h3⟩
    simp only [threshSpec]
    simp only [Int.reduceEq, if_false, if_true]
    omega
  · obtain ⟨m', h1, h2, h3⟩ := threshold_run (fun v => if v > thresh then v else 0) hs hd hN
    exact ⟨m', h1, h2, h3⟩
  · obtain ⟨m', h1, h2, h3⟩ := threshold_run (fun v => if v ≤ thresh then v else 0) hs hd hN
    refine ⟨m', h1, img8_congr h2 (fun i j c _ _ _ => congrArg uchar ?_), h3⟩
    simp only [threshSpec]
    simp only [Int.reduceEq, if_false]
    split <;> split <;> omega

/-- **C23**: each of the five fixed modes stores the documented function of the source pixel (its low 8 bits;
the exact value when it is in the byte range, which holds for 0 ≤ max ≤ 255 and 0 ≤ thresh); nothing but
the destination's pixels changes.  Source and destination may coincide. -/
theorem C23_threshold {m : Mem} {sp dp R C : Nat} {px px' : Nat → Nat → Nat → UInt8} {mode : Int}
    (thresh max : Int) (hmode : 0 ≤ mode ∧ mode ≤ 4)
    (hs : IsImage8 m sp R C 1 px) (hd : IsImage8 m dp R C 1 px') (hN : R * C ≤ 2147483647) :
    ∃ m' out, hypercv_threshold (some sp) (some dp) thresh max mode m = .ok ((), m') ∧
      IsImage8 m' dp R C 1 out ∧
      (∀ i j, i < R → j < C →
        ((out i j 0).toNat : Int) = threshSpec mode thresh max (px i j 0).toNat % 256) ∧
      (0 ≤ max → max ≤ 255 → 0 ≤ thresh → ∀ i j, i < R → j < C →
        ((out i j 0).toNat : Int) = threshSpec mode thresh max (px i j 0).toNat) ∧
      OnlyPixels m m' dp := by
  obtain ⟨m', h1, h2, h3⟩ := threshold_modes thresh max hmode hs hd hN
  have key : ∀ i j : Nat, (((uchar (threshSpec mode thresh max (ival (px i j 0)))).toNat : Nat) : Int)
      = threshSpec mode thresh max (px i j 0).toNat % 256 := fun i j => uchar_toNat _
  refine ⟨m', _, h1, h2, fun i j _ _ => key i j, ?_, h3⟩
  intro a b c i j _ _
  have hk := key i j
  rw [hk]
  have hb : (px i j 0).toNat < 256 := (px i j 0).toNat_lt
  apply Int.emod_eq_of_lt
  · simp only [threshSpec]
    split
    · split <;> omega
    · split
      · split <;> omega
      · split
        · omega
        · split
          · split <;> omega
          · split <;> omega
  · simp only [threshSpec]
    split
    · split <;> omega
    · split
      · split <;> omega
      · split
        · omega
        · split
          · split <;> omega
          · split <;> omega

example : IsImage8 (demoImgs 1) 1 2 3 1 (fun i j c => demoPx i j c 0) ∧
    IsImage8 (demoImgs 1) 3 2 3 1 (fun _ _ _ => 9) ∧ 2 * 3 ≤ 2147483647 :=
  ⟨demoImgs_src (by decide), demoImgs_dst (by decide), by decide⟩

section
variable {m : Mem} {sp dp ep R C : Nat} {px pd pe : Nat → Nat → Nat → UInt8}

/-- **C24**, complement: BINARY into `dp` and BINARY_INV into `ep` add up to the maximum everywhere. -/
theorem C24_binary_complement (thresh max : Int) (hmax : 0 ≤ max ∧ max ≤ 255)
    (hs : IsImage8 m sp R C 1 px) (hd : IsImage8 m dp R C 1 pd) (he : IsImage8 m ep R C 1 pe)
    (h1 : SepPixels m sp dp) (h2 : SepPixels m dp ep) (hN : R * C ≤ 2147483647) :
    ∃ m' a b, (do hypercv_threshold (some sp) (some dp) thresh max 0
                  hypercv_threshold (some sp) (some ep) thresh max 1 : M Unit) m = .ok ((), m') ∧
      IsImage8 m' dp R C 1 a ∧ IsImage8 m' ep R C 1 b ∧
      ∀ i j, i < R → j < C → ((a i j 0).toNat : Int) + (b i j 0).toNat = max := by
  obtain ⟨m1, a1, a2, a3⟩ := threshold_modes (mode := 0) thresh max (by omega) hs hd hN
  have h2' : SepPixels m ep dp := fun h ⟨a, b⟩ => h2 h ⟨b, a⟩
  obtain ⟨m2, b1, b2, b3⟩ := threshold_modes (mode := 1) thresh max (by omega)
    (img_only hs h1 a3) (img_only he h2' a3) hN
  refine ⟨m2, _, _, by rw [bind_ok a1, b1], img_only a2 (sep_only h2 a3) b3, b2, ?_⟩
  intro i j _ _
  simp only [uchar_toNat, threshSpec]
  simp only [Int.reduceEq, if_false, if_true]
  by_cases h : ival (px i j 0) > thresh
  · rw [if_pos h, if_pos h]; omega
  · rw [if_neg h, if_neg h]; omega

/-- **C24**, decomposition: TOZERO and TOZERO_INV add up to the source everywhere. -/
theorem C24_tozero_sum (thresh max : Int)
    (hs : IsImage8 m sp R C 1 px) (hd : IsImage8 m dp R C 1 pd) (he : IsImage8 m ep R C 1 pe)
    (h1 : SepPixels m sp dp) (h2 : SepPixels m dp ep) (hN : R * C ≤ 2147483647) :
    ∃ m' a b, (do hypercv_threshold (some sp) (some dp) thresh max 3
                  hypercv_threshold (some sp) (some ep) thresh max 4 : M Unit) m = .ok ((), m') ∧
      IsImage8 m' dp R C 1 a ∧ IsImage8 m' ep R C 1 b ∧
      ∀ i j, i < R → j < C → (a i j 0).toNat + (b i j 0).toNat = (px i j 0).toNat := by
  obtain ⟨m1, a1, a2, a3⟩ := threshold_modes (mode := 3) thresh max (by omega) hs hd hN
  have h2' : SepPixels m ep dp := fun h ⟨a, b⟩ => h2 h ⟨b, a⟩
  obtain ⟨m2, b1, b2, b3⟩ := threshold_modes (mode := 4) thresh max (by omega)
    (img_only hs h1 a3) (img_only he h2' a3) hN
  refine ⟨m2, _, _, by rw [bind_ok a1, b1], img_only a2 (sep_only h2 a3) b3, b2, ?_⟩
  intro i j _ _
  have hb : (px i j 0).toNat < 256 := (px i j 0).toNat_lt
  have key : ((uchar (threshSpec 3 thresh max (ival (px i j 0)))).toNat : Int)
      + (uchar (threshSpec 4 thresh max (ival (px i j 0)))).toNat = (px i j 0).toNat := by
    have hx : ((px i j 0).toNat : Int) = ival (px i j 0) := rfl
    rw [uchar_toNat, uchar_toNat, hx]
    have hx0 : 0 ≤ ival (px i j 0) ∧ ival (px i j 0) < 256 := by rw [← hx]; omega
    generalize ival (px i j 0) = x at hx0
    simp only [threshSpec, Int.reduceEq, if_false, if_true]
    by_cases h : x > thresh
    · rw [if_pos h, if_pos h]; omega
    · rw [if_neg h, if_neg h]; omega
  exact_mod_cast key

/-- **C24**, idempotence: thresholding the result of TRUNC (2) or TOZERO (3) again in place changes
nothing. -/
theorem C24_idempotent (thresh max : Int) {mode : Int} (hmode : mode = 2 ∨ mode = 3)
    (hs : IsImage8 m sp R C 1 px) (hd : IsImage8 m dp R C 1 pd) (hN : R * C ≤ 2147483647) :
    ∃ m1 m2 a, hypercv_threshold (some sp) (some dp) thresh max mode m = .ok ((), m1) ∧
      IsImage8 m1 dp R C 1 a ∧
      hypercv_threshold (some dp) (some dp) thresh max mode m1 = .ok ((), m2) ∧
      IsImage8 m2 dp R C 1 a := by
  obtain ⟨m1, a1, a2, a3⟩ := threshold_modes (mode := mode) thresh max (by omega) hs hd hN
  obtain ⟨m2, b1, b2, b3⟩ := threshold_modes (mode := mode) thresh max (by omega) a2 a2 hN
  refine ⟨m1, m2, _, a1, a2, b1, img8_congr b2 ?_⟩
  intro i j c _ _ _
  apply uchar_eq_of
  have hb : (px i j c).toNat < 256 := (px i j c).toNat_lt
  have hu := uchar_toNat (threshSpec mode thresh max (ival (px i j c)))
  have hx : ival (uchar (threshSpec mode thresh max (ival (px i j c))))
      = threshSpec mode thresh max (ival (px i j c)) % 256 := hu
  rw [hx]
  have hx0 : 0 ≤ ival (px i j c) ∧ ival (px i j c) < 256 := by unfold ival; omega
  clear hx hu
  generalize ival (px i j c) = x at hx0
  rcases hmode with rfl | rfl
  · simp only [threshSpec, Int.reduceEq, if_false, if_true]
    omega
  · simp only [threshSpec, Int.reduceEq, if_false, if_true]
    by_cases h : x > thresh
    · rw [if_pos h]
      have : x % 256 = x := by omega
      rw [this, if_pos h, this]
    · rw [if_neg h]; simp

/-- **C24**, monotonicity of TRUNC: if one source is pointwise at most another, so are the results. -/
theorem C24_trunc_monotone (thresh max : Int) {m' : Mem} {sp' dp' : Nat} {px' pd' : Nat → Nat → Nat → UInt8}
    (hs : IsImage8 m sp R C 1 px) (hd : IsImage8 m dp R C 1 pd)
    (hs' : IsImage8 m' sp' R C 1 px') (hd' : IsImage8 m' dp' R C 1 pd')
    (hle : ∀ i j, i < R → j < C → (px i j 0).toNat ≤ (px' i j 0).toNat) (hN : R * C ≤ 2147483647) :
    ∃ m1 m1' a a', hypercv_threshold (some sp) (some dp) thresh max 2 m = .ok ((), m1) ∧
      hypercv_threshold (some sp') (some dp') thresh max 2 m' = .ok ((), m1') ∧
      IsImage8 m1 dp R C 1 a ∧ IsImage8 m1' dp' R C 1 a' ∧
      ∀ i j, i < R → j < C → (a i j 0).toNat ≤ (a' i j 0).toNat := by
  obtain ⟨m1, a1, a2, a3⟩ := threshold_modes (mode := 2) thresh max (by omega) hs hd hN
  obtain ⟨m2, b1, b2, b3⟩ := threshold_modes (mode := 2) thresh max (by omega) hs' hd' hN
  refine ⟨m1, m2, _, _, a1, b1, a2, b2, ?_⟩
  intro i j hi hj
  have h := hle i j hi hj
  have hb : (px i j 0).toNat < 256 := (px i j 0).toNat_lt
  have hb' : (px' i j 0).toNat < 256 := (px' i j 0).toNat_lt
  have key : ((uchar (threshSpec 2 thresh max (ival (px i j 0)))).toNat : Int)
      ≤ (uchar (threshSpec 2 thresh max (ival (px' i j 0)))).toNat := by
    simp only [uchar_toNat, threshSpec]
    simp only [Int.reduceEq, if_false, if_true, ival]
    omega
  exact_mod_cast key

end

/-- three images for C24 -/
def demoThree : Mem := (demoImgs 1).newImage 2 3 1 1 1 (imgBytes 3 1 1 (fun _ _ _ _ => 7))

example : IsImage8 demoThree 1 2 3 1 (fun i j c => demoPx i j c 0) ∧
    IsImage8 demoThree 3 2 3 1 (fun _ _ _ => 9) ∧ IsImage8 demoThree 5 2 3 1 (fun _ _ _ => 7) ∧
    SepPixels demoThree 1 3 ∧ SepPixels demoThree 3 5 := by
  refine ⟨img_frame (demoImgs_WF 1) (demoImgs_src (by decide)) (newImage_frame _),
    img_frame (demoImgs_WF 1) (demoImgs_dst (by decide)) (newImage_frame _),
    newImage_isImage (m := demoImgs 1) rfl (by decide) (by decide) (by decide), ?_, ?_⟩
  · rintro h ⟨⟨a, h1, rfl⟩, ⟨b, h2, h3⟩⟩
    have h1' : some (newSHdr Mem.empty 2 3 1 1 1) = some a := h1
    have h2' : some (newSHdr (Mem.empty.newImage 2 3 1 1 1 (imgBytes 3 1 1 demoPx)) 2 3 1 1 1) = some b := h2
    cases h1'; cases h2'
    cases h3
  · rintro h ⟨⟨a, h1, rfl⟩, ⟨b, h2, h3⟩⟩
    have h1' : some (newSHdr (Mem.empty.newImage 2 3 1 1 1 (imgBytes 3 1 1 demoPx)) 2 3 1 1 1) = some a := h1
    have h2' : some (newSHdr (demoImgs 1) 2 3 1 1 1) = some b := h2
    cases h1'; cases h2'
    cases h3

end HyperCV
