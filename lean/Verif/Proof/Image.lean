import Verif.Proof.Interleave
import Verif.Model.SimpleMat
import Verif.Spec.Image

namespace HyperCV
open Spec

/-! ### Pixel positions -/

/-- bytes of an image with values `px` -/
def imgBytes (C ch E : Nat) (px : Nat → Nat → Nat → Nat → UInt8) (p : Nat) : UInt8 :=
  px (p / E / ch / C) (p / E / ch % C) (p / E % ch) (p % E)

theorem imgBytes_at {C ch E i j c t : Nat} {px : Nat → Nat → Nat → Nat → UInt8}
    (hj : j < C) (hc : c < ch) (ht : t < E) :
    imgBytes C ch E px (((i * C + j) * ch + c) * E + t) = px i j c t := by
  unfold imgBytes
  rw [mix_div ht, mix_mod ht, mix_div hc, mix_mod hc, mix_div hj, mix_mod hj]

theorem img_lt {R C ch E i j c t : Nat} (hi : i < R) (hj : j < C) (hc : c < ch) (ht : t < E) :
    ((i * C + j) * ch + c) * E + t < R * C * ch * E :=
  mix_lt (mix_lt (mix_lt hi hj) hc) ht

theorem img_cover {R C ch E p : Nat} (hp : p < R * C * ch * E) :
    ∃ i j c t, i < R ∧ j < C ∧ c < ch ∧ t < E ∧ p = ((i * C + j) * ch + c) * E + t := by
  have hE : 0 < E := by rcases Nat.eq_zero_or_pos E with h | h; (subst h; simp at hp); exact h
  have hch : 0 < ch := by rcases Nat.eq_zero_or_pos ch with h | h; (subst h; simp at hp); exact h
  have hC : 0 < C := by rcases Nat.eq_zero_or_pos C with h | h; (subst h; simp at hp); exact h
  refine ⟨p / E / ch / C, p / E / ch % C, p / E % ch, p % E, ?_, Nat.mod_lt _ hC, Nat.mod_lt _ hch,
    Nat.mod_lt _ hE, ?_⟩
  · rw [Nat.div_div_eq_div_mul, Nat.div_div_eq_div_mul]
    apply Nat.div_lt_of_lt_mul
    calc p < R * C * ch * E := hp
      _ = _ := by ring
  · rw [Nat.div_add_mod', Nat.div_add_mod', Nat.div_add_mod']

/-- position of a byte pixel -/
theorem img8_cover {R C ch p : Nat} (hp : p < R * C * ch) :
    ∃ i j c, i < R ∧ j < C ∧ c < ch ∧ p = (i * C + j) * ch + c := by
  obtain ⟨i, j, c, t, hi, hj, hc, ht, h⟩ := img_cover (R := R) (C := C) (ch := ch) (E := 1) (p := p) (by omega)
  exact ⟨i, j, c, hi, hj, hc, by omega⟩

theorem img8_lt {R C ch i j c : Nat} (hi : i < R) (hj : j < C) (hc : c < ch) :
    (i * C + j) * ch + c < R * C * ch := mix_lt (mix_lt hi hj) hc

theorem imgBytes_at8 {C ch i j c : Nat} {px : Nat → Nat → Nat → UInt8} (hj : j < C) (hc : c < ch) :
    imgBytes C ch 1 (fun i j c _ => px i j c) ((i * C + j) * ch + c) = px i j c := by
  have := imgBytes_at (C := C) (ch := ch) (E := 1) (i := i) (j := j) (c := c) (t := 0)
    (px := fun i j c _ => px i j c) hj hc (by omega)
  rw [← this]
  congr 1
  omega

/-! ### Index evaluation -/

theorem eval_img {R C ch i j c : Nat} (hi : i < R) (hj : j < C) (hc : c < ch)
    (hN : R * C * ch ≤ 2147483647) :
    (CI.lit (i:Int) * CI.lit (C:Int) * CI.lit (ch:Int) + CI.lit (j:Int) * CI.lit (ch:Int) + CI.lit (c:Int) : CI)
      = CI.lit (((i * C + j) * ch + c : Nat) : Int) := by
  have e : (i * C + j) * ch + c = i * C * ch + j * ch + c := by ring
  have hb := img8_lt hi hj hc
  rw [e] at hb ⊢
  have h : i * C * ch + j * ch + c < 2147483648 := by omega
  have h1 : 0 < C := by omega
  have h2 : 0 < ch := by omega
  ci_down

theorem eval_rev {C j : Nat} (hj : j < C) (hC : C ≤ 2147483647) :
    (CI.lit (C:Int) - CI.lit 1 - CI.lit (j:Int) : CI) = CI.lit ((C - 1 - j : Nat) : Int) := by
  rw [CI.sub_ok (by constructor <;> omega), CI.sub_ok (by constructor <;> omega)]
  congr 1
  omega

theorem size3_eval {R C ch : Nat} (hC : 0 < C) (hch : 0 < ch) (hN : R * C * ch ≤ 2147483647) :
    (CI.lit (R:Int) * CI.lit (C:Int) * CI.lit (ch:Int) : CI) = CI.lit ((R * C * ch : Nat) : Int) := by
  have h : R * C * ch < 2147483648 := by omega
  ci_down

/-! ### Opening and closing images -/

theorem img_open {m : Mem} {p R C ch E : Nat} {dt : Int} {px : Nat → Nat → Nat → Nat → UInt8}
    (h : IsImage m p R C dt ch E px) :
    ∃ hdr : SimpleMat, m.sm p = some hdr ∧ hdr.rows = R ∧ hdr.cols = C ∧ hdr.data_type = dt ∧
      hdr.channels = ch ∧ hdr.elem_size = E ∧ Holds m hdr.data (R * C * ch * E) (imgBytes C ch E px) := by
  obtain ⟨hdr, f, h1, h2, h3, h4, h5, h6, h7, h8⟩ := h.obj
  refine ⟨hdr, h1, h2, h3, h4, h5, h6, ?_⟩
  rw [bytes_iff] at h7
  apply h7.congr
  intro q hq
  obtain ⟨i, j, c, t, hi, hj, hc, ht, rfl⟩ := img_cover hq
  rw [h8 i j c t hi hj hc ht, imgBytes_at hj hc ht]

theorem img8_open {m : Mem} {p R C ch : Nat} {px : Nat → Nat → Nat → UInt8}
    (h : IsImage8 m p R C ch px) :
    ∃ hdr : SimpleMat, m.sm p = some hdr ∧ hdr.rows = R ∧ hdr.cols = C ∧ hdr.data_type = 1 ∧
      hdr.channels = ch ∧ Holds m hdr.data (R * C * ch) (imgBytes C ch 1 (fun i j c _ => px i j c)) := by
  obtain ⟨hdr, h1, h2, h3, h4, h5, _, h7⟩ := img_open h
  rw [Nat.mul_one] at h7
  exact ⟨hdr, h1, h2, h3, h4, h5, h7⟩

theorem img_lit {m : Mem} {p R C ch E : Nat} {dt : Int} {px : Nat → Nat → Nat → Nat → UInt8}
    (h : IsImage m p R C dt ch E px) :
    ∃ data inl, m.sm p = some ⟨R, C, dt, ch, E, data, inl⟩ ∧
      Holds m data (R * C * ch * E) (imgBytes C ch E px) := by
  obtain ⟨⟨r, c, d, k, e, data, inl⟩, h1, h2, h3, h4, h5, h6, h7⟩ := img_open h
  simp only at h2 h3 h4 h5 h6 h7
  subst h2 h3 h4 h5 h6
  exact ⟨data, inl, h1, h7⟩

theorem img8_lit {m : Mem} {p R C ch : Nat} {px : Nat → Nat → Nat → UInt8}
    (h : IsImage8 m p R C ch px) :
    ∃ data inl, m.sm p = some ⟨R, C, 1, ch, 1, data, inl⟩ ∧
      Holds m data (R * C * ch) (imgBytes C ch 1 (fun i j c _ => px i j c)) := by
  obtain ⟨data, inl, h1, h2⟩ := img_lit h
  rw [Nat.mul_one] at h2
  exact ⟨data, inl, h1, h2⟩

theorem img_mk {m : Mem} {p R C ch E : Nat} {dt : Int} {px : Nat → Nat → Nat → Nat → UInt8}
    {hdr : SimpleMat} (hE : elemBytes dt = some E) (hR : 0 < R) (hC : 0 < C) (hch : 0 < ch)
    (h1 : m.sm p = some hdr) (h2 : hdr.rows = R) (h3 : hdr.cols = C) (h4 : hdr.data_type = dt)
    (h5 : hdr.channels = ch) (h6 : hdr.elem_size = E)
    (h7 : Holds m hdr.data (R * C * ch * E) (imgBytes C ch E px)) : IsImage m p R C dt ch E px where
  size := hE
  posR := hR
  posC := hC
  posCh := hch
  obj := ⟨hdr, _, h1, h2, h3, h4, h5, h6, bytes_iff.2 h7, fun _ _ _ _ _ hj hc ht => imgBytes_at hj hc ht⟩

theorem img_congr {m : Mem} {p R C ch E : Nat} {dt : Int} {px px' : Nat → Nat → Nat → Nat → UInt8}
    (h : IsImage m p R C dt ch E px)
    (hp : ∀ i j c t, i < R → j < C → c < ch → t < E → px i j c t = px' i j c t) :
    IsImage m p R C dt ch E px' := by
  obtain ⟨h0, h1, h2, h3, hdr, f, g1, g2, g3, g4, g5, g6, g7, g8⟩ := h
  exact ⟨h0, h1, h2, h3, hdr, f, g1, g2, g3, g4, g5, g6, g7, fun i j c t hi hj hc ht => by
    rw [g8 i j c t hi hj hc ht, hp i j c t hi hj hc ht]⟩

theorem img8_congr {m : Mem} {p R C ch : Nat} {px px' : Nat → Nat → Nat → UInt8}
    (h : IsImage8 m p R C ch px) (hp : ∀ i j c, i < R → j < C → c < ch → px i j c = px' i j c) :
    IsImage8 m p R C ch px' :=
  img_congr h fun i j c _ hi hj hc _ => hp i j c hi hj hc

/-- the pixels of an image determine its contents -/
theorem img_unique {m : Mem} {p R C ch E : Nat} {dt : Int} {px px' : Nat → Nat → Nat → Nat → UInt8}
    (h : IsImage m p R C dt ch E px) (h' : IsImage m p R C dt ch E px') :
    ∀ i j c t, i < R → j < C → c < ch → t < E → px i j c t = px' i j c t := by
  obtain ⟨hdr, h1, _, _, _, _, _, h7⟩ := img_open h
  obtain ⟨hdr', h1', _, _, _, _, _, h7'⟩ := img_open h'
  rw [h1] at h1'
  cases h1'
  intro i j c t hi hj hc ht
  have := (h7.unique h7').2 _ (img_lt hi hj hc ht)
  rwa [imgBytes_at hj hc ht, imgBytes_at hj hc ht] at this

/-- an image is unaffected by changes elsewhere -/
theorem img_only {m m' : Mem} {p q R C ch E : Nat} {dt : Int} {px : Nat → Nat → Nat → Nat → UInt8}
    (h : IsImage m p R C dt ch E px) (hsep : SepPixels m p q) (ho : OnlyPixels m m' q) :
    IsImage m' p R C dt ch E px := by
  obtain ⟨h0, h1, h2, h3, hdr, f, g1, g2, g3, g4, g5, g6, g7, g8⟩ := h
  refine ⟨h0, h1, h2, h3, hdr, f, ?_, g2, g3, g4, g5, g6, ?_, g8⟩
  · rw [ho.2.1]; exact g1
  · rw [bytes_iff] at g7 ⊢
    unfold Holds
    rw [ho.2.2.2 hdr.data (fun hc => hsep hdr.data ⟨⟨hdr, g1, rfl⟩, hc⟩)]
    exact g7

/-- writing pixels -/
theorem img_put {m : Mem} {p R C ch E : Nat} {dt : Int} {px px' : Nat → Nat → Nat → Nat → UInt8}
    {hdr : SimpleMat} {new : Nat → UInt8}
    (h : IsImage m p R C dt ch E px) (h1 : m.sm p = some hdr)
    (hnew : ∀ i j c t, i < R → j < C → c < ch → t < E → new (((i * C + j) * ch + c) * E + t) = px' i j c t) :
    IsImage (m.put hdr.data (R * C * ch * E) new) p R C dt ch E px' ∧
    OnlyPixels m (m.put hdr.data (R * C * ch * E) new) p := by
  obtain ⟨hdr', h1', h2, h3, h4, h5, h6, h7⟩ := img_open h
  rw [h1] at h1'
  cases h1'
  constructor
  · refine ⟨h.size, h.posR, h.posC, h.posCh, hdr, new, ?_, h2, h3, h4, h5, h6, bytes_iff.2 (holds_put _ _ _ _), hnew⟩
    simpa using h1
  · refine ⟨rfl, rfl, le_refl _, ?_⟩
    intro x hx
    apply put_blk_ne
    rintro rfl
    exact hx ⟨hdr, h1, rfl⟩

theorem img8_put {m : Mem} {p R C ch : Nat} {px px' : Nat → Nat → Nat → UInt8}
    {hdr : SimpleMat} {new : Nat → UInt8}
    (h : IsImage8 m p R C ch px) (h1 : m.sm p = some hdr)
    (hnew : ∀ i j c, i < R → j < C → c < ch → new ((i * C + j) * ch + c) = px' i j c) :
    IsImage8 (m.put hdr.data (R * C * ch) new) p R C ch px' ∧
    OnlyPixels m (m.put hdr.data (R * C * ch) new) p := by
  have := img_put (px' := fun i j c _ => px' i j c) (new := new) h h1 (by
    intro i j c t hi hj hc ht
    have e : ((i * C + j) * ch + c) * 1 + t = (i * C + j) * ch + c := by omega
    rw [e, hnew i j c hi hj hc])
  rwa [Nat.mul_one] at this

theorem sep_ne {m : Mem} {p q : Nat} {hp hq : SimpleMat} (h : SepPixels m p q) (h1 : m.sm p = some hp)
    (h2 : m.sm q = some hq) : hp.data ≠ hq.data := by
  intro e
  exact h hp.data ⟨⟨hp, h1, rfl⟩, ⟨hq, h2, e⟩⟩

theorem sep_only {m m' : Mem} {p q r : Nat} (h : SepPixels m p q) (ho : OnlyPixels m m' r) :
    SepPixels m' p q := by
  intro x hx
  apply h x
  unfold PixelBlock at *
  rw [ho.2.1] at hx
  exact hx

theorem only_trans {m m' m'' : Mem} {p : Nat} (h1 : OnlyPixels m m' p) (h2 : OnlyPixels m' m'' p) :
    OnlyPixels m m'' p := by
  refine ⟨h2.1.trans h1.1, h2.2.1.trans h1.2.1, h1.2.2.1.trans h2.2.2.1, ?_⟩
  intro x hx
  rw [h2.2.2.2 x, h1.2.2.2 x hx]
  unfold PixelBlock at *
  rw [h1.2.1]
  exact hx

theorem img_lt_next {m : Mem} {p R C ch E : Nat} {dt : Int} {px : Nat → Nat → Nat → Nat → UInt8}
    (hm : m.WF) (h : IsImage m p R C dt ch E px) : p < m.next := by
  obtain ⟨hdr, h1, _⟩ := img_open h
  by_contra hc
  have := (hm p (by omega)).2.2
  rw [h1] at this
  cases this

theorem img_frame {m m' : Mem} {p R C ch E : Nat} {dt : Int} {px : Nat → Nat → Nat → Nat → UInt8}
    (hm : m.WF) (h : IsImage m p R C dt ch E px) (hf : Frame m m') : IsImage m' p R C dt ch E px := by
  have hp := img_lt_next hm h
  obtain ⟨h0, h1, h2, h3, hdr, f, g1, g2, g3, g4, g5, g6, g7, g8⟩ := h
  refine ⟨h0, h1, h2, h3, hdr, f, ?_, g2, g3, g4, g5, g6, ?_, g8⟩
  · rw [(hf p hp).2.2]; exact g1
  · rw [bytes_iff] at g7 ⊢
    unfold Holds
    rw [(hf hdr.data (g7.lt_next hm)).1]
    exact g7

theorem only_WF {m m' : Mem} {p R C ch E : Nat} {dt : Int} {px : Nat → Nat → Nat → Nat → UInt8}
    (hm : m.WF) (h : IsImage m p R C dt ch E px) (ho : OnlyPixels m m' p) : m'.WF := by
  obtain ⟨hdr, h1, _, _, _, _, _, h7⟩ := img_open h
  have hlt := h7.lt_next hm
  intro x hx
  have hx' : m.next ≤ x := ho.2.2.1.trans hx
  rw [ho.1, ho.2.1, ho.2.2.2 x]
  · exact hm x hx'
  · rintro ⟨hdr', h1', rfl⟩
    rw [h1] at h1'
    cases h1'
    omega

/-! ### Creation -/

/-- header of a new image -/
def newSHdr (m : Mem) (R C : Nat) (dt : Int) (ch E : Nat) : SimpleMat where
  rows := R
  cols := C
  data_type := dt
  channels := ch
  elem_size := E
  data := m.next
  inl := true

/-- memory after creating an image -/
def Mem.newImage (m : Mem) (R C : Nat) (dt : Int) (ch E : Nat) (f : Nat → UInt8) : Mem :=
  (m.grow (R * C * ch * E) f).growS (newSHdr m R C dt ch E)

theorem newImage_sm (m : Mem) (R C : Nat) (dt : Int) (ch E : Nat) (f : Nat → UInt8) :
    (m.newImage R C dt ch E f).sm (m.next + 1) = some (newSHdr m R C dt ch E) :=
  growS_sm_self _ _

@[simp] theorem newImage_next (m : Mem) (R C : Nat) (dt : Int) (ch E : Nat) (f : Nat → UInt8) :
    (m.newImage R C dt ch E f).next = m.next + 2 := rfl
@[simp] theorem newImage_hm (m : Mem) (R C : Nat) (dt : Int) (ch E : Nat) (f : Nat → UInt8) :
    (m.newImage R C dt ch E f).hm = m.hm := rfl
@[simp] theorem newImage_addr (m : Mem) (R C : Nat) (dt : Int) (ch E : Nat) (f : Nat → UInt8) :
    (m.newImage R C dt ch E f).addr = m.addr := rfl

theorem newImage_sm_old (m : Mem) {R C : Nat} {dt : Int} {ch E : Nat} {f : Nat → UInt8} {q : Nat}
    (hq : q ≠ m.next + 1) : (m.newImage R C dt ch E f).sm q = m.sm q := by
  unfold Mem.newImage
  rw [growS_sm_ne _ _ (by simpa using hq)]; rfl

theorem newImage_blk_old (m : Mem) {R C : Nat} {dt : Int} {ch E : Nat} {f : Nat → UInt8} {q : Nat}
    (hq : q ≠ m.next) : (m.newImage R C dt ch E f).blk q = m.blk q := by
  unfold Mem.newImage
  rw [growS_blk, grow_blk_ne _ _ _ hq]

theorem newImage_data (m : Mem) (R C : Nat) (dt : Int) (ch E : Nat) (f : Nat → UInt8) :
    Holds (m.newImage R C dt ch E f) m.next (R * C * ch * E) f := by
  unfold Holds Mem.newImage
  rw [growS_blk]
  exact grow_holds m _ f

theorem newImage_holds_old {m : Mem} (hm : m.WF) {R C : Nat} {dt : Int} {ch E : Nat} {f : Nat → UInt8}
    {q n : Nat} {g : Nat → UInt8} (h : Holds m q n g) : Holds (m.newImage R C dt ch E f) q n g := by
  unfold Holds
  have := h.lt_next hm
  rw [newImage_blk_old _ (by omega)]
  exact h

theorem newImage_WF {m : Mem} (hm : m.WF) {R C : Nat} {dt : Int} {ch E : Nat} {f : Nat → UInt8} :
    (m.newImage R C dt ch E f).WF := by
  intro h hh
  simp only [newImage_next] at hh
  refine ⟨?_, ?_, ?_⟩
  · rw [newImage_blk_old _ (by omega)]; exact (hm h (by omega)).1
  · exact (hm h (by omega)).2.1
  · rw [newImage_sm_old _ (by omega)]; exact (hm h (by omega)).2.2

theorem newImage_put (m : Mem) {R C : Nat} {dt : Int} {ch E : Nat} {f g : Nat → UInt8} :
    (m.newImage R C dt ch E f).put m.next (R * C * ch * E) g = m.newImage R C dt ch E g := by
  unfold Mem.newImage
  apply Mem.ext' <;> try rfl
  funext h
  by_cases h1 : h = m.next
  · simp [h1, Mem.put, Mem.setBlk, Mem.grow]
  · simp [h1, Mem.put, Mem.setBlk, Mem.grow]

theorem newImage_congr (m : Mem) {R C : Nat} {dt : Int} {ch E : Nat} {f g : Nat → UInt8}
    (h : ∀ i, i < R * C * ch * E → f i = g i) : m.newImage R C dt ch E f = m.newImage R C dt ch E g := by
  unfold Mem.newImage
  rw [grow_congr m _ h]

theorem newImage_frame (m : Mem) {R C : Nat} {dt : Int} {ch E : Nat} {f : Nat → UInt8} :
    Frame m (m.newImage R C dt ch E f) := by
  intro h hh
  exact ⟨newImage_blk_old m (by omega), rfl, newImage_sm_old m (by omega)⟩

theorem newImage_fresh (m : Mem) {R C : Nat} {dt : Int} {ch E : Nat} {f : Nat → UInt8} :
    FreshImg m (m.newImage R C dt ch E f) (m.next + 1) := by
  rintro h (rfl | ⟨hdr, h1, rfl⟩)
  · omega
  · rw [newImage_sm] at h1
    cases h1
    simp [newSHdr]

theorem newImage_isImage {m : Mem} {R C ch E : Nat} {dt : Int} {px : Nat → Nat → Nat → Nat → UInt8}
    (hE : elemBytes dt = some E) (hR : 0 < R) (hC : 0 < C) (hch : 0 < ch) :
    IsImage (m.newImage R C dt ch E (imgBytes C ch E px)) (m.next + 1) R C dt ch E px :=
  img_mk hE hR hC hch (newImage_sm m R C dt ch E _) rfl rfl rfl rfl rfl (newImage_data m R C dt ch E _)

theorem smsize_eval {R C ch E : Nat} (hC : 0 < C) (hch : 0 < ch) (hE : 0 < E)
    (hN : R * C * ch * E ≤ 2147483647) :
    (CI.lit (R:Int) * CI.lit (C:Int) * CI.lit (E:Int) * CI.lit (ch:Int) : CI)
      = CI.lit ((R * C * ch * E : Nat) : Int) := by
  have e : R * C * ch * E = R * C * E * ch := by ring
  rw [e] at hN ⊢
  have h : R * C * E * ch < 2147483648 := by omega
  ci_down

/-- what `create_simple_mat` really does: only the bytes of the first channel count are cleared -/
theorem create_sm_ok {m : Mem} {R C ch E : Nat} {dt : Int} (hR : 0 < R) (hC : 0 < C)
    (hch : 0 < ch) (hE : elemBytes dt = some E) (hN : R * C * ch * E ≤ 2147483551) :
    create_simple_mat R C dt ch m = .ok (some (m.next + 1),
      m.newImage R C dt ch E (fun p => if p < R * C * E then 0 else m.junk m.next p)) := by
  obtain ⟨e1, e2, e3⟩ := get_elemsize_eq hE
  unfold create_simple_mat create_simple_mat_with_data
  rw [e1]
  have p1 : decide ((R:Int) > 0 ∧ (C:Int) > 0) = true := by simp; omega
  rw [p1]
  simp only [cassert_bind_true]
  rw [ev_bind (smsize_eval hC hch e2 (by omega))]
  have e4 : (CI.lit 32 + (CI.lit ((R * C * ch * E : Nat) : Int) + CI.lit 64) : CI)
      = CI.lit (((R * C * ch * E : Nat) : Int) + 96) := by
    rw [CI.add_ok (by constructor <;> omega), CI.add_ok (by constructor <;> omega)]
    congr 1; ring
  rw [ev_bind e4]
  have p2 : decide ((0:Int) ≤ ((R * C * ch * E : Nat) : Int) + 96) = true := by
    simp only [decide_eq_true_eq]; omega
  rw [p2]
  simp only [cassert_bind_true]
  have hle : R * C * E ≤ R * C * ch * E := by
    calc R * C * E = R * C * 1 * E := by ring
      _ ≤ R * C * ch * E := Nat.mul_le_mul_right _ (Nat.mul_le_mul_left _ hch)
  have e5 := size3_eval (R := R) (C := C) (ch := E) hC e2 (by omega)
  rw [ev_bind e5, bind_ok (malloc_run _ _)]
  simp only [Int.toNat_natCast]
  have ms := memset_ok (off := 0) (k := R * C * E) (v := 0)
    (grow_holds m (R * C * ch * E) (m.junk m.next)) (by omega)
  simp only [Int.natCast_zero] at ms
  rw [bind_ok ms, grow_put]
  rw [bind_ok (newS_run _ _)]
  refine congrArg (fun x => Except.ok (some (m.next + 1), x)) ?_
  refine congrArg (fun x => Mem.growS x (newSHdr m R C dt ch E)) ?_
  apply grow_congr
  intro i hi
  simp

theorem copy_sm_ok {m : Mem} (hm : m.WF) {p R C ch E : Nat} {dt : Int}
    {px : Nat → Nat → Nat → Nat → UInt8} (h : IsImage m p R C dt ch E px)
    (hN : R * C * ch * E ≤ 2147483551) :
    simple_mat_copy (some p) m = .ok (some (m.next + 1),
      m.newImage R C dt ch E (imgBytes C ch E px)) := by
  obtain ⟨e1, e2, e3⟩ := get_elemsize_eq h.size
  obtain ⟨hdr, h1, h2, h3, h4, h5, h6, h7⟩ := img_open h
  unfold simple_mat_copy
  rw [bind_ok (show derefS (some p) m = _ from getS_ok h1)]
  simp only [h2, h3, h4, h5, e1]
  rw [bind_ok (create_sm_ok h.posR h.posC h.posCh h.size hN)]
  rw [bind_ok (show derefS (some (m.next + 1)) _ = _ from getS_ok (newImage_sm m R C dt ch E _))]
  rw [ev_bind (smsize_eval h.posC h.posCh e2 (by omega))]
  have hlt := h7.lt_next hm
  have key := memcpy_ok (doff := 0) (soff := 0) (k := R * C * ch * E)
    (newImage_holds_old hm h7) (newImage_data m R C dt ch E
      (fun p => if p < R * C * E then 0 else m.junk m.next p)) (by omega) (by omega) (by omega)
  simp only [Int.natCast_zero] at key
  rw [show (newSHdr m R C dt ch E).data = m.next from rfl]
  rw [bind_ok key, newImage_put]
  refine congrArg (fun x => Except.ok (some (m.next + 1), x)) ?_
  apply newImage_congr
  intro i hi
  simp [hi]

/-- deleting a freshly created inline image restores the heap, unless the header's address is 48 modulo 64 -/
theorem delete_sm_run {m : Mem} {p : Nat} {hdr : SimpleMat} (h : m.sm p = some hdr) (hi : hdr.inl = true)
    (ha : m.addr p % 16 = 0) (hb : m.addr p % 64 ≠ 48) :
    delete_simple_mat (some p) m = freeImage p hdr m := by
  unfold delete_simple_mat
  simp only [h, hi, pixelAddr, byte_alignment]
  rw [if_pos]
  simp only [if_true]
  omega

theorem delete_sm_bad {m : Mem} {p : Nat} {hdr : SimpleMat} (h : m.sm p = some hdr) (hi : hdr.inl = true)
    (hb : m.addr p % 64 = 48) :
    delete_simple_mat (some p) m = .error (.ub .badFree) := by
  unfold delete_simple_mat
  simp only [h, hi, pixelAddr, byte_alignment]
  rw [if_neg]
  · rfl
  · simp only [if_true]
    omega

end HyperCV
