import Verif.Model.Session
import Verif.Proof.Client
import Verif.Proof.KeepsOracles
import Verif.Proof.Geometric
import Verif.Props.Image

namespace HyperCV
open Spec

/-! ### Variables -/

theorem iget_lt {im : Images} {x : Nat} {c : ImgVal} (h : im.get x = some c) : x < im.length := by
  by_contra hx
  unfold Images.get at h
  rw [List.getElem?_eq_none (by omega)] at h
  cases h

theorem iget_append {im : Images} {c : ImgVal} {x : Nat} {d : ImgVal} :
    Images.get (im ++ [some c]) x = some d ↔ im.get x = some d ∨ (x = im.length ∧ d = c) := by
  unfold Images.get
  by_cases hx : x < im.length
  · rw [List.getElem?_append_left hx]
    constructor
    · exact Or.inl
    · rintro (h | ⟨h, _⟩)
      · exact h
      · omega
  · rw [List.getElem?_append_right (by omega), List.getElem?_eq_none (l := im) (by omega)]
    by_cases hy : x = im.length
    · subst hy
      simp only [Nat.sub_self, List.getElem?_cons_zero, Option.join_some, Option.some.injEq, Option.join_none, reduceCtorEq, true_and, false_or]
      exact eq_comm
    · rw [List.getElem?_eq_none (by simp; omega)]
      simp [hy]

theorem iget_set {im : Images} {x y : Nat} {o : Option ImgVal} {d : ImgVal} (hx : x < im.length) :
    Images.get (im.set x o) y = some d ↔ (y = x ∧ o = some d) ∨ (y ≠ x ∧ im.get y = some d) := by
  unfold Images.get
  by_cases h : y = x
  · subst h
    rw [List.getElem?_set_self hx]
    simp
  · rw [List.getElem?_set_ne (Ne.symm h)]
    simp [h]

/-! ### Generic steps -/

theorem ownsImg_congr {m m' : Mem} {p : Nat} (h : m'.sm p = m.sm p) (x : Nat) : OwnsImg m' p x ↔ OwnsImg m p x := by
  unfold OwnsImg PixelBlock; rw [h]

theorem ownsImg_lt {m : Mem} (hm : m.WF) {p : Nat} {c : ImgVal} (h : HasImage m p c) : ∀ x, OwnsImg m p x → x < m.next := by
  have hp := img_lt_next hm h.1
  obtain ⟨hdr, h1, _, _, _, _, _, h7⟩ := img_open h.1
  rintro x (rfl | ⟨hdr', e1, rfl⟩)
  · exact hp
  · rw [h1] at e1
    cases e1
    exact h7.lt_next hm

/-- an image is kept if nothing it owns changes -/
theorem image_owned {m m' : Mem} {p : Nat} {c : ImgVal} (h : HasImage m p c)
    (hs : ∀ x, OwnsImg m p x → m'.blk x = m.blk x ∧ m'.sm x = m.sm x) : HasImage m' p c := by
  obtain ⟨⟨h0, h1, h2, h3, hdr, f, g1, g2, g3, g4, g5, g6, ⟨l, g7, g7'⟩, g8⟩, hb, hf, hdr', k1, k2⟩ := h
  have sp : m'.sm p = m.sm p := (hs p (Or.inl rfl)).2
  refine ⟨⟨h0, h1, h2, h3, hdr, f, by rw [sp, g1], g2, g3, g4, g5, g6, ⟨l, ?_, g7'⟩, g8⟩, hb, hf, hdr', by rw [sp, k1], k2⟩
  rw [(hs hdr.data (Or.inr ⟨hdr, g1, rfl⟩)).1, g7]

variable {others : Nat → Prop} {m0 m m' : Mem} {env : List (Option Nat)} {im : Images}

/-- a new variable -/
theorem images_new (hr : RepresentsImages others m0 m env im) {q : Nat} {c : ImgVal} (hf : Frame m m') (hw : m'.WF)
    (hn : m.next ≤ m'.next) (hv : HasImage m' q c) (ho : FreshImg m m' q)
    (hb : ∀ h, m.next ≤ h → m'.blk h ≠ none → PixelBlock m' q h)
    (hh : ∀ h, m.next ≤ h → m'.sm h ≠ none → h = q) (hs : m'.hm = m.hm) (ha : m'.addr = m.addr) :
    RepresentsImages others m0 m' (env ++ [some q]) (im ++ [some c]) := by
  have old : ∀ x d, im.get x = some d → (env ++ [some q])[x]? = env[x]? := by
    intro x d h
    exact List.getElem?_append_left (by rw [hr.same]; exact iget_lt h)
  have new : (env ++ [some q])[im.length]? = some (some q) := by
    rw [← hr.same, List.getElem?_append_right (le_refl _)]; simp
  have hold : ∀ x d p, im.get x = some d → env[x]? = some (some p) → m'.sm p = m.sm p ∧ ∀ h, OwnsImg m p h → h < m.next := by
    intro x d p h hp
    obtain ⟨p', e, hv', _⟩ := hr.image x d h
    rw [hp] at e
    have e : p = p' := by simpa using e
    subst e
    have hlt := ownsImg_lt hr.wf hv'
    exact ⟨(hf p (hlt p (Or.inl rfl))).2.2, hlt⟩
  refine ⟨hw, fun h ho' => (hr.later h ho').trans_le hn, ?_, ha.trans hr.addr, by simp [hr.same], ?_, ?_, ?_, ?_, ?_⟩
  · intro h hh'
    obtain ⟨a1, a2, a3⟩ := hr.frame h hh'
    obtain ⟨b1, b2, b3⟩ := hf h (hr.later h hh')
    exact ⟨b1.trans a1, b2.trans a2, b3.trans a3⟩
  · intro x d hx
    rcases iget_append.1 hx with h | ⟨rfl, rfl⟩
    · obtain ⟨p, e, hv', ho'⟩ := hr.image x d h
      obtain ⟨k1, k2⟩ := hold x d p h e
      refine ⟨p, by rw [old x d h, e], image_owned hv' (fun y hy => ⟨(hf y (k2 y hy)).1, (hf y (k2 y hy)).2.2⟩), ?_⟩
      intro y hy
      rw [ownsImg_congr k1] at hy
      exact ho' y hy
    · exact ⟨q, new, hv, fun y hy hy' => absurd (hr.later y hy') (by have := ho y hy; omega)⟩
  · intro x y d e p r hxy hx hy hp hr'
    rcases iget_append.1 hx with h | ⟨rfl, rfl⟩
    · rw [old x d h] at hp
      have k := hold x d p h hp
      rcases iget_append.1 hy with h' | ⟨rfl, rfl⟩
      · rw [old y e h'] at hr'
        have k' := hold y e r h' hr'
        intro z hz
        rw [ownsImg_congr k.1, ownsImg_congr k'.1] at hz
        exact hr.apart x y d e p r hxy h h' hp hr' z hz
      · rw [new] at hr'
        have e' : q = r := by simpa using hr'
        subst e'
        intro z hz
        rw [ownsImg_congr k.1] at hz
        have := k.2 z hz.1
        have := ho z hz.2
        omega
    · rw [new] at hp
      have e' : q = p := by simpa using hp
      subst e'
      rcases iget_append.1 hy with h' | ⟨rfl, rfl⟩
      · rw [old y e h'] at hr'
        have k' := hold y e r h' hr'
        intro z hz
        rw [ownsImg_congr k'.1] at hz
        have := k'.2 z hz.2
        have := ho z hz.1
        omega
      · exact absurd rfl hxy
  · intro h h0 hb'
    by_cases hl : h < m.next
    · rw [(hf h hl).1] at hb'
      obtain ⟨x, d, p, e1, e2, e3⟩ := hr.blocks h h0 hb'
      refine ⟨x, d, p, iget_append.2 (Or.inl e1), by rw [old x d e1, e2], ?_⟩
      unfold PixelBlock
      rw [(hold x d p e1 e2).1]
      exact e3
    · exact ⟨im.length, c, q, iget_append.2 (Or.inr ⟨rfl, rfl⟩), new, hb h (by omega) hb'⟩
  · intro h h0 hb'
    by_cases hl : h < m.next
    · rw [(hf h hl).2.2] at hb'
      obtain ⟨x, d, e1, e2⟩ := hr.headers h h0 hb'
      exact ⟨x, d, iget_append.2 (Or.inl e1), by rw [old x d e1, e2]⟩
    · have := hh h (by omega) hb'
      subst this
      exact ⟨im.length, c, iget_append.2 (Or.inr ⟨rfl, rfl⟩), new⟩
  · intro h h0
    rw [hs]; exact hr.cubes h h0

/-- the pixels of a variable were changed -/
theorem images_change (hr : RepresentsImages others m0 m env im) {x p : Nat} {c c' : ImgVal} (hx : im.get x = some c)
    (hp : env[x]? = some (some p)) (ho : OnlyPixels m m' p) (ha : m'.addr = m.addr) (hv : HasImage m' p c') :
    RepresentsImages others m0 m' env (im.set x (some c')) := by
  have hl := iget_lt hx
  obtain ⟨p', e, hv0, hown⟩ := hr.image x c hx
  rw [hp] at e
  have e : p = p' := by simpa using e
  subst e
  have hwf : m'.WF := only_WF hr.wf hv0.1 ho
  have hblk : ∀ h, ¬ OwnsImg m p h → m'.blk h = m.blk h := fun h hh => ho.2.2.2 h (fun h' => hh (Or.inr h'))
  have hpix : ∀ r h, PixelBlock m' r h ↔ PixelBlock m r h := by intro r h; unfold PixelBlock; rw [ho.2.1]
  have hownr : ∀ r h, OwnsImg m' r h ↔ OwnsImg m r h := by intro r h; unfold OwnsImg; rw [hpix]
  refine ⟨hwf, fun h hh => (hr.later h hh).trans_le ho.2.2.1, ?_, ha.trans hr.addr, by simpa using hr.same, ?_, ?_, ?_, ?_, ?_⟩
  · intro h hh
    obtain ⟨a1, a2, a3⟩ := hr.frame h hh
    rw [ho.1, ho.2.1, hblk h (fun h' => hown h h' hh)]
    exact ⟨a1, a2, a3⟩
  · intro y d hy
    rcases (iget_set hl).1 hy with ⟨rfl, h⟩ | ⟨hne, h⟩
    · cases h
      exact ⟨p, hp, hv, fun z hz => hown z ((hownr p z).1 hz)⟩
    · obtain ⟨r, e1, e2, e3⟩ := hr.image y d h
      refine ⟨r, e1, image_owned e2 (fun z hz => ⟨?_, by rw [ho.2.1]⟩), ?_⟩
      · exact hblk z (fun hz' => hr.apart y x d c r p hne h hx e1 hp z ⟨hz, hz'⟩)
      · intro z hz
        exact e3 z ((hownr r z).1 hz)
  · intro y z d e r s hyz hy hz h1 h2 t ht
    rw [hownr, hownr] at ht
    have live : ∀ y d, Images.get (im.set x (some c')) y = some d → ∃ d', im.get y = some d' := by
      intro y d hy
      rcases (iget_set hl).1 hy with ⟨rfl, _⟩ | ⟨_, h⟩
      · exact ⟨c, hx⟩
      · exact ⟨d, h⟩
    obtain ⟨d', hd'⟩ := live y d hy
    obtain ⟨e', he'⟩ := live z e hz
    exact hr.apart y z d' e' r s hyz hd' he' h1 h2 t ht
  · intro h h0 hb
    have hb' : m.blk h ≠ none := by
      by_cases hpx : PixelBlock m p h
      · obtain ⟨hdr, h1, _, _, _, _, _, h7⟩ := img_open hv0.1
        obtain ⟨hdr', e1, rfl⟩ := hpx
        rw [h1] at e1
        cases e1
        rw [h7]; simp
      · rwa [ho.2.2.2 h hpx] at hb
    obtain ⟨y, d, r, e1, e2, e3⟩ := hr.blocks h h0 hb'
    by_cases hyx : y = x
    · subst hyx
      exact ⟨y, c', r, (iget_set hl).2 (Or.inl ⟨rfl, rfl⟩), e2, (hpix r h).2 e3⟩
    · exact ⟨y, d, r, (iget_set hl).2 (Or.inr ⟨hyx, e1⟩), e2, (hpix r h).2 e3⟩
  · intro h h0 hb
    rw [ho.2.1] at hb
    obtain ⟨y, d, e1, e2⟩ := hr.headers h h0 hb
    by_cases hyx : y = x
    · subst hyx
      exact ⟨y, c', (iget_set hl).2 (Or.inl ⟨rfl, rfl⟩), e2⟩
    · exact ⟨y, d, (iget_set hl).2 (Or.inr ⟨hyx, e1⟩), e2⟩
  · intro h h0
    rw [ho.1]; exact hr.cubes h h0

/-- the memory without an image -/
def freeMem (m : Mem) (p : Nat) (hdr : SimpleMat) : Mem :=
  { m with
    sm := fun q => if q = p then none else m.sm q
    blk := fun q => if q = hdr.data ∧ hdr.inl = true then none else m.blk q }

/-- a variable was released -/
theorem images_delete (hr : RepresentsImages others m0 m env im) {x p : Nat} {c : ImgVal} {hdr : SimpleMat} (hx : im.get x = some c)
    (hp : env[x]? = some (some p)) (hh : m.sm p = some hdr) (hi : hdr.inl = true) :
    RepresentsImages others m0 (freeMem m p hdr) (env.set x none) (im.set x none) := by
  have hl := iget_lt hx
  have hle : x < env.length := by rw [hr.same]; exact hl
  obtain ⟨p', e, hv0, ho⟩ := hr.image x c hx
  rw [hp] at e
  have e : p = p' := by simpa using e
  subst e
  have live : ∀ y d, Images.get (im.set x none) y = some d ↔ y ≠ x ∧ im.get y = some d := by
    intro y d
    rw [iget_set hl]
    simp
  have envy : ∀ y, y ≠ x → (env.set x none)[y]? = env[y]? := fun y hy => List.getElem?_set_ne (Ne.symm hy)
  have rest : ∀ z, ¬ OwnsImg m p z → (freeMem m p hdr).blk z = m.blk z ∧ (freeMem m p hdr).sm z = m.sm z := by
    intro z hz
    have z1 : z ≠ p := fun h => hz (Or.inl h)
    have z2 : z ≠ hdr.data := fun h => hz (Or.inr ⟨hdr, hh, h⟩)
    constructor
    · show (if _ then _ else _) = _
      rw [if_neg (fun h => z2 h.1)]
    · show (if _ then _ else _) = _
      rw [if_neg z1]
  have other : ∀ y d r, y ≠ x → im.get y = some d → env[y]? = some (some r) →
      ∀ z, OwnsImg m r z → (freeMem m p hdr).blk z = m.blk z ∧ (freeMem m p hdr).sm z = m.sm z := by
    intro y d r hy h1 h2 z hz
    exact rest z (fun hz' => hr.apart y x d c r p hy h1 hx h2 hp z ⟨hz, hz'⟩)
  have osm : ∀ y d r, y ≠ x → im.get y = some d → env[y]? = some (some r) → (freeMem m p hdr).sm r = m.sm r :=
    fun y d r hy h1 h2 => (other y d r hy h1 h2 r (Or.inl rfl)).2
  refine ⟨?_, hr.later, ?_, hr.addr, by simpa using hr.same, ?_, ?_, ?_, ?_, ?_⟩
  · intro h hh'
    obtain ⟨w1, w2, w3⟩ := hr.wf h hh'
    refine ⟨?_, w2, ?_⟩
    · show (if _ then _ else _) = _
      rw [w1]; split <;> rfl
    · show (if _ then _ else _) = _
      rw [w3]; split <;> rfl
  · intro h hh'
    obtain ⟨a1, a2, a3⟩ := hr.frame h hh'
    obtain ⟨b1, b2⟩ := rest h (fun h' => ho h h' hh')
    exact ⟨b1.trans a1, a2, b2.trans a3⟩
  · intro y d hy
    obtain ⟨hne, h⟩ := (live y d).1 hy
    obtain ⟨r, e1, e2, e3⟩ := hr.image y d h
    refine ⟨r, by rw [envy y hne, e1], image_owned e2 (other y d r hne h e1), ?_⟩
    intro z hz
    rw [ownsImg_congr (osm y d r hne h e1)] at hz
    exact e3 z hz
  · intro y z d e r s hyz hy hz h1 h2
    obtain ⟨hne, h⟩ := (live y d).1 hy
    obtain ⟨hne', h'⟩ := (live z e).1 hz
    rw [envy y hne] at h1
    rw [envy z hne'] at h2
    intro t ht
    rw [ownsImg_congr (osm y d r hne h h1), ownsImg_congr (osm z e s hne' h' h2)] at ht
    exact hr.apart y z d e r s hyz h h' h1 h2 t ht
  · intro h h0 hb
    have hb' : h ≠ hdr.data ∧ m.blk h ≠ none := by
      have hb : (if h = hdr.data ∧ hdr.inl = true then none else m.blk h) ≠ none := hb
      split at hb
      · exact absurd rfl hb
      · rename_i hn
        exact ⟨fun e => hn ⟨e, hi⟩, hb⟩
    obtain ⟨y, d, r, e1, e2, e3⟩ := hr.blocks h h0 hb'.2
    have hyx : y ≠ x := by
      rintro rfl
      rw [hp] at e2
      have e' : p = r := by simpa using e2
      subst e'
      obtain ⟨hdr', k1, k2⟩ := e3
      rw [hh] at k1
      cases k1
      exact hb'.1 k2
    refine ⟨y, d, r, (live y d).2 ⟨hyx, e1⟩, by rw [envy y hyx, e2], ?_⟩
    unfold PixelBlock
    rw [osm y d r hyx e1 e2]
    exact e3
  · intro h h0 hb
    have hb' : h ≠ p ∧ m.sm h ≠ none := by
      have hb : (if h = p then none else m.sm h) ≠ none := hb
      split at hb
      · exact absurd rfl hb
      · exact ⟨‹_›, hb⟩
    obtain ⟨y, d, e1, e2⟩ := hr.headers h h0 hb'.2
    have hyx : y ≠ x := by
      rintro rfl
      rw [hp] at e2
      have e' : p = h := by simpa using e2
      exact hb'.1 e'.symm
    exact ⟨y, d, (live y d).2 ⟨hyx, e1⟩, by rw [envy y hyx, e2]⟩
  · exact hr.cubes

/-! ### New images -/

theorem images_newImage (hr : RepresentsImages others m0 m env im) {c : ImgVal} {f : Nat → UInt8} (hR : 0 < c.R) (hC : 0 < c.C)
    (hE : elemBytes c.dt = some c.E) (hf : ∀ i j t, i < c.R → j < c.C → t < c.E → f ((i * c.C + j) * c.E + t) = leByte (c.px i j) t)
    (hb : ∀ i j, i < c.R → j < c.C → c.px i j < 256 ^ c.E) (hN : c.Fits) :
    RepresentsImages others m0 (m.newImage c.R c.C c.dt 1 c.E f) (env ++ [some (m.next + 1)]) (im ++ [some c]) := by
  refine images_new hr (newImage_frame m) (newImage_WF hr.wf) (by simp) ?_ (newImage_fresh m) ?_ ?_ rfl rfl
  · refine ⟨⟨hE, hR, hC, Nat.one_pos, _, f, newImage_sm m c.R c.C c.dt 1 c.E _, rfl, rfl, rfl, rfl, rfl,
      bytes_iff.mpr (newImage_data m c.R c.C c.dt 1 c.E _), ?_⟩, hb, hN, _, newImage_sm m c.R c.C c.dt 1 c.E _, rfl⟩
    intro i j k t hi hj hk ht
    obtain rfl : k = 0 := by omega
    simp only [Nat.mul_one, Nat.add_zero]
    exact hf i j t hi hj ht
  · intro h hh hb'
    by_cases e : h = m.next
    · exact ⟨_, newImage_sm m c.R c.C c.dt 1 c.E _, e⟩
    · rw [newImage_blk_old m e] at hb'
      exact absurd (hr.wf h hh).1 hb'
  · intro h hh hb'
    by_contra e
    rw [newImage_sm_old m e] at hb'
    exact hb' (hr.wf h hh).2.2

/-! ### Changes -/

theorem hasImage8 {p : Nat} {c : ImgVal} (h : HasImage m p c) (hd : c.dt = 1) : c.E = 1 ∧
    IsImage8 m p c.R c.C 1 (fun i j _ => UInt8.ofNat (c.px i j)) := by
  have hE : c.E = 1 := by
    have := h.1.size
    rw [hd] at this
    exact (Option.some.inj this).symm
  refine ⟨hE, ?_⟩
  have h1 := h.1
  rw [hd, hE] at h1
  exact img_congr h1 (fun i j k t _ _ _ ht => by
    obtain rfl : t = 0 := by omega
    simp [leByte])

theorem hasImage_of8 {p : Nat} {c : ImgVal} {px : Nat → Nat → Nat → UInt8} (hd : c.dt = 1) (hE : c.E = 1) (hN : c.Fits)
    (h : IsImage8 m p c.R c.C 1 px) (hpx : ∀ i j, i < c.R → j < c.C → c.px i j = (px i j 0).toNat)
    (hi : ∃ hdr, m.sm p = some hdr ∧ hdr.inl = true) : HasImage m p c := by
  refine ⟨?_, ?_, hN, hi⟩
  · rw [hd, hE]
    refine img_congr h (fun i j k t h1 h2 h3 ht => ?_)
    obtain rfl : t = 0 := by omega
    obtain rfl : k = 0 := by omega
    rw [hpx i j h1 h2]
    simp [leByte]
  · intro i j h1 h2
    rw [hpx i j h1 h2, hE]
    have := (px i j 0).toNat_lt
    omega

theorem sep_of_apart {p q : Nat} (h : ∀ x, ¬ (OwnsImg m p x ∧ OwnsImg m q x)) : SepPixels m p q :=
  fun x hx => h x ⟨Or.inr hx.1, Or.inr hx.2⟩

theorem inl_only {p q : Nat} {c : ImgVal} (h : HasImage m p c) (ho : OnlyPixels m m' q) : ∃ hdr, m'.sm p = some hdr ∧ hdr.inl = true := by
  rw [ho.2.1]; exact h.2.2.2

end HyperCV
