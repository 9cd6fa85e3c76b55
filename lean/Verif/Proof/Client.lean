import Verif.Model.Client
import Verif.Proof.Range
import Verif.Proof.Typed

namespace HyperCV
open Spec

/-! ### Variables -/

theorem get_lt {st : Store} {x : Nat} {c : CubeVal} (h : st.get x = some c) : x < st.length := by
  by_contra hx
  unfold Store.get at h
  rw [List.getElem?_eq_none (by omega)] at h
  cases h

theorem get_append {st : Store} {c : CubeVal} {x : Nat} {d : CubeVal} :
    Store.get (st ++ [some c]) x = some d ↔ st.get x = some d ∨ (x = st.length ∧ d = c) := by
  unfold Store.get
  by_cases hx : x < st.length
  · rw [List.getElem?_append_left hx]
    constructor
    · exact Or.inl
    · rintro (h | ⟨h, _⟩)
      · exact h
      · omega
  · rw [List.getElem?_append_right (by omega), List.getElem?_eq_none (l := st) (by omega)]
    by_cases hy : x = st.length
    · subst hy
      simp only [Nat.sub_self, List.getElem?_cons_zero, Option.join_some, Option.some.injEq, Option.join_none, reduceCtorEq, true_and, false_or]
      exact eq_comm
    · rw [List.getElem?_eq_none (by simp; omega)]
      simp [hy]

theorem get_set {st : Store} {x y : Nat} {o : Option CubeVal} {d : CubeVal} (hx : x < st.length) :
    Store.get (st.set x o) y = some d ↔ (y = x ∧ o = some d) ∨ (y ≠ x ∧ st.get y = some d) := by
  unfold Store.get
  by_cases h : y = x
  · subst h
    rw [List.getElem?_set_self hx]
    simp
  · rw [List.getElem?_set_ne (Ne.symm h)]
    simp [h]

theorem ptr_some {env : List (Option Nat)} {x p : Nat} (h : env[x]? = some (some p)) : ptr env x = some p := by
  unfold ptr; rw [h]; rfl

/-! ### Generic steps -/

theorem hdr_lt {m : Mem} (hm : m.WF) {p : Nat} {h : HyperMat} (hp : m.hm p = some h) : p < m.next := by
  by_contra hlt
  have := (hm p (by omega)).2.1
  rw [hp] at this; cases this

theorem value_hdr {m : Mem} {p : Nat} {c : CubeVal} (h : HasValue m p c) : ∃ hdr, m.hm p = some hdr := cube_hdr h.1.1

theorem owns_congr {m m' : Mem} {p : Nat} (h : m'.hm p = m.hm p) (x : Nat) : Owns m' p x ↔ Owns m p x := by
  unfold Owns; rw [h]

theorem value_frame {m m' : Mem} (hm : m.WF) {p : Nat} {c : CubeVal} (h : HasValue m p c) (hf : Frame m m') : HasValue m' p c :=
  ⟨⟨isCube_frame hm h.1.1 hf, h.1.2⟩, h.2⟩

/-- a value is kept if nothing the cube owns changes -/
theorem value_owned {m m' : Mem} {p : Nat} {c : CubeVal} (h : HasValue m p c)
    (hs : ∀ x, Owns m p x → m'.blk x = m.blk x ∧ m'.hm x = m.hm x) : HasValue m' p c := by
  refine ⟨⟨?_, h.1.2⟩, h.2⟩
  obtain ⟨hE, hS, hL, hB, hdr, wb, f, h1, h2, h3, h4, h5, h6, h7, h8, h9, h10, h11⟩ := h.1.1
  refine ⟨hE, hS, hL, hB, hdr, wb, f, ?_, h2, h3, h4, h5, h6, h7, h8, ?_, ?_, h11⟩
  · rw [(hs p (Or.inl rfl)).2, h1]
  · obtain ⟨l, g1, g2⟩ := h9
    exact ⟨l, by rw [(hs _ (Or.inr ⟨hdr, h1, Or.inl rfl⟩)).1, g1], g2⟩
  · obtain ⟨l, g1, g2⟩ := h10
    exact ⟨l, by rw [(hs _ (Or.inr ⟨hdr, h1, Or.inr h7⟩)).1, g1], g2⟩

variable {others : Nat → Prop} {m0 m m' : Mem} {env : List (Option Nat)} {st : Store}

theorem represents_start (hm : m.WF) : Represents (· < m.next) m m [] [] where
  wf := hm
  later := fun _ h => h
  frame := fun _ _ => ⟨rfl, rfl, rfl⟩
  addr := rfl
  junk := rfl
  same := rfl
  cube := by intro x c h; exact absurd (get_lt h) (by simp)
  apart := by intro x y c d p q _ h; exact absurd (get_lt h) (by simp)
  blocks := by intro h hh hb; exact absurd (hm h (by omega)).1 hb
  headers := by intro h hh hb; exact absurd (hm h (by omega)).2.1 hb
  images := fun h hh => (hm h (by omega)).2.2

/-- a new variable -/
theorem represents_new (hr : Represents others m0 m env st) {q : Nat} {hq : HyperMat} {c : CubeVal} (hf : Frame m m') (hw : m'.WF)
    (hn : m.next ≤ m'.next) (hv : HasValue m' q c) (h1 : m'.hm q = some hq) (ho : FreshCube m m' q)
    (hb : ∀ h, m.next ≤ h → m'.blk h ≠ none → h = hq.data ∨ hq.wavelength = some h)
    (hh : ∀ h, m.next ≤ h → m'.hm h ≠ none → h = q) (hs : m'.sm = m.sm) (ha : m'.addr = m.addr)
    (hj : m'.junk = m.junk) :
    Represents others m0 m' (env ++ [some q]) (st ++ [some c]) := by
  have old : ∀ x d, st.get x = some d → (env ++ [some q])[x]? = env[x]? := by
    intro x d h
    exact List.getElem?_append_left (by rw [hr.same]; exact get_lt h)
  have new : (env ++ [some q])[st.length]? = some (some q) := by
    rw [← hr.same, List.getElem?_append_right (le_refl _)]; simp
  have hold : ∀ x d p, st.get x = some d → env[x]? = some (some p) → m'.hm p = m.hm p ∧ ∀ h, Owns m p h → h < m.next := by
    intro x d p h hp
    obtain ⟨p', e, hv', _⟩ := hr.cube x d h
    rw [hp] at e
    have e : p = p' := by simpa using e
    subst e
    obtain ⟨hdr, wb, f, g1, g2, g3, g4, g5, g6, g7, g8, g9, g10, g11⟩ := hv'.1.1.obj
    rw [bytes_iff] at g9 g10
    have lp := hdr_lt hr.wf g1
    refine ⟨(hf p lp).2.1, ?_⟩
    rintro h (rfl | ⟨hdr', e1, e2⟩)
    · exact lp
    · rw [g1] at e1
      cases e1
      rcases e2 with rfl | e2
      · exact g9.lt_next hr.wf
      · rw [g7] at e2; cases e2; exact g10.lt_next hr.wf
  refine ⟨hw, fun h ho' => (hr.later h ho').trans_le hn, ?_, ha.trans hr.addr, hj.trans hr.junk, by simp [hr.same], ?_, ?_, ?_, ?_, ?_⟩
  · intro h hh'
    obtain ⟨a1, a2, a3⟩ := hr.frame h hh'
    obtain ⟨b1, b2, b3⟩ := hf h (hr.later h hh')
    exact ⟨b1.trans a1, b2.trans a2, b3.trans a3⟩
  · intro x d hx
    rcases get_append.1 hx with h | ⟨rfl, rfl⟩
    · obtain ⟨p, e, hv', ho'⟩ := hr.cube x d h
      refine ⟨p, by rw [old x d h, e], value_frame hr.wf hv' hf, ?_⟩
      intro y hy
      rw [owns_congr (hold x d p h e).1] at hy
      exact ho' y hy
    · exact ⟨q, new, hv, fun y hy hy' => absurd (hr.later y hy') (by have := ho y hy; omega)⟩
  · intro x y d e p r hxy hx hy hp hr'
    rcases get_append.1 hx with h | ⟨rfl, rfl⟩
    · rw [old x d h] at hp
      have k := hold x d p h hp
      rcases get_append.1 hy with h' | ⟨rfl, rfl⟩
      · rw [old y e h'] at hr'
        have k' := hold y e r h' hr'
        intro z hz
        rw [owns_congr k.1, owns_congr k'.1] at hz
        exact hr.apart x y d e p r hxy h h' hp hr' z hz
      · rw [new] at hr'
        have e' : q = r := by simpa using hr'
        subst e'
        intro z hz
        rw [owns_congr k.1] at hz
        have := k.2 z hz.1
        have := ho z hz.2
        omega
    · rw [new] at hp
      have e' : q = p := by simpa using hp
      subst e'
      rcases get_append.1 hy with h' | ⟨rfl, rfl⟩
      · rw [old y e h'] at hr'
        have k' := hold y e r h' hr'
        intro z hz
        rw [owns_congr k'.1] at hz
        have := k'.2 z hz.2
        have := ho z hz.1
        omega
      · exact absurd rfl hxy
  · intro h h0 hb'
    by_cases hl : h < m.next
    · rw [(hf h hl).1] at hb'
      obtain ⟨x, d, p, hdr, e1, e2, e3, e4⟩ := hr.blocks h h0 hb'
      exact ⟨x, d, p, hdr, get_append.2 (Or.inl e1), by rw [old x d e1, e2], by rw [(hold x d p e1 e2).1, e3], e4⟩
    · exact ⟨st.length, c, q, hq, get_append.2 (Or.inr ⟨rfl, rfl⟩), new, h1, hb h (by omega) hb'⟩
  · intro h h0 hb'
    by_cases hl : h < m.next
    · rw [(hf h hl).2.1] at hb'
      obtain ⟨x, d, e1, e2⟩ := hr.headers h h0 hb'
      exact ⟨x, d, get_append.2 (Or.inl e1), by rw [old x d e1, e2]⟩
    · have := hh h (by omega) hb'
      subst this
      exact ⟨st.length, c, get_append.2 (Or.inr ⟨rfl, rfl⟩), new⟩
  · intro h h0
    rw [hs]; exact hr.images h h0

/-- the cube `p` was changed in place -/
structure Changed (m m' : Mem) (p : Nat) : Prop where
  wf : m'.WF
  later : m.next ≤ m'.next
  rest : Unchanged m m' (Owns m p)
  hdr : ∃ h h', m.hm p = some h ∧ m'.hm p = some h' ∧ h'.data = h.data ∧ h'.wavelength = h.wavelength
  blocks : ∀ h, m'.blk h ≠ none → m.blk h ≠ none
  headers : ∀ h, m'.hm h ≠ none → m.hm h ≠ none
  images : m'.sm = m.sm
  addr : m'.addr = m.addr
  junk : m'.junk = m.junk

theorem Changed.owns {p : Nat} (h : Changed m m' p) (x : Nat) : Owns m' p x ↔ Owns m p x := by
  obtain ⟨a, b, h1, h2, h3, h4⟩ := h.hdr
  unfold Owns
  rw [h1, h2]
  simp only [Option.some.injEq, exists_eq_left', h3, h4]

theorem Changed.refl (hm : m.WF) {p : Nat} {h : HyperMat} (hp : m.hm p = some h) : Changed m m p :=
  ⟨hm, le_refl _, unchanged_refl _ _, ⟨h, h, hp, hp, rfl, rfl⟩, fun _ h => h, fun _ h => h, rfl, rfl, rfl⟩

/-- a variable was changed in place -/
theorem represents_change (hr : Represents others m0 m env st) {x p : Nat} {c c' : CubeVal} (hx : st.get x = some c)
    (hp : env[x]? = some (some p)) (hc : Changed m m' p) (hv : HasValue m' p c') :
    Represents others m0 m' env (st.set x (some c')) := by
  have hl := get_lt hx
  obtain ⟨p', e, hv0, ho⟩ := hr.cube x c hx
  rw [hp] at e
  have e : p = p' := by simpa using e
  subst e
  have other : ∀ y d r, y ≠ x → st.get y = some d → env[y]? = some (some r) →
      ∀ z, Owns m r z → m'.blk z = m.blk z ∧ m'.hm z = m.hm z ∧ m'.sm z = m.sm z := by
    intro y d r hy h1 h2 z hz
    exact hc.rest z (fun hz' => hr.apart y x d c r p hy h1 hx h2 hp z ⟨hz, hz'⟩)
  have ohm : ∀ y d r, y ≠ x → st.get y = some d → env[y]? = some (some r) → m'.hm r = m.hm r :=
    fun y d r hy h1 h2 => (other y d r hy h1 h2 r (Or.inl rfl)).2.1
  refine ⟨hc.wf, fun h hh => (hr.later h hh).trans_le hc.later, ?_, hc.addr.trans hr.addr, hc.junk.trans hr.junk, by simpa using hr.same, ?_, ?_, ?_, ?_, ?_⟩
  · intro h hh
    obtain ⟨a1, a2, a3⟩ := hr.frame h hh
    obtain ⟨b1, b2, b3⟩ := hc.rest h (fun h' => ho h h' hh)
    exact ⟨b1.trans a1, b2.trans a2, b3.trans a3⟩
  · intro y d hy
    rcases (get_set hl).1 hy with ⟨rfl, h⟩ | ⟨hne, h⟩
    · cases h
      exact ⟨p, hp, hv, fun z hz => ho z ((hc.owns z).1 hz)⟩
    · obtain ⟨r, e1, e2, e3⟩ := hr.cube y d h
      refine ⟨r, e1, value_owned e2 (fun z hz => ?_), ?_⟩
      · have := other y d r hne h e1 z hz
        exact ⟨this.1, this.2.1⟩
      · intro z hz
        rw [owns_congr (ohm y d r hne h e1)] at hz
        exact e3 z hz
  · intro y z d e r s hyz hy hz h1 h2
    rcases (get_set hl).1 hy with ⟨rfl, h⟩ | ⟨hne, h⟩
    · rcases (get_set hl).1 hz with ⟨rfl, _⟩ | ⟨hne', h'⟩
      · exact absurd rfl hyz
      · rw [hp] at h1
        have e' : p = r := by simpa using h1
        subst e'
        intro t ht
        rw [hc.owns, owns_congr (ohm z e s hne' h' h2)] at ht
        exact hr.apart y z c e p s hyz hx h' hp h2 t ht
    · rcases (get_set hl).1 hz with ⟨rfl, _⟩ | ⟨hne', h'⟩
      · rw [hp] at h2
        have e' : p = s := by simpa using h2
        subst e'
        intro t ht
        rw [hc.owns, owns_congr (ohm y d r hne h h1)] at ht
        exact hr.apart y z d c r p hyz h hx h1 hp t ht
      · intro t ht
        rw [owns_congr (ohm y d r hne h h1), owns_congr (ohm z e s hne' h' h2)] at ht
        exact hr.apart y z d e r s hyz h h' h1 h2 t ht
  · intro h h0 hb
    obtain ⟨y, d, r, hdr, e1, e2, e3, e4⟩ := hr.blocks h h0 (hc.blocks h hb)
    by_cases hyx : y = x
    · subst hyx
      rw [hp] at e2
      have e' : p = r := by simpa using e2
      subst e'
      obtain ⟨a, b, g1, g2, g3, g4⟩ := hc.hdr
      rw [g1] at e3
      cases e3
      exact ⟨y, c', p, b, (get_set hl).2 (Or.inl ⟨rfl, rfl⟩), hp, g2, by rw [g3, g4]; exact e4⟩
    · exact ⟨y, d, r, hdr, (get_set hl).2 (Or.inr ⟨hyx, e1⟩), e2, by rw [ohm y d r hyx e1 e2, e3], e4⟩
  · intro h h0 hb
    obtain ⟨y, d, e1, e2⟩ := hr.headers h h0 (hc.headers h hb)
    by_cases hyx : y = x
    · subst hyx
      exact ⟨y, c', (get_set hl).2 (Or.inl ⟨rfl, rfl⟩), e2⟩
    · exact ⟨y, d, (get_set hl).2 (Or.inr ⟨hyx, e1⟩), e2⟩
  · intro h h0
    rw [hc.images]; exact hr.images h h0

/-- a variable was released -/
theorem represents_delete (hr : Represents others m0 m env st) {x p : Nat} {c : CubeVal} {hdr : HyperMat} (hx : st.get x = some c)
    (hp : env[x]? = some (some p)) (hh : m.hm p = some hdr) :
    Represents others m0 (delMem m p hdr) (env.set x none) (st.set x none) := by
  have hl := get_lt hx
  have hle : x < env.length := by rw [hr.same]; exact hl
  obtain ⟨p', e, hv0, ho⟩ := hr.cube x c hx
  rw [hp] at e
  have e : p = p' := by simpa using e
  subst e
  have live : ∀ y d, Store.get (st.set x none) y = some d ↔ y ≠ x ∧ st.get y = some d := by
    intro y d
    rw [get_set hl]
    simp
  have envy : ∀ y, y ≠ x → (env.set x none)[y]? = env[y]? := fun y hy => List.getElem?_set_ne (Ne.symm hy)
  have rest : ∀ z, ¬ Owns m p z → (delMem m p hdr).blk z = m.blk z ∧ (delMem m p hdr).hm z = m.hm z := by
    intro z hz
    have z1 : z ≠ p := fun h => hz (Or.inl h)
    have z2 : ¬ (z = hdr.data ∨ some z = hdr.wavelength) := by
      rintro (h | h)
      · exact hz (Or.inr ⟨hdr, hh, Or.inl h⟩)
      · exact hz (Or.inr ⟨hdr, hh, Or.inr h.symm⟩)
    constructor
    · show (if _ then _ else _) = _
      rw [if_neg z2]
    · show (if _ then _ else _) = _
      rw [if_neg z1]
  have other : ∀ y d r, y ≠ x → st.get y = some d → env[y]? = some (some r) →
      ∀ z, Owns m r z → (delMem m p hdr).blk z = m.blk z ∧ (delMem m p hdr).hm z = m.hm z := by
    intro y d r hy h1 h2 z hz
    exact rest z (fun hz' => hr.apart y x d c r p hy h1 hx h2 hp z ⟨hz, hz'⟩)
  have ohm : ∀ y d r, y ≠ x → st.get y = some d → env[y]? = some (some r) → (delMem m p hdr).hm r = m.hm r :=
    fun y d r hy h1 h2 => (other y d r hy h1 h2 r (Or.inl rfl)).2
  refine ⟨?_, hr.later, ?_, hr.addr, hr.junk, by simpa using hr.same, ?_, ?_, ?_, ?_, ?_⟩
  · intro h hh'
    obtain ⟨w1, w2, w3⟩ := hr.wf h hh'
    refine ⟨?_, ?_, w3⟩
    · show (if _ then _ else _) = _
      rw [w1]; split <;> rfl
    · show (if _ then _ else _) = _
      rw [w2]; split <;> rfl
  · intro h hh'
    obtain ⟨a1, a2, a3⟩ := hr.frame h hh'
    obtain ⟨b1, b2⟩ := rest h (fun h' => ho h h' hh')
    exact ⟨b1.trans a1, b2.trans a2, a3⟩
  · intro y d hy
    obtain ⟨hne, h⟩ := (live y d).1 hy
    obtain ⟨r, e1, e2, e3⟩ := hr.cube y d h
    refine ⟨r, by rw [envy y hne, e1], value_owned e2 (other y d r hne h e1), ?_⟩
    intro z hz
    rw [owns_congr (ohm y d r hne h e1)] at hz
    exact e3 z hz
  · intro y z d e r s hyz hy hz h1 h2
    obtain ⟨hne, h⟩ := (live y d).1 hy
    obtain ⟨hne', h'⟩ := (live z e).1 hz
    rw [envy y hne] at h1
    rw [envy z hne'] at h2
    intro t ht
    rw [owns_congr (ohm y d r hne h h1), owns_congr (ohm z e s hne' h' h2)] at ht
    exact hr.apart y z d e r s hyz h h' h1 h2 t ht
  · intro h h0 hb
    have hb' : ¬ (h = hdr.data ∨ some h = hdr.wavelength) ∧ m.blk h ≠ none := by
      have hb : (if h = hdr.data ∨ some h = hdr.wavelength then none else m.blk h) ≠ none := hb
      split at hb
      · exact absurd rfl hb
      · exact ⟨‹_›, hb⟩
    obtain ⟨y, d, r, hdr', e1, e2, e3, e4⟩ := hr.blocks h h0 hb'.2
    have hyx : y ≠ x := by
      rintro rfl
      rw [hp] at e2
      have e' : p = r := by simpa using e2
      subst e'
      rw [hh] at e3
      cases e3
      exact hb'.1 (e4.imp id Eq.symm)
    exact ⟨y, d, r, hdr', (live y d).2 ⟨hyx, e1⟩, by rw [envy y hyx, e2], by rw [ohm y d r hyx e1 e2, e3], e4⟩
  · intro h h0 hb
    have hb' : h ≠ p ∧ m.hm h ≠ none := by
      have hb : (if h = p then none else m.hm h) ≠ none := hb
      split at hb
      · exact absurd rfl hb
      · exact ⟨‹_›, hb⟩
    obtain ⟨y, d, e1, e2⟩ := hr.headers h h0 hb'.2
    have hyx : y ≠ x := by
      rintro rfl
      rw [hp] at e2
      have e' : p = h := by simpa using e2
      exact hb'.1 e'.symm
    exact ⟨y, d, (live y d).2 ⟨hyx, e1⟩, by rw [envy y hyx, e2]⟩
  · exact hr.images

/-! ### New cubes -/

theorem represents_conv (hr : Represents others m0 m env st) {c : CubeVal} {v : Nat → Nat → Nat → Nat → UInt8} {w : Nat → UInt8}
    (hv : HasValue (convMem m c.lay c.S c.L c.B c.dt c.E v w) (m.next + 2) c) :
    Represents others m0 (convMem m c.lay c.S c.L c.B c.dt c.E v w) (env ++ [some (m.next + 2)]) (st ++ [some c]) := by
  have hw := convMem_WF (S := c.S) (L := c.L) (B := c.B) (dt := c.dt) (E := c.E) (v := v) (w := w) hr.wf c.lay
  refine represents_new hr (hq := newHdr m c.S c.L c.B c.dt c.lay.tag) (convMem_frame m c.lay) hw ?_ hv (newCube_hm ..)
    (convMem_fresh m c.lay) ?_ ?_ rfl rfl rfl
  · show m.next ≤ m.next + 3
    omega
  · intro h hh hb
    by_cases h1 : h = m.next
    · exact Or.inl h1
    by_cases h2 : h = m.next + 1
    · exact Or.inr (by rw [h2]; rfl)
    refine absurd ?_ hb
    unfold convMem Mem.newCube
    rw [growH_blk, grow_blk_ne _ _ _ (by simpa using h2), grow_blk_ne _ _ _ h1]
    exact (hr.wf h hh).1
  · intro h hh hb
    by_contra hne
    refine hb ?_
    unfold convMem
    rw [newCube_hm_old m hne]
    exact (hr.wf h hh).2.1

theorem convMem_value {c : CubeVal} {v : Nat → Nat → Nat → Nat → UInt8} {w : Nat → UInt8} (hS : 0 < c.S) (hL : 0 < c.L) (hB : 0 < c.B)
    (hE : elemBytes c.dt = some c.E) (h1 : ∀ i j k t, i < c.L → j < c.S → k < c.B → t < c.E → v i j k t = leByte (c.elem i j k) t)
    (h2 : ∀ t, t < 4 * c.B → w t = leByte (c.wave (t / 4)) (t % 4))
    (h3 : ∀ i j k, i < c.L → j < c.S → k < c.B → c.elem i j k < 256 ^ c.E) (h4 : ∀ k, k < c.B → c.wave k < 256 ^ 4) (h5 : c.Fits) :
    HasValue (convMem m c.lay c.S c.L c.B c.dt c.E v w) (m.next + 2) c := by
  refine ⟨⟨?_, h3⟩, h4, h5⟩
  have hc : IsCube (convMem m c.lay c.S c.L c.B c.dt c.E v w) (m.next + 2) c.lay c.S c.L c.B c.dt c.E v w :=
    newCube_isCube (m := m) (w := w) (v := v) c.lay hS hL hB hE
  obtain ⟨hE, hS, hL, hB, hdr, wb, f, g1, g2, g3, g4, g5, g6, g7, g8, g9, g10, g11⟩ := hc
  refine ⟨hE, hS, hL, hB, hdr, wb, f, g1, g2, g3, g4, g5, g6, g7, g8, g9, ?_, ?_⟩
  · rw [bytes_iff] at g10 ⊢
    exact g10.congr h2
  · intro i j k t hi hj hk ht
    rw [g11 i j k t hi hj hk ht, h1 i j k t hi hj hk ht]

theorem leByte_zero_all (t : Nat) : leByte 0 t = 0 := by simp [leByte]

theorem create_value (hm : m.WF) {S L B E : Nat} {dt : Int} {lay : Layout} (hS : 0 < S) (hL : 0 < L) (hB : 0 < B)
    (hE : elemBytes dt = some E) (hN : S * L * B * E ≤ 2147483647) (hW : 4 * B ≤ 2147483647) :
    create_hyper_mat S L B dt lay.tag m = .ok (some (m.next + 2), convMem m lay S L B dt E (fun _ _ _ _ => 0) (fun _ => 0)) :=
  create_ok hm hS hL hB hE hN hW (by rw [tag_length]; omega)

theorem conversion_run {a t : Layout} (hne : a ≠ t) {p S L B E : Nat} {dt : Int} {v : Nat → Nat → Nat → Nat → UInt8} {w : Nat → UInt8} (hm : m.WF)
    (hc : IsCube m p a S L B dt E v w) (hN : S * L * B * E ≤ 2147483647) (hW : 4 * B ≤ 2147483647) :
    conversion a t (some p) m = .ok (some (m.next + 2), convMem m t S L B dt E v w) := by
  cases a <;> cases t <;> first | exact absurd rfl hne | skip
  · exact bsq2bil_run hm hc hN hW
  · exact bsq2bip_run hm hc hN hW
  · exact bil2bsq_run hm hc hN hW
  · exact bil2bip_run hm hc hN hW
  · exact bip2bsq_run hm hc hN hW
  · exact bip2bil_run hm hc hN hW

/-! ### Changes in place -/

theorem changed_put (hm : m.WF) {p d N : Nat} {f g : Nat → UInt8} {h : HyperMat} (hp : m.hm p = some h) (hd : Holds m d N f) (ho : Owns m p d) :
    Changed m (m.put d N g) p := by
  refine ⟨put_WF hm (hd.lt_next hm), le_refl _, ?_, ⟨h, h, hp, hp, rfl, rfl⟩, ?_, fun _ h => h, rfl, rfl, rfl⟩
  · intro x hx
    refine ⟨put_blk_ne _ _ _ ?_, rfl, rfl⟩
    rintro rfl
    exact hx ho
  · intro x hx
    by_cases e : x = d
    · subst e; rw [hd]; simp
    · rwa [put_blk_ne _ _ _ e] at hx

theorem changed_trans {m1 m2 m3 : Mem} {p : Nat} (h1 : Changed m1 m2 p) (h2 : Changed m2 m3 p) : Changed m1 m3 p := by
  refine ⟨h2.wf, h1.later.trans h2.later, ?_, ?_, fun h hh => h1.blocks h (h2.blocks h hh), fun h hh => h1.headers h (h2.headers h hh),
    h2.images.trans h1.images, h2.addr.trans h1.addr, h2.junk.trans h1.junk⟩
  · intro x hx
    obtain ⟨a, b, c⟩ := h1.rest x hx
    obtain ⟨a', b', c'⟩ := h2.rest x (fun h => hx ((h1.owns x).1 h))
    exact ⟨a'.trans a, b'.trans b, c'.trans c⟩
  · obtain ⟨a, b, g1, g2, g3, g4⟩ := h1.hdr
    obtain ⟨a', b', k1, k2, k3, k4⟩ := h2.hdr
    rw [g2] at k1
    cases k1
    exact ⟨a, b', g1, k2, k3.trans g3, k4.trans g4⟩

theorem changed_withH (hm : m.WF) {p : Nat} {h h' : HyperMat} (hp : m.hm p = some h) (h1 : h'.data = h.data) (h2 : h'.wavelength = h.wavelength) :
    Changed m (m.withH p h') p := by
  refine ⟨?_, le_refl _, ?_, ⟨h, h', hp, withH_hm_self _ _ _, h1, h2⟩, fun _ h => h, ?_, rfl, rfl, rfl⟩
  · intro x hx
    obtain ⟨a, b, c⟩ := hm x hx
    refine ⟨a, ?_, c⟩
    rw [withH_hm_ne _ _ (by have : x ≠ p := (by have := hdr_lt hm hp; have hx : m.next ≤ x := hx; omega); exact this)]
    exact b
  · intro x hx
    exact ⟨rfl, withH_hm_ne _ _ (fun e => hx (Or.inl e)), rfl⟩
  · intro x hx
    by_cases e : x = p
    · subst e; rw [hp]; simp
    · rwa [withH_hm_ne _ _ e] at hx

theorem changed_copyTo (hm : m.WF) {dp dw N B : Nat} {d : HyperMat} {il : List Char} {f g w w' : Nat → UInt8} (hd : m.hm dp = some d)
    (d5 : d.wavelength = some dw) (hdd : Holds m d.data N g) (hdw : Holds m dw (4 * B) w') (hne : d.data ≠ dw) :
    Changed m (copyToMem m dp d dw N B il f w) dp := by
  have c1 : Changed m (m.put d.data N f) dp := changed_put hm hd hdd (Or.inr ⟨d, hd, Or.inl rfl⟩)
  have c2 : Changed (m.put d.data N f) ((m.put d.data N f).put dw (4 * B) w) dp :=
    changed_put c1.wf (h := d) hd (hdw.put_ne (Ne.symm hne)) (Or.inr ⟨d, hd, Or.inr d5⟩)
  exact changed_trans (changed_trans c1 c2) (changed_withH c2.wf (h := d) hd rfl rfl)

/-- convert, copy back, delete: the storage stays the same -/
theorem convert_changed {p S L B E : Nat} {dt : Int} {v : Nat → Nat → Nat → Nat → UInt8} {w : Nat → UInt8} {a b : Layout}
    (conv : Option Nat → M (Option Nat)) (hm : m.WF)
    (hc : IsCube m p a S L B dt E v w) (hN : S * L * B * E ≤ 2147483647)
    (hconv : conv (some p) m = .ok (some (m.next + 2), convMem m b S L B dt E v w)) :
    ∃ m', (do
      let res ← conv (some p)
      hyper_mat_copy_to res (some p)
      delete_hyper_mat res : M Unit) m = .ok ((), m') ∧
      IsCube m' p b S L B dt E v w ∧ Changed m m' p := by
  obtain ⟨m', hrun, hcube, hunch, hwf⟩ := convert_core conv hm hc hN hconv
  refine ⟨m', hrun, hcube, ?_⟩
  obtain ⟨hE, hS, hL, hB, hdr, wb, f, h1, h2, h3, h4, h5, h6, h7, h8, h9, h10, h11⟩ := hc
  rw [bytes_iff] at h9 h10
  have l1 := h9.lt_next hm
  have l2 := h10.lt_next hm
  have lp := hdr_lt hm h1
  rw [bind_ok hconv] at hrun
  have hq : (convMem m b S L B dt E v w).hm (m.next + 2) = some (newHdr m S L B dt b.tag) := newCube_hm ..
  have hp' : (convMem m b S L B dt E v w).hm p = some hdr := by
    rw [← h1]; exact newCube_hm_old m (by omega)
  have key := copy_to_run hE hL hB hN hq hp' rfl rfl rfl rfl h2 h3 h4 h5 rfl h7
    (newCube_data m S L B dt _ _ _ _) (newCube_wave m S L B dt _ _ _ _)
    (newCube_holds_old hm h9) (newCube_holds_old hm h10)
    (by simp only [newHdr]; omega) (by omega) (by omega) h8
  rw [bind_ok key] at hrun
  set m2 := copyToMem (convMem m b S L B dt E v w) p hdr wb (S * L * B * E) B (newHdr m S L B dt b.tag).interleave
    (cubeBytes b S L B E v) w with hm2
  have hq2 : m2.hm (m.next + 2) = some (newHdr m S L B dt b.tag) := by
    rw [hm2]; unfold copyToMem
    rw [withH_hm_ne _ _ (by omega)]; exact hq
  rw [delete_run hq2] at hrun
  have hrun : delMem m2 (m.next + 2) (newHdr m S L B dt b.tag) = m' := by
    have := Except.ok.inj hrun
    exact (Prod.mk.inj this).2
  have hhm : m'.hm p = some { hdr with interleave := (newHdr m S L B dt b.tag).interleave } := by
    rw [← hrun]
    show (if p = m.next + 2 then none else m2.hm p) = _
    rw [if_neg (by omega), hm2]
    exact withH_hm_self _ _ _
  refine ⟨hwf, ?_, hunch, ⟨hdr, _, h1, hhm, rfl, rfl⟩, ?_, ?_, ?_, by rw [← hrun]; rfl, by rw [← hrun]; rfl⟩
  · rw [← hrun]
    show m.next ≤ m.next + 3
    omega
  · intro x hx
    by_cases ho : Owns m p x
    · rcases ho with rfl | ⟨hdr', e1, e2⟩
      · by_cases e : x = hdr.data
        · rw [e, h9]; simp
        by_cases e' : x = wb
        · rw [e', h10]; simp
        rw [← hrun] at hx
        have hx : (if x = m.next ∨ some x = some (m.next + 1) then none else m2.blk x) ≠ none := hx
        rw [if_neg (by simp; omega), hm2, copyToMem_blk_unchanged e e'] at hx
        unfold convMem at hx
        rwa [newCube_blk_old m lp] at hx
      · rw [h1] at e1
        cases e1
        rcases e2 with rfl | e2
        · rw [h9]; simp
        · rw [h7] at e2; cases e2; rw [h10]; simp
    · rwa [(hunch x ho).1] at hx
  · intro x hx
    by_cases e : x = p
    · rw [e, h1]; simp
    rw [← hrun] at hx
    have hx : (if x = m.next + 2 then none else m2.hm x) ≠ none := hx
    split at hx
    · exact absurd rfl hx
    · rename_i ne
      rw [hm2] at hx
      unfold copyToMem at hx
      rw [withH_hm_ne _ _ e] at hx
      have hx : (convMem m b S L B dt E v w).hm x ≠ none := hx
      unfold convMem at hx
      rwa [newCube_hm_old m ne] at hx
  · rw [← hrun]; rfl

theorem convert2Shape_changed {p S L B E : Nat} {dt : Int} {v : Nat → Nat → Nat → Nat → UInt8} {w : Nat → UInt8} {t a b c : Layout}
    {ca cb : Option Nat → M (Option Nat)} (hm : m.WF)
    (hall : c = t ∨ c = a ∨ c = b) (hat : a ≠ t) (hbt : b ≠ t) (hab : b ≠ a)
    (hc : IsCube m p c S L B dt E v w) (hN : S * L * B * E ≤ 2147483647)
    (ha : c = a → ca (some p) m = .ok (some (m.next + 2), convMem m t S L B dt E v w))
    (hb : c = b → cb (some p) m = .ok (some (m.next + 2), convMem m t S L B dt E v w)) :
    ∃ m', convert2Shape t a b ca cb (some p) m = .ok ((), m') ∧ IsCube m' p t S L B dt E v w ∧ Changed m m' p := by
  obtain ⟨hdr, hp⟩ := cube_hdr hc
  unfold convert2Shape
  rw [nonNull_some, bind_ok (getH_ok hp)]
  rcases hall with h | h | h
  · rw [if_pos ((cube_tag_test hc hp).2 h)]
    exact ⟨m, rfl, h ▸ hc, Changed.refl hm hp⟩
  · rw [if_neg (by rw [cube_tag_test hc hp, h]; exact hat), if_pos ((cube_tag_test hc hp).2 h)]
    exact convert_changed ca hm hc hN (ha h)
  · rw [if_neg (by rw [cube_tag_test hc hp, h]; exact hbt), if_neg (by rw [cube_tag_test hc hp, h]; exact hab),
      if_pos ((cube_tag_test hc hp).2 h)]
    exact convert_changed cb hm hc hN (hb h)

theorem conversionIn_run {p S L B E : Nat} {dt : Int} {v : Nat → Nat → Nat → Nat → UInt8} {w : Nat → UInt8} {c t : Layout} (hm : m.WF)
    (hc : IsCube m p c S L B dt E v w) (hN : S * L * B * E ≤ 2147483647) (hW : 4 * B ≤ 2147483647) :
    ∃ m', conversionIn t (some p) m = .ok ((), m') ∧ IsCube m' p t S L B dt E v w ∧ Changed m m' p := by
  cases t
  · show ∃ m', convert2bsq (some p) m = _ ∧ _
    rw [convert2bsq_eq]
    refine convert2Shape_changed hm (by cases c <;> simp) (by decide) (by decide) (by decide) hc hN ?_ ?_
    · intro h; exact bil2bsq_run hm (h ▸ hc) hN hW
    · intro h; exact bip2bsq_run hm (h ▸ hc) hN hW
  · show ∃ m', convert2bil (some p) m = _ ∧ _
    rw [convert2bil_eq]
    refine convert2Shape_changed hm (by cases c <;> simp) (by decide) (by decide) (by decide) hc hN ?_ ?_
    · intro h; exact bsq2bil_run hm (h ▸ hc) hN hW
    · intro h; exact bip2bil_run hm (h ▸ hc) hN hW
  · show ∃ m', convert2bip (some p) m = _ ∧ _
    rw [convert2bip_eq]
    refine convert2Shape_changed hm (by cases c <;> simp) (by decide) (by decide) (by decide) hc hN ?_ ?_
    · intro h; exact bil2bip_run hm (h ▸ hc) hN hW
    · intro h; exact bsq2bip_run hm (h ▸ hc) hN hW

/-- the parts of a cube with a value -/
theorem value_parts {p : Nat} {c : CubeVal} (h : HasValue m p c) : ∃ hdr wb f,
    m.hm p = some hdr ∧ hdr.samples = c.S ∧ hdr.lines = c.L ∧ hdr.bands = c.B ∧ hdr.data_type = c.dt ∧ hdr.interleave = c.lay.tag ∧
    hdr.wavelength = some wb ∧ hdr.data ≠ wb ∧ Holds m hdr.data (c.S * c.L * c.B * c.E) f ∧
    Holds m wb (4 * c.B) (fun t => leByte (c.wave (t / 4)) (t % 4)) ∧
    ∀ i j k t, i < c.L → j < c.S → k < c.B → t < c.E → f (c.lay.pos c.S c.L c.B i j k * c.E + t) = leByte (c.elem i j k) t := by
  obtain ⟨hdr, wb, f, h1, h2, h3, h4, h5, h6, h7, h8, h9, h10, h11⟩ := h.1.1.obj
  rw [bytes_iff] at h9 h10
  exact ⟨hdr, wb, f, h1, h2, h3, h4, h5, h6, h7, h8, h9, h10, h11⟩

/-- copying a cube into another one of the same shape -/
theorem copyTo_step {p q : Nat} {c d : CubeVal} (hm : m.WF) (hp : HasValue m p c) (hq : HasValue m q d) (hs : Separate m p q)
    (e1 : c.S = d.S) (e2 : c.L = d.L) (e3 : c.B = d.B) (e4 : c.dt = d.dt) :
    ∃ m', hyper_mat_copy_to (some p) (some q) m = .ok ((), m') ∧ HasValue m' q c ∧ Changed m m' q := by
  obtain ⟨s, sw, f, h1, h2, h3, h4, h5, h6, h7, h8, h9, h10, h11⟩ := value_parts hp
  obtain ⟨t, tw, g, k1, k2, k3, k4, k5, k6, k7, k8, k9, k10, k11⟩ := value_parts hq
  have hE := hp.1.1.size
  have eE : c.E = d.E := by
    have := hq.1.1.size
    rw [← e4, hE] at this
    exact Option.some.inj this
  rw [← e1] at k2
  rw [← e2] at k3
  rw [← e3] at k4
  rw [← e4] at k5
  rw [← e1, ← e2, ← e3, ← eE] at k9
  rw [← e3] at k10
  have own : ∀ x y, Owns m p x → Owns m q y → x ≠ y := by
    rintro x _ hx hy rfl
    exact hs x ⟨hx, hy⟩
  have op1 : Owns m p s.data := Or.inr ⟨s, h1, Or.inl rfl⟩
  have op2 : Owns m p sw := Or.inr ⟨s, h1, Or.inr h7⟩
  have oq1 : Owns m q t.data := Or.inr ⟨t, k1, Or.inl rfl⟩
  have oq2 : Owns m q tw := Or.inr ⟨t, k1, Or.inr k7⟩
  have key := copy_to_run hE hp.1.1.posL hp.1.1.posB hp.2.2.1 h1 k1 h2 h3 h4 h5 k2 k3 k4 k5 h7 k7 h9 h10 k9 k10
    (own _ _ op1 oq1) (own _ _ op2 oq2) (own _ _ op2 oq1) k8
  refine ⟨_, key, ⟨⟨?_, hp.1.2⟩, hp.2⟩, changed_copyTo hm k1 k7 k9 k10 k8⟩
  rw [h6]
  exact copyToMem_isCube hE hp.1.1.posS hp.1.1.posL hp.1.1.posB k2 k3 k4 k5 k7 k8 h11

theorem copyWaves_step {p q : Nat} {c d : CubeVal} (hm : m.WF) (hp : HasValue m p c) (hq : HasValue m q d) (hs : Separate m p q)
    (e3 : c.B = d.B) :
    ∃ m', hyper_mat_copy_wavelength (some p) (some q) m = .ok ((), m') ∧ HasValue m' q { d with wave := c.wave } ∧ Changed m m' q := by
  obtain ⟨s, sw, f, h1, h2, h3, h4, h5, h6, h7, h8, h9, h10, h11⟩ := value_parts hp
  obtain ⟨t, tw, g, k1, k2, k3, k4, k5, k6, k7, k8, k9, k10, k11⟩ := value_parts hq
  rw [e3] at h4 h10
  have n2 : sw ≠ tw := by
    rintro rfl
    exact hs sw ⟨Or.inr ⟨s, h1, Or.inr h7⟩, Or.inr ⟨t, k1, Or.inr k7⟩⟩
  have hrun : hyper_mat_copy_wavelength (some p) (some q) m
      = .ok ((), m.put tw (4 * d.B) (fun t => leByte (c.wave (t / 4)) (t % 4))) := by
    unfold hyper_mat_copy_wavelength
    simp only [ne_eq, reduceCtorEq, not_false_eq_true, and_self, decide_true, cassert_bind_true]
    rw [bind_ok (show derefH (some p) _ = _ from getH_ok h1), bind_ok (show derefH (some q) _ = _ from getH_ok k1)]
    rw [h4, k4, h7, k7]
    simp only [decide_true, cassert_bind_true]
    have key := memcpy_ok (doff := 0) (soff := 0) (k := 4 * d.B) h10 k10 n2 (by omega) (by omega)
    have e : ((d.B : Int) * 4) = ((4 * d.B : Nat) : Int) := by push_cast; ring
    rw [e]
    simp only [Int.natCast_zero] at key
    rw [key]
    refine congrArg (fun x => Except.ok ((), x)) ?_
    apply put_congr; intro i hi; simp [hi]
  refine ⟨_, hrun, ⟨⟨?_, hq.1.2⟩, ?_, hq.2.2⟩, changed_put hm k1 k10 (Or.inr ⟨t, k1, Or.inr k7⟩)⟩
  · refine ⟨hq.1.1.size, hq.1.1.posS, hq.1.1.posL, hq.1.1.posB, t, tw, g, k1, k2, k3, k4, k5, k6, k7, k8, ?_, ?_, k11⟩
    · rw [bytes_iff]; exact k9.put_ne k8
    · rw [bytes_iff]; exact holds_put _ _ _ _
  · intro k hk
    exact hp.2.1 k (by rw [e3]; exact hk)

theorem user_order {h : HyperMat} {lay : Layout} (hl : h.interleave = lay.tag) : userOrder h = lay := by
  unfold userOrder HyperMat.tagMem
  rw [hl]
  simp only [cmpstr_tag_tag]
  cases lay <;> simp

theorem user_index {h : HyperMat} {c : CubeVal} (h2 : h.samples = c.S) (h3 : h.lines = c.L) (h4 : h.bands = c.B) (h6 : h.interleave = c.lay.tag)
    (i j k : Nat) : userIndex h i j k = c.lay.pos c.S c.L c.B i j k := by
  unfold userIndex
  rw [user_order h6, h2, h3, h4]
  rfl

theorem read_step {p i j k : Nat} {c : CubeVal} (hp : HasValue m p c) (hi : i < c.L) (hj : j < c.S) (hk : k < c.B) :
    (do
      let h ← derefH (some p)
      let v ← loadN (get_elemsize h.data_type).toNat h.data (userIndex h i j k)
      pure (env, [v]) : M (List (Option Nat) × List Nat)) m = .ok ((env, [c.elem i j k]), m) := by
  obtain ⟨s, sw, f, h1, h2, h3, h4, h5, h6, h7, h8, h9, h10, h11⟩ := value_parts hp
  obtain ⟨e1, e2, e3⟩ := get_elemsize_eq hp.1.1.size
  rw [bind_ok (show derefH (some p) _ = _ from getH_ok h1)]
  rw [user_index h2 h3 h4 h6, h5, e1, Int.toNat_natCast]
  rw [bind_ok (loadN_val h9 (byte_lt c.lay hi hj hk) (fun t ht => h11 i j k t hi hj hk ht) (hp.1.2 i j k hi hj hk))]
  rfl

theorem wave_at {B k t : Nat} {wv : Nat → Nat} (ht : t < 4) : leByte (wv ((k * 4 + t) / 4)) ((k * 4 + t) % 4) = leByte (wv k) t := by
  rw [show (k * 4 + t) / 4 = k by omega, show (k * 4 + t) % 4 = t by omega]

theorem readWave_step {p k : Nat} {c : CubeVal} (hp : HasValue m p c) (hk : k < c.B) :
    (do
      let h ← derefH (some p)
      let w ← nonNull h.wavelength
      let v ← loadN 4 w k
      pure (env, [v]) : M (List (Option Nat) × List Nat)) m = .ok ((env, [c.wave k]), m) := by
  obtain ⟨s, sw, f, h1, h2, h3, h4, h5, h6, h7, h8, h9, h10, h11⟩ := value_parts hp
  rw [bind_ok (show derefH (some p) _ = _ from getH_ok h1), h7, nonNull_some]
  rw [bind_ok (loadN_val h10 (by omega) (fun t ht => wave_at (B := c.B) ht) (hp.2.1 k hk))]
  rfl

theorem pos_inj (lay : Layout) {S L B i j k i' j' k' : Nat} (hi : i < L) (hj : j < S) (hk : k < B) (hi' : i' < L) (hj' : j' < S) (hk' : k' < B)
    (h : lay.pos S L B i j k = lay.pos S L B i' j' k') : i = i' ∧ j = j' ∧ k = k' := by
  have h1 := unpos_pos lay hi hj hk
  rw [h, unpos_pos lay hi' hj' hk'] at h1
  simp only [Prod.mk.injEq] at h1
  exact ⟨h1.1.symm, h1.2.1.symm, h1.2.2.symm⟩

/-- storing an element changes its bytes only -/
theorem storeN_bytes {d N w i v : Nat} {f : Nat → UInt8} (hd : Holds m d N f) (hi : i * w + w ≤ N) :
    ∃ g : Nat → UInt8, storeN w d (i : Int) v m = .ok ((), m.put d N g) ∧
      (∀ x, i * w ≤ x ∧ x < i * w + w → g x = leByte v (x - i * w)) ∧ ∀ x, ¬ (i * w ≤ x ∧ x < i * w + w) → g x = f x := by
  refine ⟨_, (storeN_fills (m := m) (d := d) (new := fun x => leByte v (x - i * w)) hi (by
      intro t ht
      show leByte v (_ - _) = _
      rw [Nat.add_sub_cancel_left])).run hd, ?_, ?_⟩
  · intro x hx
    rw [if_pos hx]
  · intro x hx
    rw [if_neg hx]

theorem write_step {p i j k v : Nat} {c : CubeVal} (hm : m.WF) (hp : HasValue m p c) (hi : i < c.L) (hj : j < c.S) (hk : k < c.B) (hv : v < 256 ^ c.E) :
    ∃ m', (do
      let h ← derefH (some p)
      storeN (get_elemsize h.data_type).toNat h.data (userIndex h i j k) v
      pure (env, []) : M (List (Option Nat) × List Nat)) m = .ok ((env, []), m') ∧
      HasValue m' p { c with elem := fun i' j' k' => if i' = i ∧ j' = j ∧ k' = k then v else c.elem i' j' k' } ∧ Changed m m' p := by
  obtain ⟨s, sw, f, h1, h2, h3, h4, h5, h6, h7, h8, h9, h10, h11⟩ := value_parts hp
  obtain ⟨e1, e2, e3⟩ := get_elemsize_eq hp.1.1.size
  obtain ⟨g, run, new, old⟩ := storeN_bytes (v := v) h9 (byte_lt c.lay hi hj hk)
  refine ⟨m.put s.data (c.S * c.L * c.B * c.E) g, ?_, ⟨⟨?_, ?_⟩, hp.2⟩, changed_put hm h1 h9 (Or.inr ⟨s, h1, Or.inl rfl⟩)⟩
  · rw [bind_ok (show derefH (some p) _ = _ from getH_ok h1)]
    rw [user_index h2 h3 h4 h6, h5, e1, Int.toNat_natCast, bind_ok run]
    rfl
  · refine ⟨hp.1.1.size, hp.1.1.posS, hp.1.1.posL, hp.1.1.posB, s, sw, g, h1, h2, h3, h4, h5, h6, h7, h8,
      bytes_iff.2 (holds_put _ _ _ _), ?_, ?_⟩
    · rw [bytes_iff]; exact h10.put_ne (Ne.symm h8)
    · intro i' j' k' t hi' hj' hk' ht
      dsimp only at hi' hj' hk' ht ⊢
      by_cases e : i' = i ∧ j' = j ∧ k' = k
      · obtain ⟨rfl, rfl, rfl⟩ := e
        rw [new _ ⟨by omega, by omega⟩, if_pos ⟨rfl, rfl, rfl⟩, Nat.add_sub_cancel_left]
      · rw [if_neg e, old, h11 i' j' k' t hi' hj' hk' ht]
        rintro ⟨b1, b2⟩
        refine e (pos_inj c.lay hi' hj' hk' hi hj hk ?_)
        have d1 : (c.lay.pos c.S c.L c.B i' j' k' * c.E + t) / c.E = c.lay.pos c.S c.L c.B i' j' k' := mix_div ht
        have d2 : (c.lay.pos c.S c.L c.B i' j' k' * c.E + t) / c.E = c.lay.pos c.S c.L c.B i j k :=
          Nat.div_eq_of_lt_le b1 (by rw [Nat.succ_mul]; exact b2)
        rw [← d1, d2]
  · intro i' j' k' hi' hj' hk'
    dsimp only
    split
    · exact hv
    · exact hp.1.2 i' j' k' hi' hj' hk'

theorem writeWave_step {p k v : Nat} {c : CubeVal} (hm : m.WF) (hp : HasValue m p c) (hk : k < c.B) (hv : v < 256 ^ 4) :
    ∃ m', (do
      let h ← derefH (some p)
      let w ← nonNull h.wavelength
      storeN 4 w k v
      pure (env, []) : M (List (Option Nat) × List Nat)) m = .ok ((env, []), m') ∧
      HasValue m' p { c with wave := fun k' => if k' = k then v else c.wave k' } ∧ Changed m m' p := by
  obtain ⟨s, sw, f, h1, h2, h3, h4, h5, h6, h7, h8, h9, h10, h11⟩ := value_parts hp
  obtain ⟨g, run, new, old⟩ := storeN_bytes (i := k) (w := 4) (v := v) h10 (by omega)
  refine ⟨m.put sw (4 * c.B) g, ?_, ⟨⟨?_, hp.1.2⟩, ?_, hp.2.2⟩, changed_put hm h1 h10 (Or.inr ⟨s, h1, Or.inr h7⟩)⟩
  · rw [bind_ok (show derefH (some p) _ = _ from getH_ok h1), h7, nonNull_some, bind_ok run]
    rfl
  · refine ⟨hp.1.1.size, hp.1.1.posS, hp.1.1.posL, hp.1.1.posB, s, sw, f, h1, h2, h3, h4, h5, h6, h7, h8, ?_, ?_, h11⟩
    · rw [bytes_iff]; exact h9.put_ne h8
    · rw [bytes_iff]
      refine (holds_put m sw _ _).congr ?_
      intro t ht
      dsimp only
      by_cases e : t / 4 = k
      · rw [new _ ⟨by omega, by omega⟩, if_pos e, show t - k * 4 = t % 4 by omega]
      · rw [old _ (by omega), if_neg e]
  · intro k' hk'
    dsimp only
    split
    · exact hv
    · exact hp.2.1 k' hk'

/-! ### One operation, and all -/

theorem exec_step (hr : Represents others m0 m env st) {op : CubeOp} {st' : Store} {out : List Nat} (hs : op.step st = some (st', out)) :
    ∃ env' m', exec env op m = .ok ((env', out), m') ∧ Represents others m0 m' env' st' := by
  cases op with
  | create S L B dt lay =>
    simp only [CubeOp.step] at hs
    cases hE : elemBytes dt with
    | none => rw [hE] at hs; cases hs
    | some E =>
      rw [hE] at hs
      simp only [Option.bind_eq_bind, Option.bind_some] at hs
      split at hs
      · rename_i hc
        obtain ⟨hS, hL, hB, hf⟩ := hc
        cases hs
        refine ⟨_, _, bind_ok (create_value hr.wf hS hL hB hE hf.1 hf.2), ?_⟩
        refine represents_conv (c := ⟨S, L, B, dt, E, lay, fun _ _ _ => 0, fun _ => 0⟩) hr (convMem_value hS hL hB hE ?_ ?_ ?_ ?_ hf)
        · intro i j k t _ _ _ _
          exact (leByte_zero_all t).symm
        · intro t _
          exact (leByte_zero_all _).symm
        · intro i j k _ _ _
          exact Nat.pow_pos (by omega)
        · intro k _
          exact Nat.pow_pos (by omega)
      · cases hs
  | convert x a t =>
    simp only [CubeOp.step] at hs
    cases hx : st.get x with
    | none => rw [hx] at hs; cases hs
    | some c =>
      rw [hx] at hs
      simp only [Option.bind_eq_bind, Option.bind_some] at hs
      split at hs
      · rename_i hc
        obtain ⟨rfl, hne⟩ := hc
        cases hs
        obtain ⟨p, hp, hv, ho⟩ := hr.cube x c hx
        refine ⟨_, _, bind_ok (by rw [ptr_some hp]; exact conversion_run hne hr.wf hv.1.1 hv.2.2.1 hv.2.2.2), ?_⟩
        exact represents_conv (c := { c with lay := t }) hr (convMem_value hv.1.1.posS hv.1.1.posL hv.1.1.posB hv.1.1.size
          (fun _ _ _ _ _ _ _ _ => rfl) (fun _ _ => rfl) hv.1.2 hv.2.1 hv.2.2)
      · cases hs
  | range x i j k l s b =>
    simp only [CubeOp.step] at hs
    cases hx : st.get x with
    | none => rw [hx] at hs; cases hs
    | some c =>
      rw [hx] at hs
      simp only [Option.bind_eq_bind, Option.bind_some] at hs
      split at hs
      · rename_i hc
        obtain ⟨l0, s0, b0, hl, hs', hb⟩ := hc
        cases hs
        obtain ⟨p, hp, hv, ho⟩ := hr.cube x c hx
        have run := get_range_run hr.wf hv.1.1 hv.2.2.1 hv.2.2.2 l0 s0 b0 hl hs' hb
        refine ⟨_, _, bind_ok (by rw [ptr_some hp, Nat.cast_add, Nat.cast_add, Nat.cast_add]; exact run), ?_⟩
        refine represents_conv (c := { c with S := s, L := l, B := b, elem := fun i' j' k' => c.elem (i + i') (j + j') (k + k'), wave := fun k' => c.wave (k + k') })
          hr (convMem_value s0 l0 b0 hv.1.1.size ?_ ?_ ?_ ?_ ?_)
        · exact fun _ _ _ _ _ _ _ _ => rfl
        · intro t _
          show leByte (c.wave ((4 * k + t) / 4)) ((4 * k + t) % 4) = leByte (c.wave (k + t / 4)) (t % 4)
          rw [show (4 * k + t) / 4 = k + t / 4 by omega, show (4 * k + t) % 4 = t % 4 by omega]
        · intro i' j' k' h1 h2 h3
          dsimp only at h1 h2 h3
          exact hv.1.2 _ _ _ (by omega) (by omega) (by omega)
        · intro k' h3
          dsimp only at h3
          exact hv.2.1 _ (by omega)
        · refine ⟨le_trans ?_ hv.2.2.1, ?_⟩
          · exact Nat.mul_le_mul_right _ (Nat.mul_le_mul (Nat.mul_le_mul (by dsimp only; omega) (by dsimp only; omega)) (by dsimp only; omega))
          · have := hv.2.2.2
            dsimp only
            omega
      · cases hs
  | convertIn x t =>
    simp only [CubeOp.step] at hs
    cases hx : st.get x with
    | none => rw [hx] at hs; cases hs
    | some c =>
      rw [hx] at hs
      cases hs
      obtain ⟨p, hp, hv, ho⟩ := hr.cube x c hx
      obtain ⟨m', run, hc, hch⟩ := conversionIn_run (t := t) hr.wf hv.1.1 hv.2.2.1 hv.2.2.2
      exact ⟨_, _, bind_ok (by rw [ptr_some hp]; exact run), represents_change hr hx hp hch ⟨⟨hc, hv.1.2⟩, hv.2⟩⟩
  | copyTo x y =>
    simp only [CubeOp.step] at hs
    cases hx : st.get x with
    | none => rw [hx] at hs; cases hs
    | some c =>
      cases hy : st.get y with
      | none => rw [hx, hy] at hs; cases hs
      | some d =>
        rw [hx, hy] at hs
        simp only [Option.bind_eq_bind, Option.bind_some] at hs
        split at hs
        · rename_i hc
          obtain ⟨hne, e1, e2, e3, e4⟩ := hc
          cases hs
          obtain ⟨p, hp, hv, ho⟩ := hr.cube x c hx
          obtain ⟨q, hq, hv', ho'⟩ := hr.cube y d hy
          obtain ⟨m', run, hc, hch⟩ := copyTo_step hr.wf hv hv' (hr.apart x y c d p q hne hx hy hp hq) e1 e2 e3 e4
          exact ⟨_, _, bind_ok (by rw [ptr_some hp, ptr_some hq]; exact run), represents_change hr hy hq hch hc⟩
        · cases hs
  | copyWaves x y =>
    simp only [CubeOp.step] at hs
    cases hx : st.get x with
    | none => rw [hx] at hs; cases hs
    | some c =>
      cases hy : st.get y with
      | none => rw [hx, hy] at hs; cases hs
      | some d =>
        rw [hx, hy] at hs
        simp only [Option.bind_eq_bind, Option.bind_some] at hs
        split at hs
        · rename_i hc
          obtain ⟨hne, e3⟩ := hc
          cases hs
          obtain ⟨p, hp, hv, ho⟩ := hr.cube x c hx
          obtain ⟨q, hq, hv', ho'⟩ := hr.cube y d hy
          obtain ⟨m', run, hc, hch⟩ := copyWaves_step hr.wf hv hv' (hr.apart x y c d p q hne hx hy hp hq) e3
          exact ⟨_, _, bind_ok (by rw [ptr_some hp, ptr_some hq]; exact run), represents_change hr hy hq hch hc⟩
        · cases hs
  | write x i j k v =>
    simp only [CubeOp.step] at hs
    cases hx : st.get x with
    | none => rw [hx] at hs; cases hs
    | some c =>
      rw [hx] at hs
      simp only [Option.bind_eq_bind, Option.bind_some] at hs
      split at hs
      · rename_i hc
        obtain ⟨hi, hj, hk, hv⟩ := hc
        cases hs
        obtain ⟨p, hp, hval, ho⟩ := hr.cube x c hx
        obtain ⟨m', run, hc, hch⟩ := write_step (env := env) hr.wf hval hi hj hk hv
        exact ⟨_, _, by simp only [exec, ptr_some hp]; exact run, represents_change hr hx hp hch hc⟩
      · cases hs
  | writeWave x k v =>
    simp only [CubeOp.step] at hs
    cases hx : st.get x with
    | none => rw [hx] at hs; cases hs
    | some c =>
      rw [hx] at hs
      simp only [Option.bind_eq_bind, Option.bind_some] at hs
      split at hs
      · rename_i hc
        obtain ⟨hk, hv⟩ := hc
        cases hs
        obtain ⟨p, hp, hval, ho⟩ := hr.cube x c hx
        obtain ⟨m', run, hc, hch⟩ := writeWave_step (env := env) hr.wf hval hk hv
        exact ⟨_, _, by simp only [exec, ptr_some hp]; exact run, represents_change hr hx hp hch hc⟩
      · cases hs
  | read x i j k =>
    simp only [CubeOp.step] at hs
    cases hx : st.get x with
    | none => rw [hx] at hs; cases hs
    | some c =>
      rw [hx] at hs
      simp only [Option.bind_eq_bind, Option.bind_some] at hs
      split at hs
      · rename_i hc
        obtain ⟨hi, hj, hk⟩ := hc
        cases hs
        obtain ⟨p, hp, hval, ho⟩ := hr.cube x c hx
        exact ⟨_, _, by simp only [exec, ptr_some hp]; exact read_step (env := env) hval hi hj hk, hr⟩
      · cases hs
  | readWave x k =>
    simp only [CubeOp.step] at hs
    cases hx : st.get x with
    | none => rw [hx] at hs; cases hs
    | some c =>
      rw [hx] at hs
      simp only [Option.bind_eq_bind, Option.bind_some] at hs
      split at hs
      · rename_i hk
        cases hs
        obtain ⟨p, hp, hval, ho⟩ := hr.cube x c hx
        exact ⟨_, _, by simp only [exec, ptr_some hp]; exact readWave_step (env := env) hval hk, hr⟩
      · cases hs
  | delete x =>
    simp only [CubeOp.step] at hs
    cases hx : st.get x with
    | none => rw [hx] at hs; cases hs
    | some c =>
      rw [hx] at hs
      cases hs
      obtain ⟨p, hp, hval, ho⟩ := hr.cube x c hx
      obtain ⟨hdr, hh⟩ := value_hdr hval
      exact ⟨_, _, bind_ok (by rw [ptr_some hp]; exact delete_run hh), represents_delete hr hx hp hh⟩

theorem execAll_run (ops : List CubeOp) : ∀ {m : Mem} {env : List (Option Nat)} {st st' : Store} {out : List Nat},
    Represents others m0 m env st → meaning st ops = some (st', out) →
    ∃ env' m', execAll env ops m = .ok ((env', out), m') ∧ Represents others m0 m' env' st' := by
  induction ops with
  | nil =>
    intro m env st st' out hr hs
    cases hs
    exact ⟨env, m, rfl, hr⟩
  | cons op ops ih =>
    intro m env st st' out hr hs
    unfold meaning at hs
    cases h1 : op.step st with
    | none => rw [h1] at hs; cases hs
    | some r =>
      obtain ⟨st1, o1⟩ := r
      rw [h1] at hs
      simp only [Option.bind_eq_bind, Option.bind_some] at hs
      cases h2 : meaning st1 ops with
      | none => rw [h2] at hs; cases hs
      | some r =>
        obtain ⟨st2, o2⟩ := r
        rw [h2] at hs
        cases hs
        obtain ⟨env1, m1, run1, hr1⟩ := exec_step hr h1
        obtain ⟨env2, m2, run2, hr2⟩ := ih hr1 h2
        exact ⟨env2, m2, (bind_ok run1).trans ((bind_ok run2).trans rfl), hr2⟩

end HyperCV
