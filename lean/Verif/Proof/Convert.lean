import Verif.Proof.Interleave

namespace HyperCV
open Spec

variable {m : Mem} {p S L B E : Nat} {dt : Int}
  {v : Nat → Nat → Nat → Nat → UInt8} {w : Nat → UInt8}

/-- memory after `hyper_mat_copy_to` -/
def copyToMem (m : Mem) (dp : Nat) (d : HyperMat) (dw N B : Nat) (il : List Char) (f w : Nat → UInt8) : Mem :=
  ((m.put d.data N f).put dw (4 * B) w).withH dp { d with interleave := il }

theorem copy_to_run {sp dp sw dw : Nat} {s d : HyperMat} {f g : Nat → UInt8} {w w' : Nat → UInt8}
    (hE : elemBytes dt = some E) (hL : 0 < L) (hB : 0 < B)
    (hN : S * L * B * E ≤ 2147483647)
    (hs : m.hm sp = some s) (hd : m.hm dp = some d)
    (s1 : s.samples = S) (s2 : s.lines = L) (s3 : s.bands = B) (s4 : s.data_type = dt)
    (d1 : d.samples = S) (d2 : d.lines = L) (d3 : d.bands = B) (d4 : d.data_type = dt)
    (s5 : s.wavelength = some sw) (d5 : d.wavelength = some dw)
    (hsd : Holds m s.data (S * L * B * E) f) (hsw : Holds m sw (4 * B) w)
    (hdd : Holds m d.data (S * L * B * E) g) (hdw : Holds m dw (4 * B) w')
    (n1 : s.data ≠ d.data) (n2 : sw ≠ dw) (n3 : sw ≠ d.data) (n4 : d.data ≠ dw) :
    hyper_mat_copy_to (some sp) (some dp) m
      = .ok ((), copyToMem m dp d dw (S * L * B * E) B s.interleave f w) := by
  obtain ⟨e1, e2, e3⟩ := get_elemsize_eq hE
  unfold hyper_mat_copy_to
  rw [nonNull_some, nonNull_some, bind_ok (getH_ok hs), bind_ok (getH_ok hd)]
  rw [s1, s2, s3, s4, d1, d2, d3, d4, e1]
  simp only [and_self, decide_true, cassert_bind_true]
  rw [ev_bind (size_eval hL hB e2 hN)]
  have key := memcpy_ok (doff := 0) (soff := 0) (k := S * L * B * E) hsd hdd n1 (by omega) (by omega)
  simp only [Int.natCast_zero] at key
  rw [bind_ok key]
  have e0 : m.put d.data (S * L * B * E)
      (fun p => if 0 ≤ p ∧ p < 0 + S * L * B * E then f (0 + (p - 0)) else g p)
      = m.put d.data (S * L * B * E) f := by
    apply put_congr; intro i hi; simp [hi]
  rw [e0]
  have hcw : hyper_mat_copy_wavelength (some sp) (some dp) (m.put d.data (S * L * B * E) f)
      = .ok ((), (m.put d.data (S * L * B * E) f).put dw (4 * B) w) := by
    unfold hyper_mat_copy_wavelength
    have hs' : (m.put d.data (S * L * B * E) f).hm sp = some s := by simpa using hs
    have hd' : (m.put d.data (S * L * B * E) f).hm dp = some d := by simpa using hd
    simp only [ne_eq, reduceCtorEq, not_false_eq_true, and_self, decide_true, cassert_bind_true]
    rw [bind_ok (show derefH (some sp) _ = _ from getH_ok hs'),
      bind_ok (show derefH (some dp) _ = _ from getH_ok hd')]
    rw [s3, d3, s5, d5]
    simp only [decide_true, cassert_bind_true]
    have key := memcpy_ok (doff := 0) (soff := 0) (k := 4 * B)
      (hsw.put_ne (n' := S * L * B * E) (f' := f) n3) (hdw.put_ne (n' := S * L * B * E) (f' := f) (Ne.symm n4)) n2
      (by omega) (by omega)
    have e : ((B : Int) * 4) = ((4 * B : Nat) : Int) := by push_cast; ring
    rw [e]
    simp only [Int.natCast_zero] at key
    rw [key]
    refine congrArg (fun x => Except.ok ((), x)) ?_
    apply put_congr; intro i hi; simp [hi]
  rw [bind_ok hcw]
  have hd' : ((m.put d.data (S * L * B * E) f).put dw (4 * B) w).hm dp = some d := by simpa using hd
  rw [setH_ok hd']
  unfold copyToMem
  rw [← d1, ← d2, ← d3, ← d4]

theorem copyToMem_isCube {dp dw : Nat} {d : HyperMat} {lay : Layout} {f : Nat → UInt8}
    (hE : elemBytes dt = some E) (hS : 0 < S) (hL : 0 < L) (hB : 0 < B)
    (d1 : d.samples = S) (d2 : d.lines = L) (d3 : d.bands = B) (d4 : d.data_type = dt)
    (d5 : d.wavelength = some dw) (n4 : d.data ≠ dw)
    (hv : ∀ i j k t, i < L → j < S → k < B → t < E → f (lay.pos S L B i j k * E + t) = v i j k t) :
    IsCube (copyToMem m dp d dw (S * L * B * E) B lay.tag f w) dp lay S L B dt E v w where
  size := hE
  posS := hS
  posL := hL
  posB := hB
  obj := by
    refine ⟨_, dw, f, withH_hm_self _ _ _, d1, d2, d3, d4, rfl, d5, n4, ?_, ?_, hv⟩
    · rw [bytes_iff]
      exact (holds_put m d.data _ f).put_ne n4
    · rw [bytes_iff]
      exact holds_put _ dw _ w

theorem copyToMem_unchanged {dp dw N : Nat} {d : HyperMat} {il : List Char} {f : Nat → UInt8} {h : Nat}
    (h1 : h ≠ dp) (h2 : h ≠ d.data) (h3 : h ≠ dw) :
    (copyToMem m dp d dw N B il f w).blk h = m.blk h ∧
    (copyToMem m dp d dw N B il f w).hm h = m.hm h ∧
    (copyToMem m dp d dw N B il f w).sm h = m.sm h := by
  unfold copyToMem
  refine ⟨?_, ?_, rfl⟩
  · rw [withH_blk, put_blk_ne _ _ _ h3, put_blk_ne _ _ _ h2]
  · rw [withH_hm_ne _ _ h1]; rfl

theorem copyToMem_blk_unchanged {dp dw N : Nat} {d : HyperMat} {il : List Char} {f : Nat → UInt8} {h : Nat}
    (h2 : h ≠ d.data) (h3 : h ≠ dw) :
    (copyToMem m dp d dw N B il f w).blk h = m.blk h := by
  unfold copyToMem
  rw [withH_blk, put_blk_ne _ _ _ h3, put_blk_ne _ _ _ h2]

/-- deleting a cube: final memory -/
def delMem (m : Mem) (p : Nat) (h : HyperMat) : Mem :=
  { m with
        hm := fun q => if q = p then none else m.hm q
        blk := fun q => if q = h.data ∨ some q = h.wavelength then none else m.blk q }

theorem delete_run {h : HyperMat} (hp : m.hm p = some h) :
    delete_hyper_mat (some p) m = .ok ((), delMem m p h) := by
  unfold delete_hyper_mat
  simp only [hp]
  rfl

/-- the common part of `convert2bsq/bil/bip`: convert, copy back, delete -/
theorem convert_core {a b : Layout} (conv : Option Nat → M (Option Nat)) (hm : m.WF)
    (hc : IsCube m p a S L B dt E v w) (hN : S * L * B * E ≤ 2147483647)
    (hconv : conv (some p) m = .ok (some (m.next + 2), convMem m b S L B dt E v w)) :
    ∃ m', (do
      let res ← conv (some p)
      hyper_mat_copy_to res (some p)
      delete_hyper_mat res : M Unit) m = .ok ((), m') ∧
      IsCube m' p b S L B dt E v w ∧ Unchanged m m' (Owns m p) ∧ m'.WF := by
  obtain ⟨hE, hS, hL, hB, hdr, wb, f, h1, h2, h3, h4, h5, h6, h7, h8, h9, h10, h11⟩ := hc
  rw [bytes_iff] at h9 h10
  have l1 := h9.lt_next hm
  have l2 := h10.lt_next hm
  have lp : p < m.next := by
    by_contra hlt
    have := (hm p (by omega)).2.1
    rw [h1] at this; cases this
  rw [bind_ok hconv]
  have hq : (convMem m b S L B dt E v w).hm (m.next + 2) = some (newHdr m S L B dt b.tag) := newCube_hm ..
  have hp' : (convMem m b S L B dt E v w).hm p = some hdr := by
    rw [← h1]; exact newCube_hm_old m (by omega)
  have key := copy_to_run hE hL hB hN hq hp' rfl rfl rfl rfl h2 h3 h4 h5 rfl h7
    (newCube_data m S L B dt _ _ _ _) (newCube_wave m S L B dt _ _ _ _)
    (newCube_holds_old hm h9) (newCube_holds_old hm h10)
    (by simp only [newHdr]; omega) (by omega) (by omega) h8
  rw [bind_ok key]
  have htag : (newHdr m S L B dt b.tag).interleave = b.tag := by cases b <;> rfl
  rw [htag]
  set m2 := copyToMem (convMem m b S L B dt E v w) p hdr wb (S * L * B * E) B b.tag
    (cubeBytes b S L B E v) w with hm2
  have hq2 : m2.hm (m.next + 2) = some (newHdr m S L B dt b.tag) := by
    rw [hm2]; unfold copyToMem
    rw [withH_hm_ne _ _ (by omega)]; exact hq
  have hblk : ∀ h, h ≠ m.next → h ≠ m.next + 1 →
      (delMem m2 (m.next + 2) (newHdr m S L B dt b.tag)).blk h = m2.blk h := by
    intro h n1 n2
    show (if _ then _ else _) = _
    rw [if_neg]
    simp [newHdr, n1, n2]
  have hhm : ∀ h, h ≠ m.next + 2 →
      (delMem m2 (m.next + 2) (newHdr m S L B dt b.tag)).hm h = m2.hm h := by
    intro h n1
    simp [delMem, n1]
  refine ⟨_, delete_run hq2, ?_, ?_, ?_⟩
  · have hcube : IsCube m2 p b S L B dt E v w :=
      copyToMem_isCube (m := convMem m b S L B dt E v w) hE hS hL hB h2 h3 h4 h5 h7 h8
      (fun i j k t hi hj hk ht => cubeBytes_at b hi hj hk ht)
    refine ⟨hE, hS, hL, hB, ?_⟩
    obtain ⟨hdr', wb', f', g1, g2, g3, g4, g5, g6, g7, g8, g9, g10, g11⟩ := hcube.obj
    have hpm2 : m2.hm p = some { hdr with interleave := b.tag } := by
      rw [hm2]; unfold copyToMem; exact withH_hm_self _ _ _
    rw [hpm2] at g1
    have g1 := Option.some.inj g1
    have e1 : hdr'.data = hdr.data := by rw [← g1]
    have e2 : wb' = wb := by
      have : hdr'.wavelength = hdr.wavelength := by rw [← g1]
      rw [g7, h7] at this; exact Option.some.inj this
    refine ⟨hdr', wb', f', ?_, g2, g3, g4, g5, g6, g7, g8, ?_, ?_, g11⟩
    · rw [hhm p (by omega), hpm2, g1]
    · rw [bytes_iff] at g9 ⊢
      unfold Holds at g9 ⊢
      rw [hblk _ (by omega) (by omega)]; exact g9
    · rw [bytes_iff] at g10 ⊢
      unfold Holds at g10 ⊢
      rw [hblk _ (by omega) (by omega)]; exact g10
  · intro h hno
    unfold Owns at hno
    push Not at hno
    obtain ⟨n1, n2⟩ := hno
    obtain ⟨n3, n4⟩ := n2 hdr h1
    have n5 : h ≠ wb := by intro e; exact n4 (by rw [e]; exact h7)
    obtain ⟨u1, u2, u3⟩ := copyToMem_unchanged (m := convMem m b S L B dt E v w) (B := B) (w := w)
      (N := S * L * B * E) (il := b.tag) (f := cubeBytes b S L B E v) n1 n3 n5
    rw [← hm2] at u1 u2 u3
    refine ⟨?_, ?_, ?_⟩
    · by_cases c1 : h = m.next
      · rw [(hm h (by omega)).1]; subst c1; simp [delMem, newHdr]
      by_cases c2 : h = m.next + 1
      · rw [(hm h (by omega)).1]; subst c2; simp [delMem, newHdr]
      rw [hblk h c1 c2, u1]
      by_cases c3 : h < m.next
      · exact newCube_blk_old m c3
      · rw [(hm h (by omega)).1]
        by_cases c4 : h = m.next + 2
        · subst c4
          unfold convMem Mem.newCube
          rw [growH_blk, grow_blk_ne _ _ _ (by simp), grow_blk_ne _ _ _ (by omega)]
          exact (hm _ (by omega)).1
        · exact (newCube_WF hm (S := S) h (by simp; omega)).1
    · by_cases c1 : h = m.next + 2
      · rw [(hm h (by omega)).2.1]; subst c1; simp [delMem]
      rw [hhm h c1, u2]
      exact newCube_hm_old m c1
    · show m2.sm h = _
      rw [u3]; rfl
  · intro h hh
    have hnext : m2.next = m.next + 3 := rfl
    have hh : m.next + 3 ≤ h := hh
    obtain ⟨w1, w2, w3⟩ := convMem_WF (S := S) (L := L) (B := B) (dt := dt) (E := E) (v := v) (w := w) hm b h hh
    have u := copyToMem_unchanged (m := convMem m b S L B dt E v w) (B := B) (w := w) (dw := wb) (d := hdr) (dp := p)
      (N := S * L * B * E) (il := b.tag) (f := cubeBytes b S L B E v) (h := h) (by omega) (by omega) (by omega)
    rw [← hm2] at u
    refine ⟨?_, ?_, ?_⟩
    · rw [hblk h (by omega) (by omega), u.1, w1]
    · rw [hhm h (by omega), u.2.1, w2]
    · show m2.sm h = _
      rw [u.2.2, w3]

theorem convMem_fresh (m : Mem) (b : Layout) : FreshCube m (convMem m b S L B dt E v w) (m.next + 2) := by
  intro h hh
  rcases hh with rfl | ⟨hdr, h1, h2⟩
  · omega
  · unfold convMem at h1
    rw [newCube_hm] at h1
    have h1 := Option.some.inj h1
    subst h1
    rcases h2 with rfl | h2
    · simp [newHdr]
    · simp only [newHdr, Option.some.injEq] at h2
      omega

theorem isCube_same {m' : Mem} {q : Nat} {a : Layout} (h1 : IsCube m p a S L B dt E v w)
    (h2 : IsCube m' q a S L B dt E v w) : SameCube m p m' q := by
  obtain ⟨hdr, wb, f, a1, a2, a3, a4, a5, a6, a7, a8, a9, a10, a11⟩ := h1.obj
  obtain ⟨hdr', wb', f', b1, b2, b3, b4, b5, b6, b7, b8, b9, b10, b11⟩ := h2.obj
  rw [bytes_iff] at a9 a10 b9 b10
  have hff : ∀ i, i < S * L * B * E → f i = f' i := by
    intro x hx
    obtain ⟨i, j, k, hi, hj, hk, c1, c2⟩ := byte_cover a hx
    have e : x = a.pos S L B i j k * E + (x - a.pos S L B i j k * E) := by omega
    rw [e, a11 i j k _ hi hj hk (by omega), b11 i j k _ hi hj hk (by omega)]
  refine ⟨hdr, hdr', wb, wb', tab (S * L * B * E) f, tab (4 * B) w, a1, b1, ?_⟩
  refine ⟨by rw [a2, b2], by rw [a3, b3], by rw [a4, b4], by rw [a5, b5], by rw [a6, b6], a7, b7, a9, ?_, a10, b10⟩
  rw [tab_congr hff]; exact b9

/-- cubes survive in a frame -/
theorem isCube_frame {m' : Mem} {a : Layout} (hm : m.WF) (h1 : IsCube m p a S L B dt E v w)
    (hf : Frame m m') : IsCube m' p a S L B dt E v w := by
  refine ⟨h1.size, h1.posS, h1.posL, h1.posB, ?_⟩
  obtain ⟨hdr, wb, f, a1, a2, a3, a4, a5, a6, a7, a8, a9, a10, a11⟩ := h1.obj
  have lp : p < m.next := by
    by_contra hlt
    have := (hm p (by omega)).2.1
    rw [a1] at this; cases this
  rw [bytes_iff] at a9 a10
  refine ⟨hdr, wb, f, by rw [(hf p lp).2.1, a1], a2, a3, a4, a5, a6, a7, a8, ?_, ?_, a11⟩
  · rw [bytes_iff]; unfold Holds; rw [(hf _ (a9.lt_next hm)).1]; exact a9
  · rw [bytes_iff]; unfold Holds; rw [(hf _ (a10.lt_next hm)).1]; exact a10

theorem frame_trans {m1 m2 m3 : Mem} (h1 : Frame m1 m2) (h2 : Frame m2 m3) (hn : m1.next ≤ m2.next) :
    Frame m1 m3 := by
  intro h hh
  obtain ⟨a, b, c⟩ := h1 h hh
  obtain ⟨a', b', c'⟩ := h2 h (by omega)
  exact ⟨a'.trans a, b'.trans b, c'.trans c⟩

/-- packaging of a `_run` theorem as the specification -/
theorem converts_of_run {conv : Option Nat → M (Option Nat)} {a b : Layout}
    (h : ∀ {m : Mem} {p S L B E : Nat} {dt : Int} {v : Nat → Nat → Nat → Nat → UInt8} {w : Nat → UInt8},
      m.WF → IsCube m p a S L B dt E v w → S * L * B * E ≤ 2147483647 → 4 * B ≤ 2147483647 →
      conv (some p) m = .ok (some (m.next + 2), convMem m b S L B dt E v w)) :
    Converts conv a b := by
  intro m p S L B dt E v w hm hc hN hW
  exact ⟨m.next + 2, convMem m b S L B dt E v w, h hm hc hN hW, convMem_isCube m b hc,
    convMem_fresh m b, convMem_frame m b, convMem_WF hm b⟩

theorem converts_next {conv : Option Nat → M (Option Nat)} {a b : Layout} (h : Converts conv a b)
    (hm : m.WF) (hc : IsCube m p a S L B dt E v w) (hN : S * L * B * E ≤ 2147483647) (hW : 4 * B ≤ 2147483647)
    {q : Nat} {m' : Mem} (hr : conv (some p) m = .ok (some q, m')) :
    IsCube m' q b S L B dt E v w ∧ FreshCube m m' q ∧ Frame m m' ∧ m'.WF := by
  obtain ⟨q', m'', h1, h2⟩ := h m p S L B dt E v w hm hc hN hW
  rw [hr] at h1
  cases h1
  exact h2

theorem unchanged_refl (m : Mem) (own : Nat → Prop) : Unchanged m m own := fun _ _ => ⟨rfl, rfl, rfl⟩

/-- tests on the tag of a well-formed cube -/
theorem cube_tag_test {a b : Layout} {hdr : HyperMat} (hc : IsCube m p a S L B dt E v w)
    (hp : m.hm p = some hdr) : cmpstr hdr.tagMem b.tag = 1 ↔ a = b := by
  obtain ⟨hdr', wb, f, h1, h2, h3, h4, h5, h6, h7⟩ := hc.obj
  rw [hp] at h1
  have h1 := Option.some.inj h1
  subst h1
  unfold HyperMat.tagMem
  rw [h6, cmpstr_tag_tag]

theorem cube_hdr (hc : IsCube m p a S L B dt E v w) : ∃ hdr, m.hm p = some hdr := by
  obtain ⟨hdr', wb, f, h1, _⟩ := hc.obj
  exact ⟨hdr', h1⟩

/-- shape of `convert2x` with target `t` and the two other layouts `a`, `b` in order of testing -/
def convert2Shape (t a b : Layout) (ca cb : Option Nat → M (Option Nat)) (mat : Option Nat) : M Unit := do
  let p ← nonNull mat
  let h ← getH p
  if cmpstr h.tagMem t.tag = 1 then
    pure ()
  else if cmpstr h.tagMem a.tag = 1 then do
    let res ← ca mat
    hyper_mat_copy_to res mat
    delete_hyper_mat res
  else if cmpstr h.tagMem b.tag = 1 then do
    let res ← cb mat
    hyper_mat_copy_to res mat
    delete_hyper_mat res
  else pure ()

theorem convert2Shape_run {t a b c : Layout} {ca cb : Option Nat → M (Option Nat)} (hm : m.WF)
    (hall : c = t ∨ c = a ∨ c = b) (hat : a ≠ t) (hbt : b ≠ t) (hab : b ≠ a)
    (hc : IsCube m p c S L B dt E v w) (hN : S * L * B * E ≤ 2147483647)
    (ha : c = a → ca (some p) m = .ok (some (m.next + 2), convMem m t S L B dt E v w))
    (hb : c = b → cb (some p) m = .ok (some (m.next + 2), convMem m t S L B dt E v w)) :
    ∃ m', convert2Shape t a b ca cb (some p) m = .ok ((), m') ∧
      IsCube m' p t S L B dt E v w ∧ Unchanged m m' (Owns m p) ∧ m'.WF := by
  obtain ⟨hdr, hp⟩ := cube_hdr hc
  unfold convert2Shape
  rw [nonNull_some, bind_ok (getH_ok hp)]
  rcases hall with h | h | h
  · rw [if_pos ((cube_tag_test hc hp).2 h)]
    exact ⟨m, rfl, h ▸ hc, unchanged_refl _ _, hm⟩
  · rw [if_neg (by rw [cube_tag_test hc hp, h]; exact hat), if_pos ((cube_tag_test hc hp).2 h)]
    exact convert_core ca hm hc hN (ha h)
  · rw [if_neg (by rw [cube_tag_test hc hp, h]; exact hbt), if_neg (by rw [cube_tag_test hc hp, h]; exact hab),
      if_pos ((cube_tag_test hc hp).2 h)]
    exact convert_core cb hm hc hN (hb h)

theorem convert2bsq_eq (mat : Option Nat) :
    convert2bsq mat = convert2Shape .bsq .bil .bip bil2bsq bip2bsq mat := rfl
theorem convert2bil_eq (mat : Option Nat) :
    convert2bil mat = convert2Shape .bil .bsq .bip bsq2bil bip2bil mat := rfl
theorem convert2bip_eq (mat : Option Nat) :
    convert2bip mat = convert2Shape .bip .bil .bsq bil2bip bsq2bip mat := rfl

theorem convert2bsq_run {c : Layout} (hm : m.WF) (hc : IsCube m p c S L B dt E v w)
    (hN : S * L * B * E ≤ 2147483647) (hW : 4 * B ≤ 2147483647) :
    ∃ m', convert2bsq (some p) m = .ok ((), m') ∧
      IsCube m' p .bsq S L B dt E v w ∧ Unchanged m m' (Owns m p) ∧ m'.WF := by
  rw [convert2bsq_eq]
  refine convert2Shape_run hm (by cases c <;> simp) (by decide) (by decide) (by decide) hc hN ?_ ?_
  · intro h; exact bil2bsq_run hm (h ▸ hc) hN hW
  · intro h; exact bip2bsq_run hm (h ▸ hc) hN hW

theorem convert2bil_run {c : Layout} (hm : m.WF) (hc : IsCube m p c S L B dt E v w)
    (hN : S * L * B * E ≤ 2147483647) (hW : 4 * B ≤ 2147483647) :
    ∃ m', convert2bil (some p) m = .ok ((), m') ∧
      IsCube m' p .bil S L B dt E v w ∧ Unchanged m m' (Owns m p) ∧ m'.WF := by
  rw [convert2bil_eq]
  refine convert2Shape_run hm (by cases c <;> simp) (by decide) (by decide) (by decide) hc hN ?_ ?_
  · intro h; exact bsq2bil_run hm (h ▸ hc) hN hW
  · intro h; exact bip2bil_run hm (h ▸ hc) hN hW

theorem convert2bip_run {c : Layout} (hm : m.WF) (hc : IsCube m p c S L B dt E v w)
    (hN : S * L * B * E ≤ 2147483647) (hW : 4 * B ≤ 2147483647) :
    ∃ m', convert2bip (some p) m = .ok ((), m') ∧
      IsCube m' p .bip S L B dt E v w ∧ Unchanged m m' (Owns m p) ∧ m'.WF := by
  rw [convert2bip_eq]
  refine convert2Shape_run hm (by cases c <;> simp) (by decide) (by decide) (by decide) hc hN ?_ ?_
  · intro h; exact bil2bip_run hm (h ▸ hc) hN hW
  · intro h; exact bsq2bip_run hm (h ▸ hc) hN hW

end HyperCV
