import Verif.Proof.SessionImages

namespace HyperCV
open Spec

variable {others : Nat → Prop} {m0 m m' : Mem} {env : List (Option Nat)} {im : Images}

theorem image_size {p : Nat} {c : ImgVal} (h : HasImage m p c) : c.R * c.C ≤ 2147483551 := by
  have h1 := h.2.2.1
  obtain ⟨e1, e2, e3⟩ := get_elemsize_eq h.1.size
  unfold ImgVal.Fits at h1
  have : c.R * c.C ≤ c.R * c.C * c.E := Nat.le_mul_of_pos_right _ e2
  omega

theorem transpose_step {p q : Nat} {c d : ImgVal} (hc : HasImage m p c) (hd : HasImage m q d) (hs : SepPixels m p q) (e1 : d.R = c.C) (e2 : d.C = c.R)
    (e3 : d.dt = c.dt) :
    ∃ m', simple_mat_transport (some q) (some p) m = .ok ((), m') ∧ HasImage m' q { d with px := fun i j => c.px j i } ∧ OnlyPixels m m' q := by
  obtain ⟨R, C, dt, E, px⟩ := c
  obtain ⟨R', C', dt', E', px'⟩ := d
  simp only at e1 e2 e3
  subst e1 e2 e3
  have hE : E' = E := by
    have h1 := hc.1.size
    have h2 := hd.1.size
    simp only at h1 h2
    rw [h1] at h2
    exact (Option.some.inj h2).symm
  subst hE
  have hN : C' * R' * E' ≤ 2147483551 := hc.2.2.1
  obtain ⟨m', run, k1, k2⟩ := transport_run hd.1 hc.1 hs (by simp only; omega)
  exact ⟨m', run, ⟨k1, fun i j hi hj => hc.2.1 j i hj hi, hd.2.2.1, inl_only hd k2⟩, k2⟩

theorem toNat_ofNat_lt {n : Nat} (h : n < 256) : (UInt8.ofNat n).toNat = n := by
  rw [UInt8.toNat_ofNat']
  exact Nat.mod_eq_of_lt h

theorem flip_step {p q : Nat} {c d : ImgVal} {code : Int} (hm : m.WF) (ha : ∀ h, m.addr h % 16 = 0 ∧ m.addr h % 64 ≠ 48) (hc : HasImage m p c)
    (hd : HasImage m q d) (hcode : code = 1 ∨ code = 0 ∨ code = -1)
    (hs : SepPixels m p q ∨ code = -1) (e1 : d.R = c.R) (e2 : d.C = c.C) (e3 : c.dt = 1) (e4 : d.dt = 1) :
    ∃ m', simple_mat_flip (some p) (some q) code m = .ok ((), m') ∧
      HasImage m' q { d with px := fun i j => c.px (mirror code c.R c.C i j).1 (mirror code c.R c.C i j).2 } ∧ OnlyPixels m m' q ∧ m'.addr = m.addr := by
  obtain ⟨R, C, dt, E, px⟩ := c
  obtain ⟨R', C', dt', E', px'⟩ := d
  simp only at e1 e2 e3 e4
  subst e1 e2 e3 e4
  obtain ⟨f1, f2⟩ := hasImage8 hc rfl
  obtain ⟨g1, g2⟩ := hasImage8 hd rfl
  have hN := image_size hc
  simp only at f1 f2 g1 g2 hN
  subst f1 g1
  have small : ∀ i j, i < R' → j < C' → px i j < 256 := by
    intro i j hi hj
    have := hc.2.1 i j hi hj
    simpa using this
  by_cases e : code = -1
  · subst e
    obtain ⟨m', run, k1, k2, k3⟩ := flip_all_run hm f2 g2 (by omega) (ha _).1 (ha _).2
    refine ⟨m', run, hasImage_of8 rfl rfl hd.2.2.1 k1 ?_ (inl_only hd k2), k2, k3⟩
    intro i j hi hj
    simp only at hi hj ⊢
    rw [toNat_ofNat_lt (small _ _ (by omega) (by omega))]
    rfl
  · have h2 : code = 1 ∨ code = 0 := by tauto
    obtain ⟨m', run, k1, _, k2⟩ := C20_flip_single h2 f2 g2 (by tauto) (by omega)
    refine ⟨m', run, hasImage_of8 rfl rfl hd.2.2.1 k1 ?_ (inl_only hd k2), k2, (flip_oracles _ _ _ _ _ _ run).1⟩
    intro i j hi hj
    simp only at hi hj ⊢
    rcases h2 with rfl | rfl
    · unfold flipped mirror
      simp only [if_true]
      rw [if_neg (by decide), if_neg (by decide), toNat_ofNat_lt (small _ _ (by omega) (by omega))]
    · unfold flipped mirror
      simp only [if_true]
      rw [if_neg (by decide), toNat_ofNat_lt (small _ _ (by omega) (by omega))]

theorem threshold_step {p q : Nat} {c d : ImgVal} {mode : Int} (t x : Int) (hc : HasImage m p c) (hd : HasImage m q d) (hmode : 0 ≤ mode ∧ mode ≤ 4)
    (e1 : d.R = c.R) (e2 : d.C = c.C) (e3 : c.dt = 1) (e4 : d.dt = 1) :
    ∃ m', hypercv_threshold (some p) (some q) t x mode m = .ok ((), m') ∧
      HasImage m' q { d with px := fun i j => cut mode t x (c.px i j) } ∧ OnlyPixels m m' q ∧ m'.addr = m.addr := by
  obtain ⟨R, C, dt, E, px⟩ := c
  obtain ⟨R', C', dt', E', px'⟩ := d
  simp only at e1 e2 e3 e4
  subst e1 e2 e3 e4
  obtain ⟨f1, f2⟩ := hasImage8 hc rfl
  obtain ⟨g1, g2⟩ := hasImage8 hd rfl
  have hN := image_size hc
  simp only at f1 f2 g1 g2 hN
  subst f1 g1
  have small : ∀ i j, i < R' → j < C' → px i j < 256 := by
    intro i j hi hj
    have := hc.2.1 i j hi hj
    simpa using this
  obtain ⟨m', run, k1, k2⟩ := threshold_modes t x hmode f2 g2 (by omega)
  refine ⟨m', run, hasImage_of8 rfl rfl hd.2.2.1 k1 ?_ (inl_only hd k2), k2, (threshold_oracles _ _ _ _ _ _ _ _ run).1⟩
  intro i j hi hj
  simp only at hi hj ⊢
  unfold uchar ival cut threshSpec
  rw [toNat_ofNat_lt (small _ _ hi hj)]
  rw [toNat_ofNat_lt]
  omega

theorem image_parts {p : Nat} {c : ImgVal} (h : HasImage m p c) : ∃ hdr f,
    m.sm p = some hdr ∧ hdr.rows = c.R ∧ hdr.cols = c.C ∧ hdr.data_type = c.dt ∧ hdr.channels = (1:Nat) ∧ hdr.elem_size = c.E ∧ hdr.inl = true ∧
    Holds m hdr.data (c.R * c.C * c.E) f ∧ ∀ i j t, i < c.R → j < c.C → t < c.E → f ((i * c.C + j) * c.E + t) = leByte (c.px i j) t := by
  obtain ⟨⟨_, _, _, _, hdr, f, g1, g2, g3, g4, g5, g6, g7, g8⟩, _, _, hdr', k1, k2⟩ := h
  rw [g1] at k1
  cases k1
  rw [bytes_iff, Nat.mul_one] at g7
  refine ⟨hdr, f, g1, g2, g3, g4, g5, g6, k2, g7, ?_⟩
  intro i j t hi hj ht
  have := g8 i j 0 t hi hj (by omega) ht
  simpa using this

theorem pixel_lt {R C E i j : Nat} (hi : i < R) (hj : j < C) : (i * C + j) * E + E ≤ R * C * E := by
  have h1 : i * C + j + 1 ≤ R * C := mix_lt hi hj
  calc (i * C + j) * E + E = (i * C + j + 1) * E := by ring
    _ ≤ R * C * E := Nat.mul_le_mul_right _ h1

theorem readPx_step {p i j : Nat} {c : ImgVal} (hp : HasImage m p c) (hi : i < c.R) (hj : j < c.C) :
    (do
      let h ← derefS (some p)
      let v ← loadN (get_elemsize h.data_type).toNat h.data ((i * h.cols.toNat + j : Nat) : Int)
      pure (env, [v]) : M (List (Option Nat) × List Nat)) m = .ok ((env, [c.px i j]), m) := by
  obtain ⟨s, f, h1, h2, h3, h4, h5, h6, h7, h8, h9⟩ := image_parts hp
  obtain ⟨e1, e2, e3⟩ := get_elemsize_eq hp.1.size
  rw [bind_ok (show derefS (some p) _ = _ from getS_ok h1), h3, h4, e1, Int.toNat_natCast, Int.toNat_natCast]
  rw [bind_ok (loadN_val h8 (pixel_lt hi hj) (fun t ht => h9 i j t hi hj ht) (hp.2.1 i j hi hj))]
  rfl

theorem writePx_step {p i j v : Nat} {c : ImgVal} (hp : HasImage m p c) (hi : i < c.R) (hj : j < c.C) (hv : v < 256 ^ c.E) :
    ∃ m', (do
      let h ← derefS (some p)
      storeN (get_elemsize h.data_type).toNat h.data ((i * h.cols.toNat + j : Nat) : Int) v
      pure (env, []) : M (List (Option Nat) × List Nat)) m = .ok ((env, []), m') ∧
      HasImage m' p { c with px := fun i' j' => if i' = i ∧ j' = j then v else c.px i' j' } ∧ OnlyPixels m m' p ∧ m'.addr = m.addr := by
  obtain ⟨s, f, h1, h2, h3, h4, h5, h6, h7, h8, h9⟩ := image_parts hp
  obtain ⟨e1, e2, e3⟩ := get_elemsize_eq hp.1.size
  obtain ⟨g, run, new, old⟩ := storeN_bytes (v := v) h8 (pixel_lt hi hj)
  refine ⟨m.put s.data (c.R * c.C * c.E) g, ?_, ⟨?_, ?_, hp.2.2.1, s, h1, h7⟩, ⟨rfl, rfl, le_refl _, ?_⟩, rfl⟩
  · rw [bind_ok (show derefS (some p) _ = _ from getS_ok h1), h3, h4, e1, Int.toNat_natCast, Int.toNat_natCast, bind_ok run]
    rfl
  · refine ⟨hp.1.size, hp.1.posR, hp.1.posC, Nat.one_pos, s, g, h1, h2, h3, h4, h5, h6, ?_, ?_⟩
    · rw [bytes_iff, Nat.mul_one]; exact holds_put _ _ _ _
    · intro i' j' k t hi' hj' hk ht
      dsimp only at hi' hj' ht ⊢
      obtain rfl : k = 0 := by omega
      simp only [Nat.mul_one, Nat.add_zero]
      by_cases e : i' = i ∧ j' = j
      · obtain ⟨rfl, rfl⟩ := e
        rw [new _ ⟨by omega, by omega⟩, if_pos ⟨rfl, rfl⟩, Nat.add_sub_cancel_left]
      · rw [if_neg e, old, h9 i' j' t hi' hj' ht]
        rintro ⟨b1, b2⟩
        have d1 : ((i' * c.C + j') * c.E + t) / c.E = i' * c.C + j' := mix_div ht
        have d2 : ((i' * c.C + j') * c.E + t) / c.E = i * c.C + j := Nat.div_eq_of_lt_le b1 (by rw [Nat.succ_mul]; exact b2)
        have d3 : i' * c.C + j' = i * c.C + j := by rw [← d1, d2]
        refine e ⟨?_, ?_⟩
        · have := congrArg (· / c.C) d3
          simpa only [mix_div hj, mix_div hj'] using this
        · have := congrArg (· % c.C) d3
          simpa only [mix_mod hj, mix_mod hj'] using this
  · intro i' j' hi' hj'
    dsimp only
    split
    · exact hv
    · exact hp.2.1 i' j' hi' hj'
  · intro x hx
    refine put_blk_ne _ _ _ ?_
    rintro rfl
    exact hx ⟨s, h1, rfl⟩

/-- one operation on images -/
theorem execImg_step (ha : ∀ h, m0.addr h % 16 = 0 ∧ m0.addr h % 64 ≠ 48) (hr : RepresentsImages others m0 m env im) {op : ImgOp} {im' : Images}
    {out : List Nat} (hs : op.step im = some (im', out)) :
    ∃ env' m', execImg env op m = .ok ((env', out), m') ∧ RepresentsImages others m0 m' env' im' := by
  rw [← hr.addr] at ha
  cases op with
  | create R C dt =>
    simp only [ImgOp.step] at hs
    cases hE : elemBytes dt with
    | none => rw [hE] at hs; cases hs
    | some E =>
      rw [hE] at hs
      simp only [Option.bind_eq_bind, Option.bind_some] at hs
      split at hs
      · rename_i hc
        obtain ⟨hR, hC, hf⟩ := hc
        cases hs
        have hN : R * C * 1 * E ≤ 2147483551 := by rw [Nat.mul_one]; exact hf
        have run := create_sm_ok (m := m) hR hC Nat.one_pos hE hN
        refine ⟨_, _, ?_, images_newImage (c := ⟨R, C, dt, E, fun _ _ => 0⟩)
          (f := fun p => if p < R * C * E then 0 else m.junk m.next p) hr hR hC hE ?_ ?_ hf⟩
        · simp only [execImg]
          exact bind_ok run
        · intro i j t hi hj ht
          simp only at hi hj ht ⊢
          rw [if_pos, leByte_zero_all]
          have := pixel_lt (E := E) hi hj
          omega
        · intro i j hi hj
          exact Nat.pos_of_ne_zero (by positivity)
      · cases hs
  | copy x =>
    simp only [ImgOp.step] at hs
    cases hx : im.get x with
    | none => rw [hx] at hs; cases hs
    | some c =>
      rw [hx] at hs
      simp only [Option.bind_eq_bind, Option.bind_some] at hs
      cases hs
      obtain ⟨p, hp, hv, _⟩ := hr.image x c hx
      have hN : c.R * c.C * 1 * c.E ≤ 2147483551 := by rw [Nat.mul_one]; exact hv.2.2.1
      have run := copy_sm_ok hr.wf hv.1 hN
      refine ⟨_, _, ?_, images_newImage (c := c) (f := imgBytes c.C 1 c.E (fun i j _ t => leByte (c.px i j) t)) hr hv.1.posR hv.1.posC hv.1.size ?_ hv.2.1 hv.2.2.1⟩
      · simp only [execImg, ptr_some hp]
        rw [bind_ok run]
        rfl
      · intro i j t hi hj ht
        have := imgBytes_at (C := c.C) (ch := 1) (E := c.E) (i := i) (j := j) (c := 0) (t := t) (px := fun i j _ t => leByte (c.px i j) t) hj (by omega) ht
        simpa using this
  | transpose x y =>
    simp only [ImgOp.step] at hs
    cases hx : im.get x with
    | none => rw [hx] at hs; cases hs
    | some c =>
      cases hy : im.get y with
      | none => rw [hx, hy] at hs; cases hs
      | some d =>
        rw [hx, hy] at hs
        simp only [Option.bind_eq_bind, Option.bind_some] at hs
        split at hs
        · rename_i hc
          obtain ⟨hne, e1, e2, e3⟩ := hc
          cases hs
          obtain ⟨p, hp, hv, _⟩ := hr.image x c hx
          obtain ⟨q, hq, hw, _⟩ := hr.image y d hy
          obtain ⟨m', run, k1, k2⟩ := transpose_step hv hw (sep_of_apart (hr.apart x y c d p q hne hx hy hp hq)) e1 e2 e3
          refine ⟨env, m', ?_, images_change hr hy hq k2 (transport_oracles _ _ _ _ _ run).1 k1⟩
          simp only [execImg, ptr_some hp, ptr_some hq]
          rw [bind_ok run]
          rfl
        · cases hs
  | flip x y code =>
    simp only [ImgOp.step] at hs
    cases hx : im.get x with
    | none => rw [hx] at hs; cases hs
    | some c =>
      cases hy : im.get y with
      | none => rw [hx, hy] at hs; cases hs
      | some d =>
        rw [hx, hy] at hs
        simp only [Option.bind_eq_bind, Option.bind_some] at hs
        split at hs
        · rename_i hc
          obtain ⟨hcode, hne, e1, e2, e3, e4⟩ := hc
          cases hs
          obtain ⟨p, hp, hv, _⟩ := hr.image x c hx
          obtain ⟨q, hq, hw, _⟩ := hr.image y d hy
          have hsep : SepPixels m p q ∨ code = -1 :=
            hne.imp (fun hne => sep_of_apart (hr.apart x y c d p q hne hx hy hp hq)) id
          obtain ⟨m', run, k1, k2, k3⟩ := flip_step hr.wf ha hv hw hcode hsep e1 e2 e3 e4
          refine ⟨env, m', ?_, images_change hr hy hq k2 k3 k1⟩
          simp only [execImg, ptr_some hp, ptr_some hq]
          rw [bind_ok run]
          rfl
        · cases hs
  | threshold x y t mx mode =>
    simp only [ImgOp.step] at hs
    cases hx : im.get x with
    | none => rw [hx] at hs; cases hs
    | some c =>
      cases hy : im.get y with
      | none => rw [hx, hy] at hs; cases hs
      | some d =>
        rw [hx, hy] at hs
        simp only [Option.bind_eq_bind, Option.bind_some] at hs
        split at hs
        · rename_i hc
          obtain ⟨h0, h4, e1, e2, e3, e4⟩ := hc
          cases hs
          obtain ⟨p, hp, hv, _⟩ := hr.image x c hx
          obtain ⟨q, hq, hw, _⟩ := hr.image y d hy
          obtain ⟨m', run, k1, k2, k3⟩ := threshold_step t mx hv hw ⟨h0, h4⟩ e1 e2 e3 e4
          refine ⟨env, m', ?_, images_change hr hy hq k2 k3 k1⟩
          simp only [execImg, ptr_some hp, ptr_some hq]
          rw [bind_ok run]
          rfl
        · cases hs
  | write x i j v =>
    simp only [ImgOp.step] at hs
    cases hx : im.get x with
    | none => rw [hx] at hs; cases hs
    | some c =>
      rw [hx] at hs
      simp only [Option.bind_eq_bind, Option.bind_some] at hs
      split at hs
      · rename_i hc
        obtain ⟨hi, hj, hv'⟩ := hc
        cases hs
        obtain ⟨p, hp, hv, _⟩ := hr.image x c hx
        obtain ⟨m', run, k1, k2, k3⟩ := writePx_step (env := env) hv hi hj hv'
        refine ⟨env, m', ?_, images_change hr hx hp k2 k3 k1⟩
        simp only [execImg, ptr_some hp]
        exact run
      · cases hs
  | read x i j =>
    simp only [ImgOp.step] at hs
    cases hx : im.get x with
    | none => rw [hx] at hs; cases hs
    | some c =>
      rw [hx] at hs
      simp only [Option.bind_eq_bind, Option.bind_some] at hs
      split at hs
      · rename_i hc
        cases hs
        obtain ⟨p, hp, hv, _⟩ := hr.image x c hx
        refine ⟨env, m, ?_, hr⟩
        simp only [execImg, ptr_some hp]
        exact readPx_step hv hc.1 hc.2
      · cases hs
  | delete x =>
    simp only [ImgOp.step] at hs
    cases hx : im.get x with
    | none => rw [hx] at hs; cases hs
    | some c =>
      rw [hx] at hs
      simp only [Option.bind_eq_bind, Option.bind_some] at hs
      cases hs
      obtain ⟨p, hp, hv, _⟩ := hr.image x c hx
      obtain ⟨hdr, h1, h2⟩ := hv.2.2.2
      have run : delete_simple_mat (some p) m = .ok ((), freeMem m p hdr) := delete_sm_run h1 h2 (ha p).1 (ha p).2
      refine ⟨_, _, ?_, images_delete hr hx hp h1 h2⟩
      simp only [execImg, ptr_some hp]
      rw [bind_ok run]
      rfl

/-! ### Cubes and images together -/

variable {envC envI : List (Option Nat)} {st st' : Store} {old : Nat → Prop} {im' : Images}

/-- the storage of a cube variable is not that of an image variable -/
theorem both_apart (hr : RepresentsBeside old m0 m envC st envI im) {h : Nat} (h1 : OfCubes m envC st h) (h2 : OfImages m envI im h) : False := by
  obtain ⟨x, c, p, e1, e2, e3⟩ := h1
  obtain ⟨p', e4, _, e5⟩ := hr.cubes.cube x c e1
  rw [e2] at e4
  have e : p = p' := by simpa using e4
  subst e
  exact e5 h e3 (Or.inr h2)

theorem of_cubes_kept (h : ∀ x, OfCubes m envC st x → m'.hm x = m.hm x) (x : Nat) :
    OfCubes m' envC st x ↔ OfCubes m envC st x := by
  have key : ∀ y c p, st.get y = some c → envC[y]? = some (some p) → (Owns m' p x ↔ Owns m p x) := by
    intro y c p h1 h2
    exact owns_congr (h p ⟨y, c, p, h1, h2, Or.inl rfl⟩) x
  constructor
  · rintro ⟨y, c, p, h1, h2, h3⟩
    exact ⟨y, c, p, h1, h2, (key y c p h1 h2).1 h3⟩
  · rintro ⟨y, c, p, h1, h2, h3⟩
    exact ⟨y, c, p, h1, h2, (key y c p h1 h2).2 h3⟩

theorem of_images_kept (h : ∀ x, OfImages m envI im x → m'.sm x = m.sm x) (x : Nat) : OfImages m' envI im x ↔ OfImages m envI im x := by
  have key : ∀ y c p, im.get y = some c → envI[y]? = some (some p) → (OwnsImg m' p x ↔ OwnsImg m p x) := by
    intro y c p h1 h2
    exact ownsImg_congr (h p ⟨y, c, p, h1, h2, Or.inl rfl⟩) x
  constructor
  · rintro ⟨y, c, p, h1, h2, h3⟩
    exact ⟨y, c, p, h1, h2, (key y c p h1 h2).1 h3⟩
  · rintro ⟨y, c, p, h1, h2, h3⟩
    exact ⟨y, c, p, h1, h2, (key y c p h1 h2).2 h3⟩

/-- the cubes changed, beside the images -/
theorem both_cubes {envC' : List (Option Nat)} (hr : RepresentsBeside old m0 m envC st envI im)
    (hc : Represents (fun h => old h ∨ OfImages m envI im h) m m' envC' st') : RepresentsBeside old m0 m' envC' st' envI im := by
  have kept : ∀ h, old h ∨ OfImages m envI im h → m'.blk h = m.blk h ∧ m'.hm h = m.hm h ∧ m'.sm h = m.sm h := hc.frame
  have ofI := of_images_kept (envI := envI) (im := im) (m := m) (m' := m') (fun x hx => (kept x (Or.inr hx)).2.2)
  have eqI : (fun h => old h ∨ OfImages m' envI im h) = (fun h => old h ∨ OfImages m envI im h) := by
    funext h; rw [ofI h]
  refine ⟨?_, hc.addr.trans hr.addr, ?_, ?_⟩
  · intro h hh
    obtain ⟨a1, a2, a3⟩ := hr.frame h hh
    obtain ⟨b1, b2, b3⟩ := kept h (Or.inl hh)
    exact ⟨b1.trans a1, b2.trans a2, b3.trans a3⟩
  · rw [eqI]
    exact ⟨hc.wf, hc.later, fun _ _ => ⟨rfl, rfl, rfl⟩, rfl, rfl, hc.same, hc.cube, hc.apart, hc.blocks, hc.headers, hc.images⟩
  · have hi := hr.images
    have notcube : ∀ h, OfImages m envI im h → ¬ OfCubes m' envC' st' h := by
      rintro h h1 ⟨x, c, p, e1, e2, e3⟩
      obtain ⟨p', e4, _, e5⟩ := hc.cube x c e1
      rw [e2] at e4
      have e : p = p' := by simpa using e4
      subst e
      exact e5 h e3 (Or.inr h1)
    have notold : ∀ h, OfImages m envI im h → ¬ old h := by
      rintro h ⟨x, c, p, e1, e2, e3⟩ hlt
      obtain ⟨p', e4, _, e5⟩ := hi.image x c e1
      rw [e2] at e4
      have e : p = p' := by simpa using e4
      subst e
      exact e5 h e3 (Or.inl hlt)
    have osm : ∀ x c p, im.get x = some c → envI[x]? = some (some p) → m'.sm p = m.sm p :=
      fun x c p h1 h2 => (kept p (Or.inr ⟨x, c, p, h1, h2, Or.inl rfl⟩)).2.2
    -- what is neither old nor of a cube now was of an image before
    have back : ∀ h, ¬ (old h ∨ OfCubes m' envC' st' h) → (m'.blk h ≠ none ∨ m'.sm h ≠ none) →
        OfImages m envI im h ∧ ¬ (old h ∨ OfCubes m envC st h) := by
      intro h h0 hb
      have hin : OfImages m envI im h := by
        by_contra hno
        have hnk : ¬ (old h ∨ OfImages m envI im h) := fun e => e.elim (fun e => h0 (Or.inl e)) hno
        rcases hb with hb | hb
        · obtain ⟨x, c, p, hdr, e1, e2, e3, e4⟩ := hc.blocks h hnk hb
          exact h0 (Or.inr ⟨x, c, p, e1, e2, Or.inr ⟨hdr, e3, e4⟩⟩)
        · exact hb (hc.images h hnk)
      exact ⟨hin, fun e => e.elim (fun e => h0 (Or.inl e)) (fun e => both_apart hr e hin)⟩
    refine ⟨hc.wf, ?_, fun _ _ => ⟨rfl, rfl, rfl⟩, rfl, hi.same, ?_, ?_, ?_, ?_, ?_⟩
    · rintro h (hh | ⟨x, c, p, e1, e2, e3⟩)
      · exact hc.later h (Or.inl hh)
      · obtain ⟨p', e4, hv, _⟩ := hc.cube x c e1
        rw [e2] at e4
        have e : p = p' := by simpa using e4
        subst e
        obtain ⟨hdr, wb, f, g1, _, _, _, _, _, g7, _, g9, g10, _⟩ := value_parts hv
        rcases e3 with rfl | ⟨hdr', k1, k2⟩
        · exact hdr_lt hc.wf g1
        · rw [g1] at k1
          cases k1
          rcases k2 with rfl | k2
          · exact g9.lt_next hc.wf
          · rw [g7] at k2; cases k2; exact g10.lt_next hc.wf
    · intro x c hx
      obtain ⟨p, e1, e2, e3⟩ := hi.image x c hx
      refine ⟨p, e1, image_owned e2 (fun z hz => ?_), ?_⟩
      · have := kept z (Or.inr ⟨x, c, p, hx, e1, hz⟩)
        exact ⟨this.1, this.2.2⟩
      · intro z hz
        rw [ownsImg_congr (osm x c p hx e1)] at hz
        have hz' : OfImages m envI im z := ⟨x, c, p, hx, e1, hz⟩
        exact fun e => e.elim (notold z hz') (notcube z hz')
    · intro x y c d p q hxy hx hy hp hq z hz
      rw [ownsImg_congr (osm x c p hx hp), ownsImg_congr (osm y d q hy hq)] at hz
      exact hi.apart x y c d p q hxy hx hy hp hq z hz
    · intro h h0 hb
      obtain ⟨b1, b2⟩ := back h h0 (Or.inl hb)
      rw [(kept h (Or.inr b1)).1] at hb
      obtain ⟨x, c, p, e1, e2, e3⟩ := hi.blocks h b2 hb
      refine ⟨x, c, p, e1, e2, ?_⟩
      unfold PixelBlock
      rw [osm x c p e1 e2]
      exact e3
    · intro h h0 hb
      obtain ⟨b1, b2⟩ := back h h0 (Or.inr hb)
      rw [(kept h (Or.inr b1)).2.2] at hb
      exact hi.headers h b2 hb
    · intro h h0
      by_contra hb
      by_cases hin : OfImages m envI im h
      · rw [(kept h (Or.inr hin)).2.1] at hb
        exact hb (hi.cubes h (fun e => e.elim (fun e => h0 (Or.inl e)) (fun e => both_apart hr e hin)))
      · have hnk : ¬ (old h ∨ OfImages m envI im h) := fun e => e.elim (fun e => h0 (Or.inl e)) hin
        obtain ⟨x, c, e1, e2⟩ := hc.headers h hnk hb
        exact h0 (Or.inr ⟨x, c, h, e1, e2, Or.inl rfl⟩)

/-- the images changed, beside the cubes -/
theorem both_images {envI' : List (Option Nat)} (hr : RepresentsBeside old m0 m envC st envI im)
    (hc : RepresentsImages (fun h => old h ∨ OfCubes m envC st h) m m' envI' im') : RepresentsBeside old m0 m' envC st envI' im' := by
  have kept : ∀ h, old h ∨ OfCubes m envC st h → m'.blk h = m.blk h ∧ m'.hm h = m.hm h ∧ m'.sm h = m.sm h := hc.frame
  have ofC := of_cubes_kept (envC := envC) (st := st) (m := m) (m' := m') (fun x hx => (kept x (Or.inr hx)).2.1)
  have eqC : (fun h => old h ∨ OfCubes m' envC st h) = (fun h => old h ∨ OfCubes m envC st h) := by
    funext h; rw [ofC h]
  refine ⟨?_, hc.addr.trans hr.addr, ?_, ?_⟩
  · intro h hh
    obtain ⟨a1, a2, a3⟩ := hr.frame h hh
    obtain ⟨b1, b2, b3⟩ := kept h (Or.inl hh)
    exact ⟨b1.trans a1, b2.trans a2, b3.trans a3⟩
  · have hi := hr.cubes
    have notimg : ∀ h, OfCubes m envC st h → ¬ OfImages m' envI' im' h := by
      rintro h h1 ⟨x, c, p, e1, e2, e3⟩
      obtain ⟨p', e4, _, e5⟩ := hc.image x c e1
      rw [e2] at e4
      have e : p = p' := by simpa using e4
      subst e
      exact e5 h e3 (Or.inr h1)
    have notold : ∀ h, OfCubes m envC st h → ¬ old h := by
      rintro h ⟨x, c, p, e1, e2, e3⟩ hlt
      obtain ⟨p', e4, _, e5⟩ := hi.cube x c e1
      rw [e2] at e4
      have e : p = p' := by simpa using e4
      subst e
      exact e5 h e3 (Or.inl hlt)
    have ohm : ∀ x c p, st.get x = some c → envC[x]? = some (some p) → m'.hm p = m.hm p :=
      fun x c p h1 h2 => (kept p (Or.inr ⟨x, c, p, h1, h2, Or.inl rfl⟩)).2.1
    have back : ∀ h, ¬ (old h ∨ OfImages m' envI' im' h) → (m'.blk h ≠ none ∨ m'.hm h ≠ none) →
        OfCubes m envC st h ∧ ¬ (old h ∨ OfImages m envI im h) := by
      intro h h0 hb
      have hin : OfCubes m envC st h := by
        by_contra hno
        have hnk : ¬ (old h ∨ OfCubes m envC st h) := fun e => e.elim (fun e => h0 (Or.inl e)) hno
        rcases hb with hb | hb
        · obtain ⟨x, c, p, e1, e2, e3⟩ := hc.blocks h hnk hb
          exact h0 (Or.inr ⟨x, c, p, e1, e2, Or.inr e3⟩)
        · exact hb (hc.cubes h hnk)
      exact ⟨hin, fun e => e.elim (fun e => h0 (Or.inl e)) (fun e => both_apart hr hin e)⟩
    refine ⟨hc.wf, ?_, fun _ _ => ⟨rfl, rfl, rfl⟩, rfl, rfl, hi.same, ?_, ?_, ?_, ?_, ?_⟩
    · rintro h (hh | ⟨x, c, p, e1, e2, e3⟩)
      · exact hc.later h (Or.inl hh)
      · obtain ⟨p', e4, hv, _⟩ := hc.image x c e1
        rw [e2] at e4
        have e : p = p' := by simpa using e4
        subst e
        exact ownsImg_lt hc.wf hv h e3
    · intro x c hx
      obtain ⟨p, e1, e2, e3⟩ := hi.cube x c hx
      refine ⟨p, e1, value_owned e2 (fun z hz => ?_), ?_⟩
      · have := kept z (Or.inr ⟨x, c, p, hx, e1, hz⟩)
        exact ⟨this.1, this.2.1⟩
      · intro z hz
        rw [owns_congr (ohm x c p hx e1)] at hz
        have hz' : OfCubes m envC st z := ⟨x, c, p, hx, e1, hz⟩
        exact fun e => e.elim (notold z hz') (notimg z hz')
    · intro x y c d p q hxy hx hy hp hq z hz
      rw [owns_congr (ohm x c p hx hp), owns_congr (ohm y d q hy hq)] at hz
      exact hi.apart x y c d p q hxy hx hy hp hq z hz
    · intro h h0 hb
      obtain ⟨b1, b2⟩ := back h h0 (Or.inl hb)
      rw [(kept h (Or.inr b1)).1] at hb
      obtain ⟨x, c, p, hdr, e1, e2, e3, e4⟩ := hi.blocks h b2 hb
      exact ⟨x, c, p, hdr, e1, e2, by rw [ohm x c p e1 e2, e3], e4⟩
    · intro h h0 hb
      obtain ⟨b1, b2⟩ := back h h0 (Or.inr hb)
      rw [(kept h (Or.inr b1)).2.1] at hb
      exact hi.headers h b2 hb
    · intro h h0
      by_contra hb
      by_cases hin : OfCubes m envC st h
      · rw [(kept h (Or.inr hin)).2.2] at hb
        exact hb (hi.images h (fun e => e.elim (fun e => h0 (Or.inl e)) (fun e => both_apart hr hin e)))
      · have hnk : ¬ (old h ∨ OfCubes m envC st h) := fun e => e.elim (fun e => h0 (Or.inl e)) hin
        obtain ⟨x, c, e1, e2⟩ := hc.headers h hnk hb
        exact h0 (Or.inr ⟨x, c, h, e1, e2, Or.inl rfl⟩)
  · rw [eqC]
    exact ⟨hc.wf, hc.later, fun _ _ => ⟨rfl, rfl, rfl⟩, rfl, hc.same, hc.image, hc.apart, hc.blocks, hc.headers, hc.cubes⟩

/-! ### Whole programs -/

theorem sepCubeImage (hr : RepresentsBeside old m0 m envC st envI im) {x y p q : Nat} {c : CubeVal} {d : ImgVal} (hx : st.get x = some c)
    (hp : envC[x]? = some (some p)) (hy : im.get y = some d) (hq : envI[y]? = some (some q)) :
    ∀ a b, Owns m p a → OwnsImg m q b → a ≠ b := by
  rintro a _ h1 h2 rfl
  exact both_apart hr ⟨x, c, p, hx, hp, h1⟩ ⟨y, d, q, hy, hq, h2⟩

theorem takeBand_step (hr : RepresentsBeside old m0 m envC st envI im) {x y k p q : Nat} {c : CubeVal} {d : ImgVal} (hx : st.get x = some c)
    (hp : envC[x]? = some (some p)) (hy : im.get y = some d) (hq : envI[y]? = some (some q)) (hv : HasValue m p c) (hw : HasImage m q d)
    (hl : c.lay = .bsq) (hk : k < c.B) (e1 : d.R = c.L) (e2 : d.C = c.S) (e3 : d.dt = c.dt) :
    ∃ m', hyper_mat_2_simple_mat (some p) (some q) ((k:Int) + 1) m = .ok ((), m') ∧ HasImage m' q { d with px := fun i j => c.elem i j k } ∧
      OnlyPixels m m' q := by
  have hap := sepCubeImage hr hx hp hy hq
  have hE : d.E = c.E := by
    have h1 := hv.1.1.size
    have h2 := hw.1.size
    rw [e3, h1] at h2
    exact (Option.some.inj h2).symm
  have hc1 := hv.1.1
  rw [hl] at hc1
  have hi1 := hw.1
  rw [e1, e2, e3, hE] at hi1
  obtain ⟨m', run, k1, k2⟩ := extract_run hc1 hi1 (fun a b ha hb => hap _ _ (Or.inr ⟨a, ha, Or.inl rfl⟩) (Or.inr ⟨b, hb, rfl⟩)) hv.2.2.1 hk
  refine ⟨m', run, ⟨?_, ?_, hw.2.2.1, inl_only hw k2⟩, k2⟩
  · show IsImage m' q d.R d.C d.dt 1 d.E _
    rw [e1, e2, e3, hE]
    exact k1
  · intro i j hi hj
    simp only at hi hj ⊢
    rw [e1] at hi
    rw [e2] at hj
    rw [hE]
    exact hv.1.2 i j k hi hj hk

theorem putBand_step (hr : RepresentsBeside old m0 m envC st envI im) {x y k p q : Nat} {c : CubeVal} {d : ImgVal} (hx : st.get x = some c)
    (hp : envC[x]? = some (some p)) (hy : im.get y = some d) (hq : envI[y]? = some (some q)) (hv : HasValue m p c) (hw : HasImage m q d)
    (hl : c.lay = .bsq) (h1E : c.E = 1) (hk : k < c.B) (e1 : d.R = c.L) (e2 : d.C = c.S) (e3 : d.dt = c.dt) :
    ∃ m', simple_mat_2_hyper_mat (some p) (some q) ((k:Int) + 1) m = .ok ((), m') ∧
      HasValue m' p { c with elem := fun i j k' => if k' = k then d.px i j else c.elem i j k' } ∧ Changed m m' p := by
  have hap := sepCubeImage hr hx hp hy hq
  have hE : d.E = 1 := by
    have h1 := hv.1.1.size
    have h2 := hw.1.size
    rw [e3, h1] at h2
    rw [← Option.some.inj h2, h1E]
  obtain ⟨hdr, wb, f, g1, g2, g3, g4, g5, g6, g7, g8, g9, g10, g11⟩ := value_parts hv
  have hfit := hv.2.2.1
  have hc1 := hv.1.1
  have hi1 := hw.1
  rw [e1, e2, e3, hE] at hi1
  rw [hl, h1E] at hc1
  rw [h1E] at hfit g9 g11
  obtain ⟨hdr', k1, run⟩ := insert_core hc1 hi1 (fun a b ha hb => hap _ _ (Or.inr ⟨a, ha, Or.inl rfl⟩) (Or.inr ⟨b, hb, rfl⟩)) hfit hk
  rw [g1] at k1
  cases k1
  refine ⟨_, run, ⟨⟨?_, ?_⟩, hv.2⟩, changed_put hr.cubes.wf g1 g9 (Or.inr ⟨hdr, g1, Or.inl rfl⟩)⟩
  · refine ⟨hv.1.1.size, hv.1.1.posS, hv.1.1.posL, hv.1.1.posB, hdr, wb,
      (fun q => if c.S * c.L * k ≤ q ∧ q < c.S * c.L * k + c.S * c.L then
        imgBytes c.S 1 1 (fun i j _ t => leByte (d.px i j) t) (q - c.S * c.L * k) else
        cubeBytes .bsq c.S c.L c.B 1 (fun i j k t => leByte (c.elem i j k) t) q), g1, g2, g3, g4, g5, g6, g7, g8, ?_, ?_⟩
    · rw [bytes_iff]
      show Holds _ _ (c.S * c.L * c.B * c.E) _
      rw [h1E]; exact holds_put _ _ _ _
    · refine ⟨?_, ?_⟩
      · rw [bytes_iff]; exact g10.put_ne (Ne.symm g8)
      · intro i j k' t hi hj hk' ht
        simp only at hi hj hk' ht ⊢
        rw [h1E] at ht ⊢
        obtain rfl : t = 0 := by omega
        rw [hl]
        have epos : Layout.pos .bsq c.S c.L c.B i j k' * 1 + 0 = (k' * c.L + i) * c.S + j := by simp [Layout.pos]
        have hij : i * c.S + j < c.L * c.S := mix_lt hi hj
        by_cases e : k' = k
        · subst e
          rw [if_pos rfl]
          have eq1 : (k' * c.L + i) * c.S + j = c.S * c.L * k' + (i * c.S + j) := by ring
          rw [epos, eq1, if_pos ⟨by omega, by rw [Nat.mul_comm c.S c.L]; omega⟩, Nat.add_sub_cancel_left]
          have := imgBytes_at (C := c.S) (ch := 1) (E := 1) (i := i) (j := j) (c := 0) (t := 0) (px := fun i j _ t => leByte (d.px i j) t) hj (by omega) (by omega)
          simpa using this
        · rw [if_neg e, if_neg, cubeBytes_at .bsq hi hj hk' (by omega)]
          rw [epos]
          rintro ⟨b1, b2⟩
          apply e
          have eq1 : (k' * c.L + i) * c.S + j = k' * (c.L * c.S) + (i * c.S + j) := by ring
          have eq2 : c.S * c.L * k = k * (c.L * c.S) := by ring
          have eq3 : c.S * c.L = c.L * c.S := Nat.mul_comm _ _
          rw [eq1, eq2] at b1 b2
          rw [eq3] at b2
          have d1 : (k' * (c.L * c.S) + (i * c.S + j)) / (c.L * c.S) = k' := mix_div hij
          have d2 : (k' * (c.L * c.S) + (i * c.S + j)) / (c.L * c.S) = k := Nat.div_eq_of_lt_le b1 (by rw [Nat.succ_mul]; exact b2)
          rw [← d1, d2]
  · intro i j k' hi hj hk'
    simp only at hi hj hk' ⊢
    split
    · have := hw.2.1 i j (by rw [e1]; exact hi) (by rw [e2]; exact hj)
      rw [hE] at this
      rw [h1E]; exact this
    · exact hv.1.2 i j k' hi hj hk'

theorem at_unpos (c : CubeVal) (n : Nat) : c.at n =
    c.elem (Layout.unpos c.lay c.S c.L c.B n).1 (Layout.unpos c.lay c.S c.L c.B n).2.1 (Layout.unpos c.lay c.S c.L c.B n).2.2 := by
  unfold CubeVal.at Layout.unpos
  cases c.lay <;> rfl

theorem execImg_oracles (env : List (Option Nat)) (op : ImgOp) : KeepsOracles (execImg env op) := by
  cases op with
  | create R C dt => exact .bind (create_oracles _ _ _ _) fun _ => .pure _
  | copy x => exact .bind (copy_oracles _) fun _ => .pure _
  | transpose x y => exact .bind (transport_oracles _ _) fun _ => .pure _
  | flip x y code => exact .bind (flip_oracles _ _ _) fun _ => .pure _
  | threshold x y t mx mode => exact .bind (threshold_oracles _ _ _ _ _) fun _ => .pure _
  | write x i j v => unfold execImg; dsimp only; keeps_oracles
  | read x i j => unfold execImg; dsimp only; keeps_oracles
  | delete x => exact .bind (.delete _) fun _ => .pure _

theorem session_step (ha : ∀ h, m0.addr h % 16 = 0 ∧ m0.addr h % 64 ≠ 48) (hr : RepresentsBeside old m0 m envC st envI im) {op : SessionOp} {out : List Nat}
    (hs : op.step st im = some (st', im', out)) :
    ∃ envC' envI' m', execSession envC envI op m = .ok ((envC', envI', out), m') ∧ RepresentsBeside old m0 m' envC' st' envI' im' ∧ m'.junk = m.junk := by
  rw [← hr.addr] at ha
  cases op with
  | cube o =>
    simp only [SessionOp.step] at hs
    cases ho : o.step st with
    | none => rw [ho] at hs; cases hs
    | some r =>
      obtain ⟨s1, o1⟩ := r
      rw [ho] at hs
      cases hs
      obtain ⟨env', m', run, hr'⟩ := exec_step hr.cubes ho
      refine ⟨env', envI, m', ?_, both_cubes hr hr', hr'.junk⟩
      simp only [execSession]
      rw [bind_ok run]
      rfl
  | image o =>
    simp only [SessionOp.step] at hs
    cases ho : o.step im with
    | none => rw [ho] at hs; cases hs
    | some r =>
      obtain ⟨s1, o1⟩ := r
      rw [ho] at hs
      cases hs
      obtain ⟨env', m', run, hr'⟩ := execImg_step ha hr.images ho
      refine ⟨envC, env', m', ?_, both_images hr hr', (execImg_oracles _ _ _ _ _ run).2⟩
      simp only [execSession]
      rw [bind_ok run]
      rfl
  | takeBand x k y =>
    simp only [SessionOp.step] at hs
    cases hx : st.get x with
    | none => rw [hx] at hs; cases hs
    | some c =>
      cases hy : im.get y with
      | none => rw [hx, hy] at hs; cases hs
      | some d =>
        rw [hx, hy] at hs
        simp only [Option.bind_eq_bind, Option.bind_some] at hs
        split at hs
        · rename_i hc
          obtain ⟨hl, hk, e1, e2, e3⟩ := hc
          cases hs
          obtain ⟨p, hp, hv, _⟩ := hr.cubes.cube x c hx
          obtain ⟨q, hq, hw, _⟩ := hr.images.image y d hy
          obtain ⟨m', run, k1, k2⟩ := takeBand_step hr hx hp hy hq hv hw hl hk e1 e2 e3
          refine ⟨envC, envI, m', ?_, both_images hr (images_change hr.images hy hq k2 (extract_oracles _ _ _ _ _ _ run).1 k1), (extract_oracles _ _ _ _ _ _ run).2⟩
          simp only [execSession, ptr_some hp, ptr_some hq]
          rw [bind_ok run]
          rfl
        · cases hs
  | putBand y x k =>
    simp only [SessionOp.step] at hs
    cases hy : im.get y with
    | none => rw [hy] at hs; cases hs
    | some d =>
      cases hx : st.get x with
      | none => rw [hx, hy] at hs; cases hs
      | some c =>
        rw [hx, hy] at hs
        simp only [Option.bind_eq_bind, Option.bind_some] at hs
        split at hs
        · rename_i hc
          obtain ⟨hl, hE, hk, e1, e2, e3⟩ := hc
          cases hs
          obtain ⟨p, hp, hv, _⟩ := hr.cubes.cube x c hx
          obtain ⟨q, hq, hw, _⟩ := hr.images.image y d hy
          obtain ⟨m', run, k1, k2⟩ := putBand_step hr hx hp hy hq hv hw hl hE hk e1 e2 e3
          refine ⟨envC, envI, m', ?_, both_cubes hr (represents_change hr.cubes hx hp k2 k1), (represents_change hr.cubes hx hp k2 k1).junk⟩
          simp only [execSession, ptr_some hp, ptr_some hq]
          rw [bind_ok run]
          rfl
        · cases hs
  | reshape x R C =>
    simp only [SessionOp.step] at hs
    cases hx : st.get x with
    | none => rw [hx] at hs; cases hs
    | some c =>
      rw [hx] at hs
      simp only [Option.bind_eq_bind, Option.bind_some] at hs
      split at hs
      · rename_i hc
        obtain ⟨hR, hC, hRC, hf⟩ := hc
        cases hs
        obtain ⟨p, hp, hv, _⟩ := hr.cubes.cube x c hx
        have hf' : R * C * c.E ≤ 2147483551 := hf
        have run := reshape_run hr.cubes.wf hv.1.1 (by rw [← hRC]; exact hf') hR hC hRC
        refine ⟨envC, _, _, ?_, both_images hr (images_newImage (c := ⟨R, C, c.dt, c.E, fun i j => c.at (i * C + j)⟩)
          (f := cubeBytes c.lay c.S c.L c.B c.E (fun i j k t => leByte (c.elem i j k) t)) hr.images hR hC hv.1.1.size ?_ ?_ hf), rfl⟩
        · simp only [execSession, ptr_some hp]
          rw [bind_ok run]
          rfl
        · intro i j t hi hj ht
          simp only at hi hj ht ⊢
          unfold cubeBytes
          rw [mix_div ht, mix_mod ht, at_unpos]
        · intro i j hi hj
          simp only at hi hj ⊢
          rw [at_unpos]
          have hlt : i * C + j < c.S * c.L * c.B := by rw [← hRC]; exact mix_lt hi hj
          obtain ⟨i', j', k', u1, u2, u3, u4⟩ := unpos_spec c.lay hlt
          rw [u4, unpos_pos c.lay u1 u2 u3]
          exact hv.1.2 _ _ _ u1 u2 u3
      · cases hs

theorem session_start (hm : m.WF) : RepresentsBoth m m [] [] [] [] := by
  have h1 : ∀ h, ¬ OfCubes m [] [] h := by
    rintro h ⟨x, c, p, e, _⟩
    exact absurd (get_lt e) (by simp)
  have h2 : ∀ h, ¬ OfImages m [] [] h := by
    rintro h ⟨x, c, p, e, _⟩
    exact absurd (iget_lt e) (by simp)
  refine ⟨fun _ _ => ⟨rfl, rfl, rfl⟩, rfl, ?_, ?_⟩
  · have e : (fun h => h < m.next ∨ OfImages m [] [] h) = (· < m.next) := by
      funext h; simp [h2 h]
    rw [e]
    exact represents_start hm
  · refine ⟨hm, ?_, fun _ _ => ⟨rfl, rfl, rfl⟩, rfl, rfl, ?_, ?_, ?_, ?_, ?_⟩
    · rintro h (hh | hh)
      · exact hh
      · exact absurd hh (h1 h)
    · intro x c h; exact absurd (iget_lt h) (by simp)
    · intro x y c d p q _ h; exact absurd (iget_lt h) (by simp)
    · intro h hh hb; exact absurd (hm h (by by_contra hlt; exact hh (Or.inl (by omega)))).1 hb
    · intro h hh hb; exact absurd (hm h (by by_contra hlt; exact hh (Or.inl (by omega)))).2.2 hb
    · intro h hh; exact (hm h (by by_contra hlt; exact hh (Or.inl (by omega)))).2.1

theorem session_run (ha : ∀ h, m0.addr h % 16 = 0 ∧ m0.addr h % 64 ≠ 48) (ops : List SessionOp) : ∀ {m : Mem} {envC envI : List (Option Nat)} {st st' : Store}
    {im im' : Images} {out : List Nat}, RepresentsBoth m0 m envC st envI im → sessionMeaning st im ops = some (st', im', out) →
    ∃ envC' envI' m', execSessionAll envC envI ops m = .ok ((envC', envI', out), m') ∧ RepresentsBoth m0 m' envC' st' envI' im' := by
  induction ops with
  | nil =>
    intro m envC envI st st' im im' out hr hs
    cases hs
    exact ⟨envC, envI, m, rfl, hr⟩
  | cons op ops ih =>
    intro m envC envI st st' im im' out hr hs
    unfold sessionMeaning at hs
    cases h1 : op.step st im with
    | none => rw [h1] at hs; cases hs
    | some r =>
      obtain ⟨st1, im1, o1⟩ := r
      rw [h1] at hs
      simp only [Option.bind_eq_bind, Option.bind_some] at hs
      cases h2 : sessionMeaning st1 im1 ops with
      | none => rw [h2] at hs; cases hs
      | some r =>
        obtain ⟨st2, im2, o2⟩ := r
        rw [h2] at hs
        cases hs
        obtain ⟨c1, i1, m1, run1, hr1, _⟩ := session_step ha hr h1
        obtain ⟨c2, i2, m2, run2, hr2⟩ := ih hr1 h2
        refine ⟨c2, i2, m2, ?_, hr2⟩
        unfold execSessionAll
        rw [bind_ok run1, bind_ok run2]
        rfl

end HyperCV
