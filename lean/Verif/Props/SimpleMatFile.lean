/- C111: reading raw image files. -/
import Verif.Model.SimpleMatFile
import Verif.Props.Image
import Verif.Props.Header
import Verif.Proof.Radiometric

namespace HyperCV
open Spec

/-- `memcpy` of more bytes than the source has -/
theorem memcpy_src_oob {m : Mem} {d s N n k : Nat} {f g : Nat → UInt8}
    (hs : Holds m s N f) (hd : Holds m d n g) (hne : s ≠ d) (hk : N < k) (hn : k ≤ n) :
    memcpy d 0 s 0 (k : Int) m = .error (.ub .oob) := by
  unfold memcpy
  rw [if_neg (by omega), if_neg (by rintro ⟨h, -⟩; exact hne h.symm)]
  refine forI_stop (n := k) (k := N) (fun m' => Holds m' s N f ∧ ∃ g, Holds m' d n g) ?_ hk ?_ ⟨hs, g, hd⟩
  · rintro i hi m' ⟨h1, g', h2⟩
    rw [show (0 : Int) + (i : Int) = (i : Int) by omega, bind_ok (load_ok h1 hi)]
    refine ⟨_, store_ok h2 (by omega), h1.put_ne hne, _, holds_put _ _ _ _⟩
  · rintro m' ⟨h1, _⟩
    rw [show (0 : Int) + (N : Int) = (N : Int) by omega]
    exact bind_err (load_oob h1 (le_refl _))

/-- what `smread` does for all numbers of channels: the pixel block has room for one channel only -/
theorem smread_file_run {R C E : Nat} {dt : Int} (ch : Int) (img : List UInt8) (m : Mem) (hR : 0 < R) (hC : 0 < C) (hE : elemBytes dt = some E)
    (hN : R * C * E ≤ 2147483647) :
    smread (some img) R C dt ch m = .ok (some (m.next + 1),
      (m.grow (R * C * E) fun p => if p < img.length then img.getD p 0 else m.junk m.next p).growS ⟨R, C, dt, ch, E, m.next, false⟩) := by
  obtain ⟨e1, e2, e3⟩ := get_elemsize_eq hE
  have hRC : R * C ≤ 2147483647 := le_trans (Nat.le_mul_of_pos_right _ e2) hN
  have i1 : (CI.lit (R : Int) * CI.lit (C : Int) : CI) = CI.lit ((R * C : Nat) : Int) := by
    rw [CI.mul_ok]
    · push_cast; rfl
    · have : ((R : Int) * C) = ((R * C : Nat) : Int) := by push_cast; rfl
      rw [this]; constructor <;> omega
  have i2 : (CI.lit ((R * C : Nat) : Int) * CI.lit (E : Int) : CI) = CI.lit ((R * C * E : Nat) : Int) := by
    rw [CI.mul_ok]
    · push_cast; rfl
    · have : (((R * C : Nat) : Int) * E) = ((R * C * E : Nat) : Int) := by push_cast; rfl
      rw [this]; constructor <;> omega
  unfold smread
  dsimp only
  rw [e1, ev_bind i1, ev_bind i2, if_neg (by omega), bind_ok (malloc_run _ _), Int.toNat_natCast, bind_ok (fread_short (grow_holds m _ _)), grow_put]
  unfold create_simple_mat_with_data
  rw [cassert_bind (by rw [decide_eq_true_eq]; omega)]
  dsimp only
  rw [e1]
  rfl

/-- **C111**, the part that holds: for a file with at least the bytes of the image, `smread` gives a new image of one channel whose elements are the
bytes of the file in row order; nothing that existed changes.  Missing: shorter files, several channels and deletion, see the refutations. -/
theorem C111_one_channel_partial {R C E : Nat} {dt : Int} (img : List UInt8) (m : Mem) (hm : m.WF) (hR : 0 < R) (hC : 0 < C)
    (hE : elemBytes dt = some E) (hN : R * C * E ≤ 2147483647) (hl : R * C * E ≤ img.length) :
    ∃ q m', smread (some img) R C dt 1 m = .ok (some q, m') ∧
      IsImage m' q R C dt 1 E (fun i j _ t => img.getD ((i * C + j) * E + t) 0) ∧ FreshImg m m' q ∧ Frame m m' ∧ m'.WF := by
  set f : Nat → UInt8 := fun p => if p < img.length then img.getD p 0 else m.junk m.next p with hf
  have hsm : ((m.grow (R * C * E) f).growS ⟨R, C, dt, 1, E, m.next, false⟩).sm (m.next + 1) = some ⟨R, C, dt, 1, E, m.next, false⟩ :=
    growS_sm_self _ _
  refine ⟨m.next + 1, _, smread_file_run 1 img m hR hC hE hN, ⟨hE, hR, hC, by decide, ?_⟩, ?_, ?_, ?_⟩
  · refine ⟨_, f, hsm, rfl, rfl, rfl, rfl, rfl, ?_, ?_⟩
    · rw [Nat.mul_one]
      exact bytes_iff.2 (grow_holds m _ _)
    · intro i j c t hi hj hc ht
      obtain rfl : c = 0 := by omega
      have h1 := img_lt hi hj (show 0 < 1 by decide) ht
      simp only [Nat.mul_one, Nat.add_zero] at h1 ⊢
      rw [hf]
      dsimp only
      rw [if_pos (by omega)]
  · intro h ho
    rcases ho with rfl | ⟨hdr, h1, rfl⟩
    · omega
    · rw [hsm] at h1
      obtain rfl := Option.some.inj h1
      exact le_refl _
  · intro h hh
    exact ⟨grow_blk_ne _ _ _ (by omega), rfl, (growS_sm_ne _ _ (by show h ≠ m.next + 1; omega)).trans rfl⟩
  · intro h hh
    have hh' : m.next + 2 ≤ h := hh
    obtain ⟨a, b, c⟩ := hm h (by omega)
    exact ⟨(grow_blk_ne _ _ _ (by omega)).trans a, b, ((growS_sm_ne _ _ (by show h ≠ m.next + 1; omega)).trans rfl).trans c⟩

/-- **C111**, files that cannot be opened and sizes that are not positive end the program -/
theorem C111_rejects {dt ch : Int} {E : Nat} (img : List UInt8) (m : Mem) :
    (∀ R C : Int, smread none R C dt ch m = .error .exit) ∧
    (∀ R C : Nat, R = 0 ∨ C = 0 → R ≤ 2147483647 → C ≤ 2147483647 → elemBytes dt = some E → smread (some img) R C dt ch m = .error .exit) := by
  refine ⟨fun R C => rfl, ?_⟩
  intro R C h0 hR hC hE
  obtain ⟨e1, e2, e3⟩ := get_elemsize_eq hE
  have i1 : (CI.lit (R : Int) * CI.lit (C : Int) : CI) = CI.lit 0 := by
    rcases h0 with rfl | rfl
    · rw [CI.mul_ok] <;> simp [CI.InR]
    · rw [CI.mul_ok] <;> simp [CI.InR]
  have i2 : (CI.lit 0 * CI.lit (E : Int) : CI) = CI.lit 0 := by
    rw [CI.mul_ok] <;> simp [CI.InR]
  unfold smread
  dsimp only
  rw [e1, ev_bind i1, ev_bind i2, if_neg (by omega), bind_ok (malloc_run _ _)]
  have hr := fread_short (img := img) (grow_holds m 0 (m.junk m.next))
  rw [bind_ok (show freadInto m.next img 0 (m.grow (0:Int).toNat (m.junk m.next)) = _ from hr)]
  unfold create_simple_mat_with_data
  rw [show decide ((R : Int) > 0 ∧ (C : Int) > 0) = false by rw [decide_eq_false_iff_not]; omega]
  rfl

/-- **C111 refuted**, several channels: for every number of channels from two on `smread` returns an image that claims these channels, but the storage
has room for one channel only: it is no image of this shape, and copying it reads behind the end of the storage. -/
theorem C111_refuted_channels {R C E ch : Nat} {dt : Int} (img : List UInt8) (m : Mem) (hR : 0 < R) (hC : 0 < C) (hch : 2 ≤ ch)
    (hE : elemBytes dt = some E) (hN : R * C * ch * E ≤ 2147483551) :
    ∃ q m', smread (some img) R C dt ch m = .ok (some q, m') ∧ (∀ px, ¬ IsImage m' q R C dt ch E px) ∧
      simple_mat_copy (some q) m' = .error (.ub .oob) := by
  obtain ⟨e1, e2, e3⟩ := get_elemsize_eq hE
  have hlt : R * C * E < R * C * ch * E := by
    have h0 : 0 < R * C * E := Nat.mul_pos (Nat.mul_pos hR hC) e2
    calc R * C * E < R * C * E * 2 := by omega
      _ ≤ R * C * E * ch := Nat.mul_le_mul_left _ hch
      _ = R * C * ch * E := by ring
  have hrun := smread_file_run (ch : Int) img m hR hC hE (by omega)
  set f : Nat → UInt8 := fun p => if p < img.length then img.getD p 0 else m.junk m.next p with hf
  set m' := (m.grow (R * C * E) f).growS ⟨R, C, dt, ch, E, m.next, false⟩ with hm'
  have hsm : m'.sm (m.next + 1) = some ⟨R, C, dt, ch, E, m.next, false⟩ := growS_sm_self _ _
  have hblk : Holds m' m.next (R * C * E) f := grow_holds m _ _
  refine ⟨m.next + 1, m', hrun, ?_, ?_⟩
  · intro px hi
    obtain ⟨data, inl, h1, h2⟩ := img_lit hi
    rw [hsm] at h1
    injection h1 with h1
    injection h1 with a1 a2 a3 a4 a5 a6 a7
    subst a6
    have h3 : (tab (R * C * E) f).length = (tab (R * C * ch * E) (imgBytes C ch E px)).length := by
      have := hblk.symm.trans h2
      exact congrArg List.length (Option.some.inj this)
    rw [tab_length, tab_length] at h3
    omega
  · unfold simple_mat_copy
    rw [bind_ok (show derefS (some (m.next + 1)) m' = .ok (_, m') from getS_ok hsm)]
    dsimp only
    rw [e1, bind_ok (create_sm_ok hR hC (by omega) hE hN)]
    have hs2 : (m'.newImage R C dt ch E (fun p => if p < R * C * E then 0 else m'.junk m'.next p)).sm (m'.next + 1) = some (newSHdr m' R C dt ch E) :=
      newImage_sm _ _ _ _ _ _ _
    rw [bind_ok (show derefS (some (m'.next + 1)) _ = .ok (_, _) from getS_ok hs2)]
    have i2 := smsize_eval (R := R) (C := C) (ch := ch) (E := E) hC (by omega) e2 (by omega)
    rw [ev_bind i2]
    refine bind_err ?_
    have hne : m.next ≠ m'.next := by show m.next ≠ m.next + 1 + 1; omega
    have hs : Holds (m'.newImage R C dt ch E (fun p => if p < R * C * E then 0 else m'.junk m'.next p)) m.next (R * C * E) f := by
      unfold Holds
      show ((m'.grow _ _).blk m.next) = _
      rw [grow_blk_ne _ _ _ hne]
      exact hblk
    have hd : Holds (m'.newImage R C dt ch E (fun p => if p < R * C * E then 0 else m'.junk m'.next p)) m'.next (R * C * ch * E)
        (fun p => if p < R * C * E then 0 else m'.junk m'.next p) := grow_holds m' _ _
    exact memcpy_src_oob hs hd hne hlt (le_refl _)

/-- **C111 refuted**, deletion: if the allocator places the pixels not more than 64 bytes above the header, for example anywhere below it, deleting what `smread` returned
leaves the pixels allocated for ever; otherwise both are released. -/
theorem C111_refuted_delete {R C E : Nat} {dt : Int} (ch : Int) (img : List UInt8) (m : Mem) (hR : 0 < R) (hC : 0 < C) (hE : elemBytes dt = some E)
    (hN : R * C * E ≤ 2147483647) :
    ∃ m' bytes, (do let q ← smread (some img) R C dt ch; delete_simple_mat q : M Unit) m = .ok ((), m') ∧ m'.sm (m.next + 1) = none ∧
      (m.addr m.next ≤ m.addr (m.next + 1) + 64 → m'.blk m.next = some bytes ∧ bytes.length = R * C * E) ∧
      (m.addr (m.next + 1) + 64 < m.addr m.next → m'.blk m.next = none) := by
  set f : Nat → UInt8 := fun p => if p < img.length then img.getD p 0 else m.junk m.next p with hf
  set m1 := (m.grow (R * C * E) f).growS ⟨R, C, dt, ch, E, m.next, false⟩ with hm1
  have hsm : m1.sm (m.next + 1) = some ⟨R, C, dt, ch, E, m.next, false⟩ := growS_sm_self _ _
  have hblk : m1.blk m.next = some (tab (R * C * E) f) := grow_holds m _ _
  rw [bind_ok (smread_file_run ch img m hR hC hE hN)]
  by_cases h : m.addr m.next ≤ m.addr (m.next + 1) + 64
  · obtain ⟨m', a1, a2, a3⟩ := C11_external_leak hsm rfl (show m1.addr m.next ≤ m1.addr (m.next + 1) + 64 from h)
    refine ⟨m', tab (R * C * E) f, a1, a2, fun _ => ⟨?_, tab_length _ _⟩, fun hh => absurd h (by omega)⟩
    rw [a3]; exact hblk
  · obtain ⟨m', a1, a2, a3, _⟩ := C11_external_partial hsm rfl hblk (show m1.addr (m.next + 1) + 64 < m1.addr m.next by
      show m.addr (m.next + 1) + 64 < m.addr m.next; omega)
    exact ⟨m', [], a1, a2, fun hh => absurd hh h, fun _ => a3⟩

/-- **C111 refuted**, short files: a file that is shorter than the image is accepted, and the element behind its end is what the memory contained: for all
bytes `x` there is a memory, with nothing allocated, for which it is `x`. -/
theorem C111_refuted_short {R C E : Nat} {dt : Int} (img : List UInt8) (hR : 0 < R) (hC : 0 < C) (hE : elemBytes dt = some E)
    (hN : R * C * E ≤ 2147483647) (hl : img.length < R * C * E) (x : UInt8) :
    ∃ m q m' hdr bytes, m.blk = Mem.empty.blk ∧ smread (some img) R C dt 1 m = .ok (some q, m') ∧ m'.sm q = some hdr ∧ m'.blk hdr.data = some bytes ∧
      bytes[img.length]? = some x := by
  obtain ⟨m, hm1, hm2⟩ : ∃ m : Mem, m.blk = Mem.empty.blk ∧ m.junk = fun _ _ => x := ⟨{ Mem.empty with junk := fun _ _ => x }, rfl, rfl⟩
  refine ⟨m, m.next + 1, _, ⟨R, C, dt, 1, E, m.next, false⟩, _, hm1, smread_file_run 1 img m hR hC hE hN, growS_sm_self _ _, grow_holds m _ _, ?_⟩
  rw [tab_get? _ hl, if_neg (lt_irrefl _), hm2]

/-- the hypotheses of the theorems about C111 are met: images of 2 x 3 elements of two bytes, complete and short files, both orders of addresses -/
example : elemBytes 2 = some 2 ∧ 2 * 3 * 2 ≤ (List.replicate 12 (7 : UInt8)).length ∧ ([1, 2] : List UInt8).length < 2 * 3 * 2 ∧ 2 * 3 * 3 * 2 ≤ 2147483551 ∧
    (∃ m : Mem, m.WF ∧ m.addr m.next ≤ m.addr (m.next + 1) + 64) ∧ (∃ m : Mem, m.WF ∧ m.addr (m.next + 1) + 64 < m.addr m.next) :=
  ⟨rfl, by decide, by decide, by decide, ⟨{ Mem.empty with addr := fun h => 64 * h }, fun _ _ => ⟨rfl, rfl, rfl⟩, by show 64 * 0 ≤ 64 * (0 + 1) + 64; decide⟩,
    ⟨{ Mem.empty with addr := fun h => if h = 0 then 4096 else 64 }, fun _ _ => ⟨rfl, rfl, rfl⟩, by show (64:Nat) + 64 < 4096; decide⟩⟩

end HyperCV
