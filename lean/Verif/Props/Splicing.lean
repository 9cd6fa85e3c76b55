/- C118: splicing a part into a cube. -/
import Verif.Model.ImageProcess
import Verif.Props.Cube
import Verif.Proof.Spectral
import Verif.Proof.FloatAdd

namespace HyperCV
open Spec

section
variable {m : Mem} {p q S L B S' L' B' E start : Nat} {lay lay' : Layout} {dt dt' : Int} {v v' : Nat → Nat → Nat → Nat → UInt8} {w w' : Nat → UInt8}

theorem elem_pos {E : Nat} (hE : elemBytes dt = some E) : 0 < E := by
  unfold elemBytes at hE
  split at hE <;> cases hE <;> decide

/-- splicing writes the data block of the cube, and nothing else -/
theorem splicing_core (hc : IsCube m p lay S L B dt E v w) (hp : IsCube m q lay' S' L' B' dt E v' w') (hsep : Separate m q p)
    (hfit : start + S' * L' * B' ≤ S * L * B) (hN : S * L * B * E ≤ 2147483647) :
    ∃ hdr out, m.hm p = some hdr ∧
      hyper_mat_splicing (some p) (some q) start m = .ok ((), m.put hdr.data (S * L * B * E) (cubeBytes lay S L B E out)) ∧
      (∀ i j k i' j' k' t, i < L → j < S → k < B → i' < L' → j' < S' → k' < B' → t < E →
        lay.pos S L B i j k = start + lay'.pos S' L' B' i' j' k' → out i j k t = v' i' j' k' t) ∧
      ∀ i j k t, i < L → j < S → k < B → t < E →
        lay.pos S L B i j k < start ∨ start + S' * L' * B' ≤ lay.pos S L B i j k → out i j k t = v i j k t := by
  obtain ⟨hdr, wb, f, a1, a2, a3, a4, a5, a6, a7, a8, a9, a10, a11⟩ := hc.obj
  obtain ⟨hdr', wb', f', b1, b2, b3, b4, b5, b6, b7, b8, b9, b10, b11⟩ := hp.obj
  rw [bytes_iff] at a9 a10 b9 b10
  have pE := elem_pos hc.size
  have od : Owns m p hdr.data := Or.inr ⟨hdr, a1, Or.inl rfl⟩
  have os : Owns m q hdr'.data := Or.inr ⟨hdr', b1, Or.inl rfl⟩
  have hne : hdr'.data ≠ hdr.data := fun e => hsep _ ⟨os, e ▸ od⟩
  have fit : start * E + S' * L' * B' * E ≤ S * L * B * E := by
    rw [← Nat.add_mul]; exact Nat.mul_le_mul_right _ hfit
  have e1 : (CI.lit (start:Int) * CI.lit (E:Int) : CI) = CI.lit ((start * E : Nat) : Int) := by
    rw [CI.mul_ok (by constructor <;> ((try norm_cast) <;> omega))]
    push_cast; rfl
  have run : hyper_mat_splicing (some p) (some q) start m = .ok ((), m.put hdr.data (S * L * B * E)
      (fun x => if start * E ≤ x ∧ x < start * E + S' * L' * B' * E then f' (0 + (x - start * E)) else f x)) := by
    unfold hyper_mat_splicing
    rw [show derefH (some p) = getH p from rfl, show derefH (some q) = getH q from rfl, bind_ok (getH_ok a1), bind_ok (getH_ok b1),
      show decide (hdr.data_type = hdr'.data_type) = true by rw [a5, b5]; simp, cassert_bind_true]
    simp only [a5, get_elemsize_eq hc.size, b2, b3, b4]
    rw [bind_ok (ev_ok e1 _), bind_ok (ev_ok (size_eval hp.posL hp.posB pE (by omega)) _)]
    exact memcpy_ok (soff := 0) b9 a9 hne fit (by omega)
  let out : Nat → Nat → Nat → Nat → UInt8 := fun i j k t =>
    if start * E ≤ lay.pos S L B i j k * E + t ∧ lay.pos S L B i j k * E + t < start * E + S' * L' * B' * E
      then f' (0 + (lay.pos S L B i j k * E + t - start * E)) else v i j k t
  have eput : m.put hdr.data (S * L * B * E) (fun x => if start * E ≤ x ∧ x < start * E + S' * L' * B' * E then f' (0 + (x - start * E)) else f x)
      = m.put hdr.data (S * L * B * E) (cubeBytes lay S L B E out) := by
    refine put_congr m _ _ ?_
    intro x hx
    obtain ⟨i, j, k, hi, hj, hk, l1, l2⟩ := byte_cover lay hx
    obtain ⟨t, rfl⟩ : ∃ t, x = lay.pos S L B i j k * E + t := ⟨x - lay.pos S L B i j k * E, by omega⟩
    rw [cubeBytes_at lay hi hj hk (by omega), a11 i j k t hi hj hk (by omega)]
  rw [eput] at run
  refine ⟨hdr, out, a1, run, ?_, ?_⟩
  · intro i j k i' j' k' t hi hj hk hi' hj' hk' ht he
    have l := byte_lt lay' (E := E) hi' hj' hk'
    show (if start * E ≤ lay.pos S L B i j k * E + t ∧ lay.pos S L B i j k * E + t < start * E + S' * L' * B' * E
      then f' (0 + (lay.pos S L B i j k * E + t - start * E)) else v i j k t) = _
    rw [he, Nat.add_mul, if_pos (by omega), ← b11 i' j' k' t hi' hj' hk' ht]
    exact congrArg f' (by omega)
  · intro i j k t hi hj hk ht he
    show (if start * E ≤ lay.pos S L B i j k * E + t ∧ lay.pos S L B i j k * E + t < start * E + S' * L' * B' * E
      then f' (0 + (lay.pos S L B i j k * E + t - start * E)) else v i j k t) = _
    refine if_neg ?_
    rcases he with he | he
    · have := Nat.mul_le_mul_right E (Nat.succ_le_of_lt he)
      rw [Nat.succ_mul] at this
      omega
    · have := Nat.mul_le_mul_right E he
      rw [Nat.add_mul] at this
      omega

/-- **C118**, in terms of the storage: if the part fits at element `start`, then the element of the cube at position `start + n` of the
storage becomes the element of the part at position `n`, the other elements keep their values, the part and the wavelengths of the cube are
unchanged, and nothing else is touched.  Any two orders, any type, any sizes.
Missing for the full property: parts that do not fit are not rejected (`C118_refuted_fit`), nor are parts in another order
(`C118_refuted_order`). -/
theorem C118_splicing_partial (hc : IsCube m p lay S L B dt E v w) (hp : IsCube m q lay' S' L' B' dt E v' w') (hsep : Separate m q p)
    (hfit : start + S' * L' * B' ≤ S * L * B) (hN : S * L * B * E ≤ 2147483647) :
    ∃ m' out, hyper_mat_splicing (some p) (some q) start m = .ok ((), m') ∧ IsCube m' p lay S L B dt E out w ∧
      IsCube m' q lay' S' L' B' dt E v' w' ∧ Unchanged m m' (Owns m p) ∧
      (∀ i j k i' j' k' t, i < L → j < S → k < B → i' < L' → j' < S' → k' < B' → t < E →
        lay.pos S L B i j k = start + lay'.pos S' L' B' i' j' k' → out i j k t = v' i' j' k' t) ∧
      ∀ i j k t, i < L → j < S → k < B → t < E →
        lay.pos S L B i j k < start ∨ start + S' * L' * B' ≤ lay.pos S L B i j k → out i j k t = v i j k t := by
  obtain ⟨hdr, out, a1, run, r1, r2⟩ := splicing_core hc hp hsep hfit hN
  have od : Owns m p hdr.data := Or.inr ⟨hdr, a1, Or.inl rfl⟩
  refine ⟨_, out, run, cube_put hc a1, cube_put_ne hp (fun o => hsep _ ⟨o, od⟩), ?_, r1, r2⟩
  intro x hx
  exact ⟨put_blk_ne _ _ _ (fun e => hx (e ▸ od)), rfl, rfl⟩

/-- **C118**, bands of a band-sequential cube: splicing at the first element of band `b0` replaces the bands `b0`, `b0 + 1`, … by the bands of
the part, line for line and sample for sample, and leaves the other bands alone.
Missing: see `C118_splicing_partial`. -/
theorem C118_bands_partial {b0 : Nat} (hc : IsCube m p .bsq S L B dt E v w) (hp : IsCube m q .bsq S L B' dt E v' w') (hsep : Separate m q p)
    (hfit : b0 + B' ≤ B) (hN : S * L * B * E ≤ 2147483647) :
    ∃ m' out, hyper_mat_splicing (some p) (some q) ((b0 * (L * S) : Nat)) m = .ok ((), m') ∧ IsCube m' p .bsq S L B dt E out w ∧
      IsCube m' q .bsq S L B' dt E v' w' ∧ Unchanged m m' (Owns m p) ∧
      (∀ i j k t, i < L → j < S → k < B' → t < E → out i j (b0 + k) t = v' i j k t) ∧
      ∀ i j k t, i < L → j < S → k < B → t < E → k < b0 ∨ b0 + B' ≤ k → out i j k t = v i j k t := by
  have e1 : S * L * B = B * (L * S) := by ring
  have e2 : S * L * B' = B' * (L * S) := by ring
  have fit : b0 * (L * S) + S * L * B' ≤ S * L * B := by
    rw [e1, e2, ← Nat.add_mul]
    exact Nat.mul_le_mul_right _ hfit
  obtain ⟨m', out, r1, r2, r3, r4, r5, r6⟩ := C118_splicing_partial hc hp hsep fit hN
  refine ⟨m', out, r1, r2, r3, r4, ?_, ?_⟩
  · intro i j k t hi hj hk ht
    refine r5 i j (b0 + k) i j k t hi hj (by omega) hi hj hk ht ?_
    show ((b0 + k) * L + i) * S + j = b0 * (L * S) + ((k * L + i) * S + j)
    ring
  · intro i j k t hi hj hk ht he
    refine r6 i j k t hi hj hk ht ?_
    show (k * L + i) * S + j < _ ∨ _ ≤ (k * L + i) * S + j
    have l : i * S + j < L * S := mix_lt hi hj
    have e3 : (k * L + i) * S + j = k * (L * S) + (i * S + j) := by ring
    rw [e3]
    rcases he with he | he
    · left
      have := Nat.mul_le_mul_right (L * S) (Nat.succ_le_of_lt he)
      rw [Nat.succ_mul] at this
      omega
    · right
      have := Nat.mul_le_mul_right (L * S) he
      rw [Nat.add_mul] at this
      omega

/-- **C118**, lines of a cube that is interleaved by line or by pixel: splicing at the first element of line `i0` replaces the lines `i0`,
`i0 + 1`, … by the lines of the part and leaves the other lines alone.
Missing: see `C118_splicing_partial`. -/
theorem C118_lines_partial {i0 : Nat} (hl : lay ≠ .bsq) (hc : IsCube m p lay S L B dt E v w) (hp : IsCube m q lay S L' B dt E v' w')
    (hsep : Separate m q p) (hfit : i0 + L' ≤ L) (hN : S * L * B * E ≤ 2147483647) :
    ∃ m' out, hyper_mat_splicing (some p) (some q) ((i0 * (B * S) : Nat)) m = .ok ((), m') ∧ IsCube m' p lay S L B dt E out w ∧
      IsCube m' q lay S L' B dt E v' w' ∧ Unchanged m m' (Owns m p) ∧
      (∀ i j k t, i < L' → j < S → k < B → t < E → out (i0 + i) j k t = v' i j k t) ∧
      ∀ i j k t, i < L → j < S → k < B → t < E → i < i0 ∨ i0 + L' ≤ i → out i j k t = v i j k t := by
  have e1 : S * L * B = L * (B * S) := by ring
  have e2 : S * L' * B = L' * (B * S) := by ring
  have fit : i0 * (B * S) + S * L' * B ≤ S * L * B := by
    rw [e1, e2, ← Nat.add_mul]
    exact Nat.mul_le_mul_right _ hfit
  -- the position inside a line
  obtain ⟨g, hg, hlt⟩ : ∃ g : Nat → Nat → Nat, (∀ T i j k, lay.pos S T B i j k = i * (B * S) + g j k) ∧
      ∀ j k, j < S → k < B → g j k < B * S := by
    cases lay with
    | bsq => exact absurd rfl hl
    | bil => exact ⟨fun j k => k * S + j, fun T i j k => by show (i * B + k) * S + j = _; ring, fun j k hj hk => mix_lt hk hj⟩
    | bip =>
      refine ⟨fun j k => j * B + k, fun T i j k => by show (i * S + j) * B + k = _; ring, fun j k hj hk => ?_⟩
      exact (mix_lt hj hk).trans_eq (Nat.mul_comm _ _)
  obtain ⟨m', out, r1, r2, r3, r4, r5, r6⟩ := C118_splicing_partial hc hp hsep fit hN
  refine ⟨m', out, r1, r2, r3, r4, ?_, ?_⟩
  · intro i j k t hi hj hk ht
    refine r5 (i0 + i) j k i j k t (by omega) hj hk hi hj hk ht ?_
    rw [hg, hg]; ring
  · intro i j k t hi hj hk ht he
    refine r6 i j k t hi hj hk ht ?_
    have l := hlt j k hj hk
    rw [hg]
    rcases he with he | he
    · left
      have := Nat.mul_le_mul_right (B * S) (Nat.succ_le_of_lt he)
      rw [Nat.succ_mul] at this
      omega
    · right
      have := Nat.mul_le_mul_right (B * S) he
      rw [Nat.add_mul] at this
      omega

/-- **C118**: a part of another type is rejected with the error exit, before anything is changed. -/
theorem C118_types {E' : Nat} {start : Int} (hc : IsCube m p lay S L B dt E v w) (hp : IsCube m q lay' S' L' B' dt' E' v' w') (hne : dt ≠ dt') :
    hyper_mat_splicing (some p) (some q) start m = .error .exit := by
  obtain ⟨hdr, wb, f, a1, a2, a3, a4, a5, -⟩ := hc.obj
  obtain ⟨hdr', wb', f', b1, b2, b3, b4, b5, -⟩ := hp.obj
  unfold hyper_mat_splicing
  rw [show derefH (some p) = getH p from rfl, show derefH (some q) = getH q from rfl, bind_ok (getH_ok a1), bind_ok (getH_ok b1),
    show decide (hdr.data_type = hdr'.data_type) = false by rw [a5, b5]; simpa using hne, cassert_bind_false]

/-- a copy that starts before or ends after the destination fails -/
theorem memcpy_outside {m : Mem} {d s n N k : Nat} {off : Int} {f g : Nat → UInt8} (hs : Holds m s N f) (hd : Holds m d n g) (hne : d ≠ s)
    (hk : k ≤ N) (hk0 : 0 < k) (hb : off < 0 ∨ (n:Int) < off + k) : memcpy d off s 0 k m = .error (.ub .oob) := by
  unfold memcpy
  rw [if_neg (by omega), if_neg (fun h => hne h.1)]
  let P : Mem → Prop := fun m => Sized m s N ∧ Sized m d n
  have step : ∀ i : Nat, i < k → ∀ m, P m →
      ((off + i < 0 ∨ (n:Int) ≤ off + i) → (do let v ← load s (0 + (i:Int)); store d (off + i) v : M Unit) m = .error (.ub .oob)) ∧
      ((do let v ← load s (0 + (i:Int)); store d (off + i) v : M Unit) m = .error (.ub .oob) ∨
        ∃ m', (do let v ← load s (0 + (i:Int)); store d (off + i) v : M Unit) m = .ok ((), m') ∧ P m') := by
    rintro i hi m ⟨⟨f, q1⟩, ⟨g, q2⟩⟩
    rw [Int.zero_add, bind_ok (load_ok q1 (show i < N by omega))]
    have bad : (off + i < 0 ∨ (n:Int) ≤ off + i) → store d (off + i) (f i) m = .error (.ub .oob) := by
      intro h
      unfold store
      rw [q2]
      simp only [tab_length]
      rw [if_neg (by omega)]
    refine ⟨bad, ?_⟩
    by_cases h : off + i < 0 ∨ (n:Int) ≤ off + i
    · exact Or.inl (bad h)
    · right
      obtain ⟨x, hx⟩ : ∃ x : Nat, off + i = x := ⟨(off + i).toNat, by omega⟩
      rw [hx] at h ⊢
      have st : store d (x:Int) (f i) (m.put d n g) = _ := store_put (by omega)
      rw [q2.put_self] at st
      exact ⟨_, st, sized_put ⟨_, q1⟩ ⟨_, q2⟩, _, holds_put _ _ _ _⟩
  rcases hb with hb | hb
  · exact forI_fails (k := 0) P (fun i hi m hm => (step i hi m hm).2) hk0 (fun m hm => (step 0 hk0 m hm).1 (Or.inl (by simpa using hb))) ⟨⟨_, hs⟩, ⟨_, hd⟩⟩
  · exact forI_fails (k := k - 1) P (fun i hi m hm => (step i hi m hm).2) (by omega)
      (fun m hm => (step (k-1) (by omega) m hm).1 (Or.inr (by omega))) ⟨⟨_, hs⟩, ⟨_, hd⟩⟩

/-- **C118 is false** of parts that do not fit: neither a negative start nor a part that reaches beyond the last element is rejected; memory
before or after the data of the cube is written. -/
theorem C118_refuted_fit {start : Int} (hc : IsCube m p lay S L B dt E v w) (hp : IsCube m q lay' S' L' B' dt E v' w') (hsep : Separate m q p)
    (hbad : start < 0 ∨ (S * L * B : Nat) < start + (S' * L' * B' : Nat)) (hs : CI.InR (start * E)) (hN : S' * L' * B' * E ≤ 2147483647) :
    hyper_mat_splicing (some p) (some q) start m = .error (.ub .oob) := by
  obtain ⟨hdr, wb, f, a1, a2, a3, a4, a5, a6, a7, a8, a9, a10, a11⟩ := hc.obj
  obtain ⟨hdr', wb', f', b1, b2, b3, b4, b5, b6, b7, b8, b9, b10, b11⟩ := hp.obj
  rw [bytes_iff] at a9 b9
  have pE := elem_pos hc.size
  have od : Owns m p hdr.data := Or.inr ⟨hdr, a1, Or.inl rfl⟩
  have os : Owns m q hdr'.data := Or.inr ⟨hdr', b1, Or.inl rfl⟩
  have hne : hdr.data ≠ hdr'.data := fun e => hsep _ ⟨os, e ▸ od⟩
  unfold hyper_mat_splicing
  rw [show derefH (some p) = getH p from rfl, show derefH (some q) = getH q from rfl, bind_ok (getH_ok a1), bind_ok (getH_ok b1),
    show decide (hdr.data_type = hdr'.data_type) = true by rw [a5, b5]; simp, cassert_bind_true]
  simp only [a5, get_elemsize_eq hc.size, b2, b3, b4]
  rw [bind_ok (ev_ok (CI.mul_ok hs) _), bind_ok (ev_ok (size_eval hp.posL hp.posB pE hN) _)]
  refine memcpy_outside b9 a9 hne le_rfl (Nat.mul_pos (Nat.mul_pos (Nat.mul_pos hp.posS hp.posL) hp.posB) pE) ?_
  have pE' : (0:Int) < E := by omega
  rcases hbad with h | h
  · left
    exact Int.mul_neg_of_neg_of_pos h pE'
  · right
    have := Int.mul_lt_mul_of_pos_right h pE'
    rw [Int.add_mul] at this
    push_cast at this ⊢
    exact this

/-- **C118 is false** of parts in another order: the orders are not compared.  A part with two or more bands, interleaved by line, spliced
at a band of a band-sequential cube with two or more lines: line 1 of that band of the cube is line 0 of the *next* band of the part. -/
theorem C118_refuted_order {b0 : Nat} (hc : IsCube m p .bsq S L B dt E v w) (hp : IsCube m q .bil S L B' dt E v' w') (hsep : Separate m q p)
    (hfit : b0 + B' ≤ B) (hN : S * L * B * E ≤ 2147483647) (hL : 2 ≤ L) (hB : 2 ≤ B') :
    ∃ m' out, hyper_mat_splicing (some p) (some q) ((b0 * (L * S) : Nat)) m = .ok ((), m') ∧ IsCube m' p .bsq S L B dt E out w ∧
      ∀ j t, j < S → t < E → out 1 j b0 t = v' 0 j 1 t := by
  have e1 : S * L * B = B * (L * S) := by ring
  have e2 : S * L * B' = B' * (L * S) := by ring
  have fit : b0 * (L * S) + S * L * B' ≤ S * L * B := by
    rw [e1, e2, ← Nat.add_mul]
    exact Nat.mul_le_mul_right _ hfit
  obtain ⟨m', out, r1, r2, -, -, r5, -⟩ := C118_splicing_partial hc hp hsep fit hN
  refine ⟨m', out, r1, r2, fun j t hj ht => ?_⟩
  refine r5 1 j b0 0 j 1 t (by omega) hj (by omega) (by omega) hj (by omega) ht ?_
  show (b0 * L + 1) * S + j = b0 * (L * S) + ((0 * B' + 1) * S + j)
  ring

end

/-! ### The hypotheses can be met -/

/-- a cube and a part, in separate storage, for any sizes, orders and types -/
theorem cubeAndPart (lay lay' : Layout) {S L B E S' L' B' E' : Nat} {dt dt' : Int} (v v' : Nat → Nat → Nat → Nat → UInt8) (hS : 0 < S) (hL : 0 < L)
    (hB : 0 < B) (hE : elemBytes dt = some E) (hS' : 0 < S') (hL' : 0 < L') (hB' : 0 < B') (hE' : elemBytes dt' = some E') :
    ∃ m, IsCube m 2 lay S L B dt E v (fun _ => 0) ∧ IsCube m 5 lay' S' L' B' dt' E' v' (fun _ => 0) ∧ Separate m 5 2 := by
  let m1 := convMem Mem.empty lay S L B dt E v fun _ => 0
  have w1 : m1.WF := convMem_WF empty_WF lay
  have c1 : IsCube m1 2 lay S L B dt E v (fun _ => 0) := newCube_isCube lay hS hL hB hE
  have c2 : IsCube (convMem m1 lay' S' L' B' dt' E' v' fun _ => 0) 5 lay' S' L' B' dt' E' v' (fun _ => 0) := by
    show IsCube _ (m1.next + 2) _ _ _ _ _ _ _ _
    exact newCube_isCube lay' hS' hL' hB' hE'
  refine ⟨_, isCube_frame w1 c1 (convMem_frame m1 lay'), c2, ?_⟩
  rintro h ⟨o2, o1⟩
  have f2 := convMem_fresh (S := S') (L := L') (B := B') (dt := dt') (E := E') (v := v') (w := fun _ => 0) m1 lay' h o2
  have hn : m1.next = 3 := rfl
  rcases o1 with rfl | ⟨hdr, e1, e2⟩
  · omega
  · have e1' : some (newHdr Mem.empty S L B dt lay.tag) = some hdr := e1
    cases e1'
    rcases e2 with e2 | e2
    · have : h = 0 := e2
      omega
    · have : some 1 = some h := e2
      cases this
      omega

/-- two bands spliced into a cube of five bands of `short`s; lines of a cube interleaved by pixel; a part in another order; a part of
another type -/
example : (∃ m, IsCube m 2 .bsq 3 4 5 2 2 (fun i j k t => UInt8.ofNat (i + j + k + t)) (fun _ => 0) ∧
      IsCube m 5 .bsq 3 4 2 2 2 (fun _ _ _ _ => 9) (fun _ => 0) ∧ Separate m 5 2) ∧
    (∃ m, IsCube m 2 .bip 3 4 5 2 2 (fun i j k t => UInt8.ofNat (i + j + k + t)) (fun _ => 0) ∧
      IsCube m 5 .bip 3 2 5 2 2 (fun _ _ _ _ => 9) (fun _ => 0) ∧ Separate m 5 2) ∧
    (∃ m, IsCube m 2 .bsq 3 4 5 2 2 (fun i j k t => UInt8.ofNat (i + j + k + t)) (fun _ => 0) ∧
      IsCube m 5 .bil 3 4 2 2 2 (fun i _ k _ => UInt8.ofNat (i + 7 * k)) (fun _ => 0) ∧ Separate m 5 2) ∧
    ∃ m, IsCube m 2 .bsq 3 4 5 2 2 (fun i j k t => UInt8.ofNat (i + j + k + t)) (fun _ => 0) ∧
      IsCube m 5 .bsq 3 4 2 4 4 (fun _ _ _ _ => 9) (fun _ => 0) ∧ Separate m 5 2 :=
  ⟨cubeAndPart _ _ _ _ (by decide) (by decide) (by decide) rfl (by decide) (by decide) (by decide) rfl,
    cubeAndPart _ _ _ _ (by decide) (by decide) (by decide) rfl (by decide) (by decide) (by decide) rfl,
    cubeAndPart _ _ _ _ (by decide) (by decide) (by decide) rfl (by decide) (by decide) (by decide) rfl,
    cubeAndPart _ _ _ _ (by decide) (by decide) (by decide) rfl (by decide) (by decide) (by decide) rfl⟩

end HyperCV
