/- Proofs about the radiometric corrections. -/
import Verif.Model.Radiometric
import Verif.Proof.Spectral
import Verif.Proof.Filter2D

namespace HyperCV
open Spec

theorem eval_bip1 {S L B i j k : Nat} (hi : i < L) (hj : j < S) (hk : k < B) (hN : S * L * B ≤ 2147483647) :
    (CI.lit (i:Int) * CI.lit (S:Int) * CI.lit (B:Int) + CI.lit (j:Int) * CI.lit (B:Int) + CI.lit (k:Int) : CI)
      = CI.lit ((Layout.bip.pos S L B i j k : Nat) : Int) := by
  have e : Layout.bip.pos S L B i j k = i * S * B + j * B + k := by simp only [Layout.pos]; ring
  have hb := pos_lt .bip hi hj hk
  rw [e] at hb ⊢
  have h : i * S * B + j * B + k < 2147483648 := by omega
  have hS : 0 < S := by omega
  have hB : 0 < B := by omega
  ci_down

/-- the elements of a cube in storage order -/
def flatA (lay : Layout) (S L B : Nat) (a : Nat → Nat → Nat → Nat) (e : Nat) : Nat :=
  let c := Layout.unpos lay S L B e
  a c.1 c.2.1 c.2.2

theorem flatA_pos (lay : Layout) {S L B i j k : Nat} (a : Nat → Nat → Nat → Nat) (hi : i < L) (hj : j < S) (hk : k < B) :
    flatA lay S L B a (lay.pos S L B i j k) = a i j k := by
  unfold flatA; rw [unpos_pos lay hi hj hk]

theorem cubeBytes_flat (lay : Layout) (S L B E : Nat) (a : Nat → Nat → Nat → Nat) :
    cubeBytes lay S L B E (fun i j k t => leByte (a i j k) t) = encN E (flatA lay S L B a) := rfl

theorem cube_flat {m : Mem} {p S L B E : Nat} {dt : Int} {lay : Layout} {a : Nat → Nat → Nat → Nat} {w : Nat → UInt8}
    (hc : IsCubeN m p lay S L B dt E a w) : ∃ hdr wb, m.hm p = some hdr ∧ hdr.samples = S ∧ hdr.lines = L ∧ hdr.bands = B ∧
      hdr.data_type = dt ∧ hdr.interleave = lay.tag ∧ hdr.wavelength = some wb ∧ HoldsN m hdr.data E (S * L * B) (flatA lay S L B a) := by
  obtain ⟨⟨hE, hS, hL, hB, hdr, wb, f, h1, h2, h3, h4, h5, h6, h7, h8, h9, h10, h11⟩, hlt⟩ := hc
  refine ⟨hdr, wb, h1, h2, h3, h4, h5, h6, h7, ?_, ?_⟩
  · rw [bytes_iff] at h9
    refine h9.congr ?_
    intro p hp
    obtain ⟨i, j, k, hi, hj, hk, b1, b2⟩ := byte_cover lay hp
    obtain ⟨t, rfl⟩ := Nat.exists_eq_add_of_le b1
    have ht : t < E := by omega
    rw [h11 i j k t hi hj hk ht, encN_at _ ht, flatA_pos lay a hi hj hk]
  · intro e he
    obtain ⟨i, j, k, hi, hj, hk, rfl⟩ := unpos_spec lay he
    rw [flatA_pos lay a hi hj hk]
    exact hlt i j k hi hj hk

/-- a correction whose element function always succeeds -/
theorem correct_run {m : Mem} (hm : m.WF) {p S L B E : Nat} {dt : Int} {lay : Layout} {a : Nat → Nat → Nat → Nat} {w : Nat → UInt8}
    {elem : HyperMat → Int → Int → Int → M FV} {r : Nat → Nat} (hc : IsCubeN m p lay S L B dt E a w) (hN : S * L * B * 4 ≤ 2147483647)
    (hel : ∀ hdr, m.hm p = some hdr → ∀ i j k, i < L → j < S → k < B → ∀ g, ∃ v,
      elem hdr (i:Int) (j:Int) (k:Int) ((m.newCube S L B 4 (S * L * B * 4) lay.tag (fun _ => 0) (fun _ => 0)).put m.next (S * L * B * 4) g)
        = .ok (v, (m.newCube S L B 4 (S * L * B * 4) lay.tag (fun _ => 0) (fun _ => 0)).put m.next (S * L * B * 4) g) ∧
      f32.encode v = r (Layout.bip.pos S L B i j k)) :
    correctElems (some p) elem m = .ok (some (m.next + 2), m.newCube S L B 4 (S * L * B * 4) lay.tag (encN 4 r) (fun _ => 0)) := by
  obtain ⟨hS, hL, hB⟩ : 0 < S ∧ 0 < L ∧ 0 < B := ⟨hc.1.posS, hc.1.posL, hc.1.posB⟩
  obtain ⟨hdr, wb, h1, h2, h3, h4, h5, h6, h7, h8⟩ := cube_flat hc
  have hW : 4 * B ≤ 2147483647 := by
    have : B ≤ S * L * B := Nat.le_mul_of_pos_left _ (Nat.mul_pos hS hL)
    omega
  unfold correctElems
  rw [bind_ok (show derefH (some p) _ = _ from getH_ok h1)]
  rw [h2, h3, h4]
  rw [bind_ok (create_tag_ok hm h6 hS hL hB rfl hN hW)]
  rw [bind_ok (show derefH (some (m.next + 2)) _ = _ from getH_ok (newCube_hm m S L B 4 _ lay.tag _ _))]
  have hF : Fills (forI 0 (L : Int) fun i => forI 0 (S : Int) fun j => forI 0 (B : Int) fun k => do
        let v ← elem hdr i j k
        let p ← ev (CI.lit i * CI.lit (S:Int) * CI.lit (B:Int) + CI.lit j * CI.lit (B:Int) + CI.lit k)
        storeN 4 (newHdr m S L B 4 lay.tag).data p (f32.encode v))
      (m.newCube S L B 4 (S * L * B * 4) lay.tag (fun _ => 0) (fun _ => 0)) m.next (S * L * B * 4) (encN 4 r)
      (fun x => ∃ i, i < L ∧ ∃ j, j < S ∧ ∃ k, k < B ∧ (Layout.bip.pos S L B i j k * 4 ≤ x ∧ x < Layout.bip.pos S L B i j k * 4 + 4)) := by
    refine nest3 (P := fun i j k x => Layout.bip.pos S L B i j k * 4 ≤ x ∧ x < Layout.bip.pos S L B i j k * 4 + 4) ?_
    intro i j k hi hj hk
    intro g
    obtain ⟨v, e1, e2⟩ := hel hdr h1 i j k hi hj hk g
    rw [bind_ok e1, ev_bind (eval_bip1 hi hj hk (by omega)), e2]
    have := storeN_fills (m := m.newCube S L B 4 (S * L * B * 4) lay.tag (fun _ => 0) (fun _ => 0)) (d := m.next) (N := S * L * B * 4)
      (w := 4) (i := Layout.bip.pos S L B i j k) (v := r (Layout.bip.pos S L B i j k)) (new := encN 4 r) (byte_lt .bip hi hj hk) (by
        intro t ht; rw [encN_at _ ht])
    exact this g
  rw [bind_ok (hF.total ?_ (newCube_data m S L B 4 _ lay.tag _ _)), newCube_put_data]
  · rfl
  · intro x hx
    obtain ⟨i, j, k, hi, hj, hk, b1, b2⟩ := byte_cover .bip hx
    exact ⟨i, hi, j, hj, k, hk, b1, b2⟩

/-- what `absolute_radiometric_correction` stores at one position of the storage -/
def absStored (B : Nat) (a c : Nat → Nat) (e : Nat) : Nat := f32.encode (f32.mul (f32.decode (a e)) (f32.decode (c (e % B))))

theorem absolute_run {m : Mem} (hm : m.WF) {p c S L B : Nat} {dt : Int} {lay : Layout} {a : Nat → Nat → Nat → Nat} {w : Nat → UInt8}
    {co : Nat → Nat} (hc : IsCubeN m p lay S L B dt 4 a w) (hco : HoldsN m c 4 B co) (hN : S * L * B * 4 ≤ 2147483647) :
    absolute_radiometric_correction (some p) c m = .ok (some (m.next + 2),
      m.newCube S L B 4 (S * L * B * 4) lay.tag (encN 4 (absStored B (flatA lay S L B a) co)) (fun _ => 0)) := by
  obtain ⟨hS, hL, hB⟩ : 0 < S ∧ 0 < L ∧ 0 < B := ⟨hc.1.posS, hc.1.posL, hc.1.posB⟩
  obtain ⟨hdr, wb, h1, h2, h3, h4, h5, h6, h7, h8⟩ := cube_flat hc
  refine correct_run hm hc hN ?_
  intro hdr' h1' i j k hi hj hk g
  rw [h1] at h1'
  obtain rfl := Option.some.inj h1'
  rw [h2, h4]
  have d1 := h8.1.lt_next hm
  have d2 := hco.1.lt_next hm
  have k1 : HoldsN ((m.newCube S L B 4 (S * L * B * 4) lay.tag (fun _ => 0) (fun _ => 0)).put m.next (S * L * B * 4) g) hdr.data 4 (S * L * B)
      (flatA lay S L B a) := ⟨(newCube_holds_old hm h8.1).put_ne (by omega), h8.2⟩
  have k2 : HoldsN ((m.newCube S L B 4 (S * L * B * 4) lay.tag (fun _ => 0) (fun _ => 0)).put m.next (S * L * B * 4) g) c 4 B
      co := ⟨(newCube_holds_old hm hco.1).put_ne (by omega), hco.2⟩
  refine ⟨_, ?_, rfl⟩
  rw [ev_bind (eval_bip1 hi hj hk (by omega))]
  unfold loadF
  rw [bind_ok (bind_ok (k1.load (pos_lt .bip hi hj hk))), bind_ok (bind_ok (k2.load hk))]
  show Except.ok _ = Except.ok _
  have e : Layout.bip.pos S L B i j k % B = k := by
    show ((i * S + j) * B + k) % B = k
    exact mix_mod hk
  rw [e]

/-- what `relative_radiometric_correction` stores at one position of the storage -/
def relStored (S B : Nat) (a c : Nat → Nat) (e : Nat) : Nat :=
  f32.encode (f32.mul (f32.ofInt (a e : Nat)) (f32.decode (c (e % B * B + e / B % S))))

theorem eval_rel {S B j k : Nat} (hj : j < S) (hk : k * B + j ≤ 2147483647) :
    (CI.lit (k:Int) * CI.lit (B:Int) + CI.lit (j:Int) : CI) = CI.lit ((k * B + j : Nat) : Int) := eval_lin hk

theorem rel_index {S B j k : Nat} (hj : j < S) (hk : k < B) (h : B ≤ S) : k * B + j < S * B := by
  obtain ⟨d, rfl⟩ := Nat.exists_eq_add_of_le h
  have h1 : (k + 1) * B ≤ B * B := Nat.mul_le_mul_right _ hk
  have h2 : (k + 1) * B = k * B + B := Nat.succ_mul k B
  have h3 : (B + d) * B = B * B + d * B := Nat.add_mul ..
  have h4 : d ≤ d * B := Nat.le_mul_of_pos_right _ (by omega)
  omega

theorem relative_run {m : Mem} (hm : m.WF) {p c S L B : Nat} {dt : Int} {lay : Layout} {a : Nat → Nat → Nat → Nat} {w : Nat → UInt8}
    {co : Nat → Nat} (hc : IsCubeN m p lay S L B dt 2 a w) (hco : HoldsN m c 4 (S * B) co) (hN : S * L * B * 4 ≤ 2147483647) (hSB : B ≤ S) :
    relative_radiometric_correction (some p) c m = .ok (some (m.next + 2),
      m.newCube S L B 4 (S * L * B * 4) lay.tag (encN 4 (relStored S B (flatA lay S L B a) co)) (fun _ => 0)) := by
  obtain ⟨hS, hL, hB⟩ : 0 < S ∧ 0 < L ∧ 0 < B := ⟨hc.1.posS, hc.1.posL, hc.1.posB⟩
  obtain ⟨hdr, wb, h1, h2, h3, h4, h5, h6, h7, h8⟩ := cube_flat hc
  refine correct_run hm hc hN ?_
  intro hdr' h1' i j k hi hj hk g
  rw [h1] at h1'
  obtain rfl := Option.some.inj h1'
  rw [h2, h4]
  have d1 := h8.1.lt_next hm
  have d2 := hco.1.lt_next hm
  have k1 : HoldsN ((m.newCube S L B 4 (S * L * B * 4) lay.tag (fun _ => 0) (fun _ => 0)).put m.next (S * L * B * 4) g) hdr.data 2 (S * L * B)
      (flatA lay S L B a) := ⟨(newCube_holds_old hm h8.1).put_ne (by omega), h8.2⟩
  have k2 : HoldsN ((m.newCube S L B 4 (S * L * B * 4) lay.tag (fun _ => 0) (fun _ => 0)).put m.next (S * L * B * 4) g) c 4 (S * B)
      co := ⟨(newCube_holds_old hm hco.1).put_ne (by omega), hco.2⟩
  have hx := rel_index hj hk hSB
  have hSLB : S * B ≤ S * L * B := Nat.mul_le_mul_right _ (Nat.le_mul_of_pos_right _ hL)
  refine ⟨_, ?_, rfl⟩
  rw [ev_bind (eval_bip1 hi hj hk (by omega)), bind_ok (k1.load (pos_lt .bip hi hj hk)), ev_bind (eval_rel hj (by omega))]
  unfold loadF
  rw [bind_ok (bind_ok (k2.load hx))]
  show Except.ok _ = Except.ok _
  have e1 : Layout.bip.pos S L B i j k % B = k := by
    show ((i * S + j) * B + k) % B = k
    exact mix_mod hk
  have e2 : Layout.bip.pos S L B i j k / B % S = j := by
    show ((i * S + j) * B + k) / B % S = j
    rw [mix_div hk, mix_mod hj]
  rw [e1, e2]

/-- a loop that keeps `P` up to an iteration that fails -/
theorem forI_stop {n k : Nat} {body : Int → M Unit} {e : Err} (P : Mem → Prop)
    (h : ∀ i, i < k → ∀ m, P m → ∃ m', body (i:Int) m = .ok ((), m') ∧ P m') (hk : k < n) (he : ∀ m, P m → body (k:Int) m = .error e)
    {m : Mem} (hm : P m) : forI 0 (n:Int) body m = .error e := by
  have key : ∀ r i m, i + r = n → i ≤ k → P m → forLoop (fun i (_ : Unit) => body i) r (i:Int) () m = .error e := by
    intro r
    induction r with
    | zero => intro i m h1 h2; omega
    | succ r ih =>
      intro i m h1 h2 hm
      unfold forLoop
      by_cases hik : i = k
      · subst hik; exact bind_err (he m hm)
      · obtain ⟨m', g1, g2⟩ := h i (by omega) m hm
        rw [bind_ok g1]
        exact ih (i+1) m' (by omega) (by omega) g2
  unfold forI forA
  rw [show ((n:Int) - 0).toNat = n by omega]
  exact key n 0 m (by omega) (by omega) hm

theorem relative_oob {m : Mem} (hm : m.WF) {p c S L B : Nat} {dt : Int} {lay : Layout} {a : Nat → Nat → Nat → Nat} {w : Nat → UInt8}
    {co : Nat → Nat} (hc : IsCubeN m p lay S L B dt 2 a w) (hco : HoldsN m c 4 (S * B) co) (hN : S * L * B * 4 ≤ 2147483647) (hSB : S < B) :
    relative_radiometric_correction (some p) c m = .error (.ub .oob) := by
  obtain ⟨hS, hL, hB⟩ : 0 < S ∧ 0 < L ∧ 0 < B := ⟨hc.1.posS, hc.1.posL, hc.1.posB⟩
  obtain ⟨hdr, wb, h1, h2, h3, h4, h5, h6, h7, h8⟩ := cube_flat hc
  have hW : 4 * B ≤ 2147483647 := by
    have : B ≤ S * L * B := Nat.le_mul_of_pos_left _ (Nat.mul_pos hS hL)
    omega
  have d1 := h8.1.lt_next hm
  have d2 := hco.1.lt_next hm
  have hSLB : S * B ≤ S * L * B := Nat.mul_le_mul_right _ (Nat.le_mul_of_pos_right _ hL)
  unfold relative_radiometric_correction correctElems
  rw [bind_ok (show derefH (some p) _ = _ from getH_ok h1)]
  rw [h2, h3, h4]
  rw [bind_ok (create_tag_ok hm h6 hS hL hB rfl hN hW)]
  rw [bind_ok (show derefH (some (m.next + 2)) _ = _ from getH_ok (newCube_hm m S L B 4 _ lay.tag _ _))]
  apply bind_err
  let P : Mem → Prop := fun mm => HoldsN mm hdr.data 2 (S * L * B) (flatA lay S L B a) ∧ HoldsN mm c 4 (S * B) co ∧ ∃ g, Holds mm m.next (S * L * B * 4) g
  have hP : P (m.newCube S L B 4 (S * L * B * 4) lay.tag (fun _ => 0) (fun _ => 0)) :=
    ⟨⟨newCube_holds_old hm h8.1, h8.2⟩, ⟨newCube_holds_old hm hco.1, hco.2⟩, _, newCube_data m S L B 4 _ lay.tag _ _⟩
  refine forI_stop (k := 0) P (fun i hi => by omega) hL ?_ hP
  intro m1 hm1
  refine forI_stop (k := 0) P (fun i hi => by omega) hS ?_ hm1
  intro m2 hm2
  refine forI_stop (k := S) P ?_ hSB ?_ hm2
  · intro k hk m3 ⟨q1, q2, g, q3⟩
    have hkB : k < B := by omega
    have hb := pos_lt .bip hL hS hkB
    have hx : k * B + 0 < S * B := mix_lt hk (by omega)
    have e0 : ((0:Nat):Int) = 0 := rfl
    have el : (do
        let p ← ev (CI.lit ((0:Nat):Int) * CI.lit (S:Int) * CI.lit (B:Int) + CI.lit ((0:Nat):Int) * CI.lit (B:Int) + CI.lit (k:Int))
        let x ← loadN 2 hdr.data p
        let q ← ev (CI.lit (k:Int) * CI.lit (B:Int) + CI.lit ((0:Nat):Int))
        let c ← loadF c q
        pure (f32.mul (f32.ofInt x) c)) m3
        = .ok (f32.mul (f32.ofInt (flatA lay S L B a (Layout.bip.pos S L B 0 0 k) : Nat)) (f32.decode (co (k * B + 0))), m3) := by
      rw [ev_bind (eval_bip1 hL hS hkB (by omega)), bind_ok (q1.load (pos_lt .bip hL hS hkB)), ev_bind (eval_rel hS (by omega))]
      unfold loadF
      rw [bind_ok (bind_ok (q2.load hx))]
      rfl
    dsimp only
    rw [h2, h4, bind_ok el, ev_bind (eval_bip1 hL hS hkB (by omega))]
    refine ⟨_, (storeN_fills (m := m3) (d := m.next) (N := S * L * B * 4)
      (w := 4) (i := Layout.bip.pos S L B 0 0 k) (new := encN 4 fun _ => _) (byte_lt .bip hL hS hkB) (by
        intro t ht; rw [encN_at _ ht])).run q3, ?_, ?_, ?_⟩
    · exact q1.put_ne (by omega)
    · exact q2.put_ne (by omega)
    · exact ⟨_, holds_put _ _ _ _⟩
  · intro m3 ⟨q1, q2, g, q3⟩
    have hb := pos_lt .bip hL hS hSB
    dsimp only
    rw [h2, h4]
    apply bind_err
    rw [ev_bind (eval_bip1 hL hS hSB (by omega)), bind_ok (q1.load (pos_lt .bip hL hS hSB)), ev_bind (eval_rel hS (by omega))]
    unfold loadF
    apply bind_err
    apply bind_err
    exact loadN_oob q2.1 (by decide) (by omega)

end HyperCV
