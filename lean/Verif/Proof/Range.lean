import Verif.Proof.Convert
import Verif.Proof.Geometric

namespace HyperCV
open Spec

theorem copyElemI_fills {m : Mem} {s d N Ns E d0 s0 : Nat} {f new : Nat → UInt8}
    (hs : Holds m s Ns f) (hne : s ≠ d) (hd : d0 + E ≤ N) (hs0 : s0 + E ≤ Ns)
    (hN : N ≤ 2147483647) (hNs : Ns ≤ 2147483647)
    (hnew : ∀ t, t < E → new (d0 + t) = f (s0 + t)) :
    Fills (copyElemI d (d0 : Int) s (s0 : Int) (E : Int)) m d N new (fun p => d0 ≤ p ∧ p < d0 + E) := by
  unfold copyElemI
  refine Fills.congr (new := new) (Fills.loop (P := fun t p => p = d0 + t) ?_) ?_ (fun _ _ _ => rfl)
  · intro t ht
    have e1 : (CI.lit (s0 : Int) + CI.lit (t : Int) : CI) = CI.lit ((s0 + t : Nat) : Int) := by
      rw [CI.add_ok (by constructor <;> omega)]; push_cast; rfl
    have e2 : (CI.lit (d0 : Int) + CI.lit (t : Int) : CI) = CI.lit ((d0 + t : Nat) : Int) := by
      rw [CI.add_ok (by constructor <;> omega)]; push_cast; rfl
    refine Fills.bind (fun g => ev_ok e1 _) ?_
    refine Fills.bind (fun g => load_ok (hs.put_ne hne) (by omega)) ?_
    refine Fills.bind (fun g => ev_ok e2 _) ?_
    exact Fills.store (by omega) (hnew t ht).symm
  · intro p hp
    constructor
    · rintro ⟨t, ht, rfl⟩; omega
    · intro h; exact ⟨p - d0, by omega, by omega⟩

theorem lit_sub_cancel {a b : Nat} (h : a + b ≤ 2147483647) :
    (CI.lit ((a : Int) + (b : Int)) - CI.lit (a : Int) : CI) = CI.lit (b : Int) := by
  rw [CI.sub_ok (by constructor <;> omega)]
  congr 1
  omega

/-- `X + (o + z) - o` -/
theorem tail_cancel {X : CI} {x o z : Nat} (hX : X = CI.lit (x : Int)) (h : x + (o + z) ≤ 2147483647) :
    (X + CI.lit ((o : Int) + (z : Int)) - CI.lit (o : Int) : CI) = CI.lit ((x + z : Nat) : Int) := by
  rw [hX, CI.add_ok (by constructor <;> omega), CI.sub_ok (by constructor <;> omega)]
  congr 1
  push_cast
  ring

/-- the position of the last element plus the column offset still fits -/
theorem sub_bound {l s b x o S L B : Nat} (hx : x < s) (ho : o + s ≤ S) (hl : l ≤ L) (hb : b ≤ B)
    {r : Nat} (hr : r + 1 ≤ l * b) : r * s + (o + x) < S * L * B := by
  have h1 : (r + 1) * s ≤ l * b * s := Nat.mul_le_mul_right s hr
  have h2 : l * b * s + o ≤ l * b * S := by
    have : l * b * (o + s) ≤ l * b * S := Nat.mul_le_mul_left _ ho
    have h3 : o ≤ l * b * o := Nat.le_mul_of_pos_left _ (by omega)
    have e : l * b * (o + s) = l * b * o + l * b * s := by ring
    omega
  have h3 : l * b * S ≤ L * B * S := Nat.mul_le_mul_right S (Nat.mul_le_mul hl hb)
  have e : (r + 1) * s = r * s + s := by ring
  have e2 : L * B * S = S * L * B := by ring
  omega

section
variable {S L B E sr sc sb l s b : Nat}

/-- destination index in a `bil` cube -/
theorem eval_dst_bil {i j k : Nat} (hi : i < l) (hj : j < s) (hk : k < b) (hE : 0 < E)
    (hl : sr + l ≤ L) (hs : sc + s ≤ S) (hb : sb + b ≤ B) (hN : S * L * B * E ≤ 2147483647) :
    ((((CI.lit ((sr:Int) + (i:Int)) - CI.lit (sr:Int)) * CI.lit (s:Int) * CI.lit (b:Int)
      + (CI.lit ((sb:Int) + (k:Int)) - CI.lit (sb:Int)) * CI.lit (s:Int) + CI.lit ((sc:Int) + (j:Int))
      - CI.lit (sc:Int)) * CI.lit (E:Int) : CI))
      = CI.lit ((Layout.bil.pos s l b i j k * E : Nat) : Int) := by
  have hS1 : S * L * B ≤ S * L * B * E := Nat.le_mul_of_pos_right _ hE
  have q1 : (i * b + k) + 1 ≤ l * b := mix_lt hi hk
  have hb1 := sub_bound (L := L) (B := B) hj hs (by omega) (by omega) q1
  have hi2 : i * b + k ≤ (i * b + k) * s := Nat.le_mul_of_pos_right _ (by omega)
  have hLle : L ≤ S * L * B := by
    have : L ≤ S * L := Nat.le_mul_of_pos_left _ (by omega)
    exact this.trans (Nat.le_mul_of_pos_right _ (by omega))
  have hBle : B ≤ S * L * B := Nat.le_mul_of_pos_left _ (Nat.mul_pos (by omega) (by omega))
  rw [lit_sub_cancel (by omega), lit_sub_cancel (by omega)]
  have e1 : (CI.lit (i:Int) * CI.lit (s:Int) * CI.lit (b:Int) + CI.lit (k:Int) * CI.lit (s:Int) : CI)
      = CI.lit ((i * s * b + k * s : Nat) : Int) := by
    have h : i * s * b + k * s < 2147483648 := by
      have : i * s * b + k * s = (i * b + k) * s := by ring
      omega
    have : 0 < s := by omega
    have : 0 < b := by omega
    ci_down
  have e2 : (i * s * b + k * s) = (i * b + k) * s := by ring
  rw [tail_cancel e1 (by rw [e2]; omega)]
  have hlt := byte_lt .bil (E := E) hi hj hk
  have hsz : s * l * b * E ≤ S * L * B * E :=
    Nat.mul_le_mul_right _ (Nat.mul_le_mul (Nat.mul_le_mul (by omega) (by omega)) (by omega))
  have e3 : Layout.bil.pos s l b i j k * E = (i * s * b + k * s + j) * E := by
    simp only [Layout.pos]; ring
  rw [e3] at hlt ⊢
  have h : (i * s * b + k * s + j) * E < 2147483648 := by omega
  exact CI.mul_down h hE (fun _ => rfl)

/-- destination index in a `bsq` cube -/
theorem eval_dst_bsq {i j k : Nat} (hi : i < l) (hj : j < s) (hk : k < b) (hE : 0 < E)
    (hl : sr + l ≤ L) (hs : sc + s ≤ S) (hb : sb + b ≤ B) (hN : S * L * B * E ≤ 2147483647) :
    ((((CI.lit ((sb:Int) + (k:Int)) - CI.lit (sb:Int)) * CI.lit (s:Int) * CI.lit (l:Int)
      + (CI.lit ((sr:Int) + (i:Int)) - CI.lit (sr:Int)) * CI.lit (s:Int) + CI.lit ((sc:Int) + (j:Int))
      - CI.lit (sc:Int)) * CI.lit (E:Int) : CI))
      = CI.lit ((Layout.bsq.pos s l b i j k * E : Nat) : Int) := by
  have hN' : S * B * L * E ≤ 2147483647 := by
    have : S * B * L * E = S * L * B * E := by ring
    omega
  have := eval_dst_bil (S := S) (L := B) (B := L) (E := E) (sr := sb) (sc := sc) (sb := sr) (l := b) (s := s)
    (b := l) (i := k) (j := j) (k := i) hk hj hi hE hb hs hl hN'
  exact this

/-- destination index in a `bip` cube -/
theorem eval_dst_bip {i j k : Nat} (hi : i < l) (hj : j < s) (hk : k < b) (hE : 0 < E)
    (hl : sr + l ≤ L) (hs : sc + s ≤ S) (hb : sb + b ≤ B) (hN : S * L * B * E ≤ 2147483647) :
    ((((CI.lit ((sr:Int) + (i:Int)) - CI.lit (sr:Int)) * CI.lit (s:Int) * CI.lit (b:Int)
      + (CI.lit ((sc:Int) + (j:Int)) - CI.lit (sc:Int)) * CI.lit (b:Int) + CI.lit ((sb:Int) + (k:Int))
      - CI.lit (sb:Int)) * CI.lit (E:Int) : CI))
      = CI.lit ((Layout.bip.pos s l b i j k * E : Nat) : Int) := by
  have hS1 : S * L * B ≤ S * L * B * E := Nat.le_mul_of_pos_right _ hE
  have q1 : (i * s + j) + 1 ≤ l * s := mix_lt hi hj
  have hb1 := sub_bound (S := B) (L := L) (B := S) hk hb (by omega) (by omega) q1
  have eS : B * L * S = S * L * B := by ring
  rw [eS] at hb1
  have hi2 : i * s + j ≤ (i * s + j) * b := Nat.le_mul_of_pos_right _ (by omega)
  have hLle : L ≤ S * L * B := by
    have : L ≤ S * L := Nat.le_mul_of_pos_left _ (by omega)
    exact this.trans (Nat.le_mul_of_pos_right _ (by omega))
  have hSle : S ≤ S * L * B := by
    have : S ≤ S * L := Nat.le_mul_of_pos_right _ (by omega)
    exact this.trans (Nat.le_mul_of_pos_right _ (by omega))
  rw [lit_sub_cancel (by omega), lit_sub_cancel (by omega)]
  have e1 : (CI.lit (i:Int) * CI.lit (s:Int) * CI.lit (b:Int) + CI.lit (j:Int) * CI.lit (b:Int) : CI)
      = CI.lit ((i * s * b + j * b : Nat) : Int) := by
    have h : i * s * b + j * b < 2147483648 := by
      have : i * s * b + j * b = (i * s + j) * b := by ring
      omega
    have : 0 < s := by omega
    have : 0 < b := by omega
    ci_down
  have e2 : (i * s * b + j * b) = (i * s + j) * b := by ring
  rw [tail_cancel e1 (by rw [e2]; omega)]
  have hlt := byte_lt .bip (E := E) hi hj hk
  have hsz : s * l * b * E ≤ S * L * B * E :=
    Nat.mul_le_mul_right _ (Nat.mul_le_mul (Nat.mul_le_mul (by omega) (by omega)) (by omega))
  have e3 : Layout.bip.pos s l b i j k * E = (i * s * b + j * b + k) * E := by
    simp only [Layout.pos]; ring
  rw [e3] at hlt ⊢
  have h : (i * s * b + j * b + k) * E < 2147483648 := by omega
  exact CI.mul_down h hE (fun _ => rfl)

end

/-- three nested filling loops with offsets -/
theorem nest3_from {o1 o2 o3 n1 n2 n3 : Nat} {h1 h2 h3 : Int} {body : Int → Int → Int → M Unit} {m : Mem}
    {d N : Nat} {new : Nat → UInt8} {P : Nat → Nat → Nat → Nat → Prop}
    (e1 : h1 = (o1:Int) + (n1:Int)) (e2 : h2 = (o2:Int) + (n2:Int)) (e3 : h3 = (o3:Int) + (n3:Int))
    (h : ∀ a b c, a < n1 → b < n2 → c < n3 →
      Fills (body ((o1:Int) + (a:Int)) ((o2:Int) + (b:Int)) ((o3:Int) + (c:Int))) m d N new (P a b c)) :
    Fills (forI (o1:Int) h1 fun a => forI (o2:Int) h2 fun b => forI (o3:Int) h3 fun c => body a b c)
      m d N new (fun p => ∃ a, a < n1 ∧ ∃ b, b < n2 ∧ ∃ c, c < n3 ∧ P a b c p) := by
  apply Fills.loop_from (P := fun a p => ∃ b, b < n2 ∧ ∃ c, c < n3 ∧ P a b c p) e1
  intro a ha
  apply Fills.loop_from (P := fun b p => ∃ c, c < n3 ∧ P a b c p) e2
  intro b hb
  apply Fills.loop_from (P := fun c p => P a b c p) e3
  intro c hc
  exact h a b c ha hb hc

/-- the loop nest chosen for order `lay` fills the sub-cube -/
theorem rangeLoops_fills {m : Mem} {S L B E sr sc sb l s b : Nat} {lay : Layout} {src dst : HyperMat}
    {f : Nat → UInt8} {v : Nat → Nat → Nat → Nat → UInt8}
    (hdS : src.samples = S) (hdL : src.lines = L) (hdB : src.bands = B) (hil : src.interleave = lay.tag)
    (hE : 0 < E) (hl : sr + l ≤ L) (hs : sc + s ≤ S) (hb : sb + b ≤ B) (hN : S * L * B * E ≤ 2147483647)
    (hne : src.data ≠ dst.data) (hh : Holds m src.data (S * L * B * E) f)
    (hv : ∀ i j k t, i < L → j < S → k < B → t < E → f (lay.pos S L B i j k * E + t) = v i j k t) :
    Fills (rangeLoops src dst s l b E sr sc sb ((sr:Int) + (l:Int)) ((sc:Int) + (s:Int)) ((sb:Int) + (b:Int)))
      m dst.data (s * l * b * E) (cubeBytes lay s l b E (fun i j k t => v (sr + i) (sc + j) (sb + k) t))
      (fun p => p < s * l * b * E) := by
  have hsz : s * l * b * E ≤ S * L * B * E :=
    Nat.mul_le_mul_right _ (Nat.mul_le_mul (Nat.mul_le_mul (by omega) (by omega)) (by omega))
  have step : ∀ i j k, i < l → j < s → k < b →
      Fills (copyElemI dst.data ((lay.pos s l b i j k * E : Nat) : Int) src.data
        ((lay.pos S L B (sr + i) (sc + j) (sb + k) * E : Nat) : Int) (E : Int)) m dst.data (s * l * b * E)
        (cubeBytes lay s l b E (fun i j k t => v (sr + i) (sc + j) (sb + k) t))
        (fun p => lay.pos s l b i j k * E ≤ p ∧ p < lay.pos s l b i j k * E + E) := by
    intro i j k hi hj hk
    apply copyElemI_fills hh hne (byte_lt lay hi hj hk)
      (byte_lt lay (show sr + i < L by omega) (show sc + j < S by omega) (show sb + k < B by omega))
      (by omega) (by omega)
    intro t ht
    rw [cubeBytes_at lay hi hj hk ht, hv _ _ _ t (by omega) (by omega) (by omega) ht]
  have cover : ∀ p, p < s * l * b * E → ∃ i, i < l ∧ ∃ j, j < s ∧ ∃ k, k < b ∧
      (lay.pos s l b i j k * E ≤ p ∧ p < lay.pos s l b i j k * E + E) := by
    intro p hp
    obtain ⟨i, j, k, hi, hj, hk, h⟩ := byte_cover lay hp
    exact ⟨i, hi, j, hj, k, hk, h⟩
  have tagc : ∀ lay' : Layout, cmpstr src.tagMem lay'.tag ≠ 0 ↔ lay = lay' := by
    intro lay'
    unfold HyperMat.tagMem
    rw [hil, ← cmpstr_tag_tag lay lay' src.pad]
    rcases cmpstr_cases (lay.tag ++ src.pad) lay'.tag with h | h <;> rw [h] <;> decide
  have t1 : cmpstr src.tagMem "bil".toList ≠ 0 ↔ lay = .bil := tagc .bil
  have t2 : cmpstr src.tagMem "bip".toList ≠ 0 ↔ lay = .bip := tagc .bip
  have t3 : cmpstr src.tagMem "bsq".toList ≠ 0 ↔ lay = .bsq := tagc .bsq
  have hco : ∀ a b : Nat, ((a:Int) + (b:Int)) = ((a + b : Nat) : Int) := by intro a b; push_cast; rfl
  unfold rangeLoops
  cases lay
  · rw [if_neg (fun h => by cases t1.1 h), if_neg (fun h => by cases t2.1 h), if_pos (t3.2 rfl)]
    unfold rangeBsq
    refine Fills.congr (nest3_from (n1 := b) (n2 := l) (n3 := s) rfl rfl rfl
      (P := fun k i j p => Layout.bsq.pos s l b i j k * E ≤ p ∧ p < Layout.bsq.pos s l b i j k * E + E) ?_) ?_
      (fun _ _ _ => rfl)
    · intro k i j hk hi hj
      have e1 : (CI.lit ((sb:Int) + (k:Int)) * CI.lit src.samples * CI.lit src.lines
          + CI.lit ((sr:Int) + (i:Int)) * CI.lit src.samples + CI.lit ((sc:Int) + (j:Int))) * CI.lit (E:Int)
          = CI.lit ((Layout.bsq.pos S L B (sr + i) (sc + j) (sb + k) * E : Nat) : Int) := by
        rw [hdS, hdL, hco, hco, hco]
        exact eval_bsq (by omega) (by omega) (by omega) hE hN
      refine Fills.bind (fun g => ev_ok e1 _) ?_
      refine Fills.bind (fun g => ev_ok (eval_dst_bsq hi hj hk hE hl hs hb hN) _) ?_
      exact step i j k hi hj hk
    · intro p hp
      refine ⟨fun _ => hp, fun _ => ?_⟩
      obtain ⟨i, hi, j, hj, k, hk, h⟩ := cover p hp
      exact ⟨k, hk, i, hi, j, hj, h⟩
  · rw [if_pos (t1.2 rfl)]
    unfold rangeBil
    refine Fills.congr (nest3_from (n1 := l) (n2 := b) (n3 := s) rfl rfl rfl
      (P := fun i k j p => Layout.bil.pos s l b i j k * E ≤ p ∧ p < Layout.bil.pos s l b i j k * E + E) ?_) ?_
      (fun _ _ _ => rfl)
    · intro i k j hi hk hj
      have e1 : (CI.lit ((sr:Int) + (i:Int)) * CI.lit src.samples * CI.lit src.bands
          + CI.lit ((sb:Int) + (k:Int)) * CI.lit src.samples + CI.lit ((sc:Int) + (j:Int))) * CI.lit (E:Int)
          = CI.lit ((Layout.bil.pos S L B (sr + i) (sc + j) (sb + k) * E : Nat) : Int) := by
        rw [hdS, hdB, hco, hco, hco]
        exact eval_bil (by omega) (by omega) (by omega) hE hN
      refine Fills.bind (fun g => ev_ok e1 _) ?_
      refine Fills.bind (fun g => ev_ok (eval_dst_bil hi hj hk hE hl hs hb hN) _) ?_
      exact step i j k hi hj hk
    · intro p hp
      refine ⟨fun _ => hp, fun _ => ?_⟩
      obtain ⟨i, hi, j, hj, k, hk, h⟩ := cover p hp
      exact ⟨i, hi, k, hk, j, hj, h⟩
  · rw [if_neg (fun h => by cases t1.1 h), if_pos (t2.2 rfl)]
    unfold rangeBip
    refine Fills.congr (nest3_from (n1 := l) (n2 := s) (n3 := b) rfl rfl rfl
      (P := fun i j k p => Layout.bip.pos s l b i j k * E ≤ p ∧ p < Layout.bip.pos s l b i j k * E + E) ?_) ?_
      (fun _ _ _ => rfl)
    · intro i j k hi hj hk
      have e1 : (CI.lit ((sr:Int) + (i:Int)) * CI.lit src.samples * CI.lit src.bands
          + CI.lit ((sc:Int) + (j:Int)) * CI.lit src.bands + CI.lit ((sb:Int) + (k:Int))) * CI.lit (E:Int)
          = CI.lit ((Layout.bip.pos S L B (sr + i) (sc + j) (sb + k) * E : Nat) : Int) := by
        rw [hdS, hdB, hco, hco, hco]
        exact eval_bip (by omega) (by omega) (by omega) hE hN
      refine Fills.bind (fun g => ev_ok e1 _) ?_
      refine Fills.bind (fun g => ev_ok (eval_dst_bip hi hj hk hE hl hs hb hN) _) ?_
      exact step i j k hi hj hk
    · intro p hp
      refine ⟨fun _ => hp, fun _ => ?_⟩
      exact cover p hp

theorem newHdr_il (m : Mem) (S L B : Nat) (dt : Int) (lay : Layout) (pad : List Char) :
    newHdr m S L B dt (lay.tag ++ pad) = newHdr m S L B dt lay.tag := by
  cases lay <;> rfl

theorem newCube_il (m : Mem) (S L B : Nat) (dt : Int) (N : Nat) (lay : Layout) (pad : List Char)
    (f w : Nat → UInt8) :
    m.newCube S L B dt N (lay.tag ++ pad) f w = m.newCube S L B dt N lay.tag f w := by
  unfold Mem.newCube
  rw [newHdr_il]

theorem get_range_run {m : Mem} {p S L B E sr sc sb l s b : Nat} {dt : Int} {lay : Layout}
    {v : Nat → Nat → Nat → Nat → UInt8} {w : Nat → UInt8} (hm : m.WF)
    (hc : IsCube m p lay S L B dt E v w) (hN : S * L * B * E ≤ 2147483647) (hW : 4 * B ≤ 2147483647)
    (l0 : 0 < l) (s0 : 0 < s) (b0 : 0 < b) (hl : sr + l ≤ L) (hs : sc + s ≤ S) (hb : sb + b ≤ B) :
    hyper_mat_get_range (some p) sr sc sb ((sr:Int) + (l:Int)) ((sc:Int) + (s:Int)) ((sb:Int) + (b:Int)) m
      = .ok (some (m.next + 2), convMem m lay s l b dt E (fun i j k t => v (sr + i) (sc + j) (sb + k) t)
          (fun t => w (4 * sb + t))) := by
  obtain ⟨hE, hS, hL, hB, hdr, wb, f, h1, h2, h3, h4, h5, h6, h7, h8, h9, h10, h11⟩ := hc
  rw [bytes_iff] at h9 h10
  obtain ⟨e1, e2, e3⟩ := get_elemsize_eq hE
  have hdlt := h9.lt_next hm
  have hwlt := h10.lt_next hm
  have hsz : s * l * b * E ≤ S * L * B * E :=
    Nat.mul_le_mul_right _ (Nat.mul_le_mul (Nat.mul_le_mul (by omega) (by omega)) (by omega))
  have hS1 : S * L * B ≤ S * L * B * E := Nat.le_mul_of_pos_right _ e2
  have hLle : L ≤ S * L * B := by
    have : L ≤ S * L := Nat.le_mul_of_pos_left _ (by omega)
    exact this.trans (Nat.le_mul_of_pos_right _ (by omega))
  have hSle : S ≤ S * L * B := by
    have : S ≤ S * L := Nat.le_mul_of_pos_right _ (by omega)
    exact this.trans (Nat.le_mul_of_pos_right _ (by omega))
  unfold hyper_mat_get_range
  have p1 : decide ((sc:Int) < (sc:Int) + (s:Int) ∧ (sr:Int) < (sr:Int) + (l:Int) ∧
      (sb:Int) < (sb:Int) + (b:Int)) = true := by
    simp only [decide_eq_true_eq]; omega
  rw [p1, cassert_bind_true]
  rw [ev_bind (lit_sub_cancel (by omega)), ev_bind (lit_sub_cancel (by omega)),
    ev_bind (lit_sub_cancel (by omega))]
  rw [bind_ok (show derefH (some p) m = _ from getH_ok h1)]
  have htag : hdr.tagMem = lay.tag ++ hdr.pad := by rw [← h6]; rfl
  rw [h5, htag]
  have hcr := create_ok hm s0 l0 b0 hE (show s * l * b * E ≤ 2147483647 by omega) (by omega)
    (show 2 ≤ (lay.tag ++ hdr.pad).length by rw [List.length_append, tag_length]; omega)
  rw [newCube_il] at hcr
  rw [bind_ok hcr]
  set m1 := m.newCube s l b dt (s * l * b * E) lay.tag (fun _ => 0) (fun _ => 0) with hm1
  have hd1 : m1.hm (m.next + 2) = some (newHdr m s l b dt lay.tag) := newCube_hm _ _ _ _ _ _ _ _ _
  rw [bind_ok (show derefH (some (m.next + 2)) m1 = _ from getH_ok hd1), e1]
  have hfill := rangeLoops_fills (m := m1) (dst := newHdr m s l b dt lay.tag) h2 h3 h4 h6 e2 hl hs hb hN
    (show hdr.data ≠ m.next by omega) (newCube_holds_old hm h9) h11
  rw [bind_ok (hfill.total (fun _ h => h) (newCube_data m s l b dt _ lay.tag _ _))]
  rw [show (newHdr m s l b dt lay.tag).data = m.next from rfl, hm1, newCube_put_data]
  have hwv : rangeWave hdr (newHdr m s l b dt lay.tag) (sb:Int) (b:Int)
      (m.newCube s l b dt (s * l * b * E) lay.tag
        (cubeBytes lay s l b E (fun i j k t => v (sr + i) (sc + j) (sb + k) t)) (fun _ => 0))
      = .ok ((), convMem m lay s l b dt E (fun i j k t => v (sr + i) (sc + j) (sb + k) t)
          (fun t => w (4 * sb + t))) := by
    unfold rangeWave
    rw [h7]
    simp only [newHdr]
    have key := memcpy_ok (doff := 0) (soff := 4 * sb) (k := 4 * b) (newCube_holds_old hm h10)
      (newCube_wave m s l b dt (s * l * b * E) lay.tag
        (cubeBytes lay s l b E (fun i j k t => v (sr + i) (sc + j) (sb + k) t)) (fun _ => 0))
      (show wb ≠ m.next + 1 by omega) (by omega) (by omega)
    have ea : ((sb : Int) * 4) = ((4 * sb : Nat) : Int) := by push_cast; ring
    have eb : ((b : Int) * 4) = ((4 * b : Nat) : Int) := by push_cast; ring
    rw [ea, eb]
    simp only [Int.natCast_zero] at key
    rw [key, newCube_put_wave]
    refine congrArg (fun x => Except.ok ((), x)) ?_
    apply newCube_congr
    · intro i _; rfl
    · intro i hi; simp [hi]
  rw [bind_ok hwv]
  rfl

/-! ### Reshape -/

theorem reshape_run {m : Mem} {p S L B E R C : Nat} {dt : Int} {lay : Layout}
    {v : Nat → Nat → Nat → Nat → UInt8} {w : Nat → UInt8} (hm : m.WF)
    (hc : IsCube m p lay S L B dt E v w) (hN : S * L * B * E ≤ 2147483551)
    (hR : 0 < R) (hC : 0 < C) (hRC : R * C = S * L * B) :
    reshape_hypermat_2_simplemat (some p) R C m
      = .ok (some (m.next + 1), m.newImage R C dt 1 E (cubeBytes lay S L B E v)) := by
  obtain ⟨hE, hS, hL, hB, hdr, wb, f, h1, h2, h3, h4, h5, h6, h7, h8, h9, h10, h11⟩ := hc
  rw [bytes_iff] at h9 h10
  obtain ⟨e1, e2, e3⟩ := get_elemsize_eq hE
  have hdlt := h9.lt_next hm
  have hS1 : S * L * B ≤ S * L * B * E := Nat.le_mul_of_pos_right _ e2
  have h9' : Holds m hdr.data (S * L * B * E) (cubeBytes lay S L B E v) := by
    apply h9.congr
    intro q hq
    obtain ⟨i, j, k, hi, hj, hk, hq1, hq2⟩ := byte_cover lay hq
    obtain ⟨t, rfl⟩ := Nat.exists_eq_add_of_le hq1
    rw [h11 i j k t hi hj hk (by omega), cubeBytes_at lay hi hj hk (by omega)]
  unfold reshape_hypermat_2_simplemat
  rw [bind_ok (show derefH (some p) m = _ from getH_ok h1), h2, h3, h4, h5]
  have x1 : (CI.lit (R:Int) * CI.lit (C:Int) : CI) = CI.lit ((R * C : Nat) : Int) := by
    have h : R * C < 2147483648 := by omega
    ci_down
  rw [ev_bind (size3_eval hL hB (by omega)), ev_bind x1]
  have p1 : decide (((S * L * B : Nat) : Int) = ((R * C : Nat) : Int)) = true := by
    rw [hRC]; simp
  rw [p1, cassert_bind_true]
  have hcr := create_sm_ok (m := m) hR hC (show 0 < 1 by omega) hE
    (show R * C * 1 * E ≤ 2147483551 by rw [Nat.mul_one, hRC]; exact hN)
  rw [Int.natCast_one] at hcr
  rw [bind_ok hcr]
  rw [bind_ok (show derefS (some (m.next + 1)) _ = _ from getS_ok (newImage_sm m R C dt 1 E _))]
  rw [show (newSHdr m R C dt 1 E).elem_size = (E:Int) from rfl,
    show (newSHdr m R C dt 1 E).data = m.next from rfl]
  have hRE : R * C * E ≤ 2147483647 := by rw [hRC]; omega
  rw [ev_bind (size3_eval hC e2 hRE)]
  have hsz : R * C * E = R * C * 1 * E := by ring
  have key := memcpy_ok (doff := 0) (soff := 0) (k := R * C * E) (newImage_holds_old hm h9')
    (newImage_data m R C dt 1 E (fun p => if p < R * C * E then 0 else m.junk m.next p))
    (show hdr.data ≠ m.next by omega) (by omega) (by rw [hRC]; omega)
  simp only [Int.natCast_zero] at key
  rw [bind_ok key, newImage_put]
  refine congrArg (fun x => Except.ok (some (m.next + 1), x)) ?_
  apply newImage_congr
  intro i hi
  rw [← hsz] at hi
  simp [hi]

/-! ### Bands -/

theorem withS_self {m : Mem} {p : Nat} {h : SimpleMat} (hp : m.sm p = some h) : m.withS p h = m := by
  apply Mem.ext' <;> try rfl
  funext q
  by_cases hq : q = p
  · subst hq; rw [withS_sm_self, hp]
  · rw [withS_sm_ne _ _ hq]

theorem band_off {S L E k : Nat} (hL : 0 < L) (hE : 0 < E)
    (hN : S * L * k * E ≤ 2147483647) :
    (CI.lit (S:Int) * CI.lit (L:Int) * (CI.lit ((k:Int) + 1) - CI.lit 1) * CI.lit (E:Int) : CI)
      = CI.lit ((S * L * k * E : Nat) : Int) ∨ ¬ (S * L ≤ 2147483647 ∧ k ≤ 2147483646) := by
  by_cases h : S * L ≤ 2147483647 ∧ k ≤ 2147483646
  · left
    obtain ⟨h1, h2⟩ := h
    rw [CI.sub_ok (by constructor <;> omega)]
    have e : (k:Int) + 1 - 1 = (k:Int) := by omega
    rw [e]
    rcases Nat.eq_zero_or_pos k with hk | hk
    · subst hk
      have x1 : (CI.lit (S:Int) * CI.lit (L:Int) : CI) = CI.lit ((S * L : Nat) : Int) := by
        have h : S * L < 2147483648 := by omega
        ci_down
      rw [x1, CI.mul_ok (by constructor <;> simp), CI.mul_ok (by constructor <;> simp)]
      simp
    · have h : S * L * k * E < 2147483648 := by omega
      ci_down
  · right; exact h

section
variable {m : Mem} {p ip S L B E : Nat} {dt : Int} {v : Nat → Nat → Nat → Nat → UInt8} {w : Nat → UInt8}
  {px : Nat → Nat → Nat → Nat → UInt8}

theorem extract_run (hc : IsCube m p .bsq S L B dt E v w) (hi : IsImage m ip L S dt 1 E px)
    (hsep : ∀ hdr hdr', m.hm p = some hdr → m.sm ip = some hdr' → hdr.data ≠ hdr'.data)
    (hN : S * L * B * E ≤ 2147483647) {k : Nat} (hk : k < B) :
    ∃ m', hyper_mat_2_simple_mat (some p) (some ip) ((k:Int) + 1) m = .ok ((), m') ∧
      IsImage m' ip L S dt 1 E (fun i j _ t => v i j k t) ∧ OnlyPixels m m' ip := by
  obtain ⟨hE, hS, hL, hB, hdr, wb, f, h1, h2, h3, h4, h5, h6, h7, h8, h9, h10, h11⟩ := hc
  rw [bytes_iff] at h9 h10
  obtain ⟨e1, e2, e3⟩ := get_elemsize_eq hE
  obtain ⟨dd, di, b1, b6⟩ := img_lit hi
  have hne : hdr.data ≠ dd := hsep _ _ h1 b1
  have hS1 : S * L * B ≤ S * L * B * E := Nat.le_mul_of_pos_right _ e2
  have hS2 : S * L ≤ S * L * B := Nat.le_mul_of_pos_right _ hB
  have hB2 : B ≤ S * L * B := Nat.le_mul_of_pos_left _ (Nat.mul_pos hS hL)
  have hk2 : S * L * k * E + S * L * E ≤ S * L * B * E := by
    have : S * L * E * (k + 1) ≤ S * L * E * B := Nat.mul_le_mul_left _ hk
    calc S * L * k * E + S * L * E = S * L * E * (k + 1) := by ring
      _ ≤ S * L * E * B := this
      _ = _ := by ring
  have off := (band_off (S := S) hL e2 (k := k) (by omega)).resolve_right (by simp; omega)
  have key := memcpy_ok (m := m) (doff := 0) (soff := S * L * k * E) (k := S * L * E) h9 b6 hne
    (by have : L * S * 1 * E = S * L * E := by ring
        omega) hk2
  obtain ⟨g1, g2⟩ := img_put (px' := fun i j _ t => v i j k t)
    (new := fun q => if 0 ≤ q ∧ q < 0 + S * L * E then f (S * L * k * E + (q - 0))
      else imgBytes S 1 E px q) hi b1
    (fun i j c t hi hj hc ht => by
      have hc0 : c = 0 := by omega
      subst hc0
      have hlt := img_lt (R := L) (C := S) (ch := 1) (E := E) hi hj hc ht
      have e : L * S * 1 * E = S * L * E := by ring
      rw [if_pos ⟨by omega, by omega⟩, ← h11 i j k t hi hj hk ht]
      congr 1
      simp only [Layout.pos, Nat.sub_zero]
      ring)
  refine ⟨_, ?_, g1, g2⟩
  unfold hyper_mat_2_simple_mat
  rw [bind_ok (show derefH (some p) m = _ from getH_ok h1)]
  have ht : decide (cmpstr hdr.tagMem "bsq".toList = 1) = true := by
    have := (cmpstr_tag_tag .bsq .bsq hdr.pad).2 rfl
    unfold HyperMat.tagMem
    rw [h6, decide_eq_true_eq]
    simpa [Layout.tag] using this
  rw [ht, cassert_bind_true]
  rw [bind_ok (show derefS (some ip) m = _ from getS_ok b1), nonNull_some]
  rw [h2, h3, h5]
  rw [bind_ok (setS_ok b1), withS_self b1, e1]
  simp only [Int.natCast_zero] at key off ⊢
  rw [ev_bind off]
  have x1 : (CI.lit (S:Int) * CI.lit (L:Int) * CI.lit (E:Int) : CI) = CI.lit ((S * L * E : Nat) : Int) :=
    size3_eval hL e2 (by
      have : S * L * E ≤ S * L * k * E + S * L * E := Nat.le_add_left _ _
      omega)
  rw [ev_bind x1, key]

/-- what insertion really writes: `S*L` bytes at byte offset `S*L*k` -/
theorem insert_core (hc : IsCube m p .bsq S L B dt E v w) (hi : IsImage m ip L S dt 1 E px)
    (hsep : ∀ hdr hdr', m.hm p = some hdr → m.sm ip = some hdr' → hdr.data ≠ hdr'.data)
    (hN : S * L * B * E ≤ 2147483647) {k : Nat} (hk : k < B) :
    ∃ hdr, m.hm p = some hdr ∧ simple_mat_2_hyper_mat (some p) (some ip) ((k:Int) + 1) m = .ok ((),
      m.put hdr.data (S * L * B * E) (fun q => if S * L * k ≤ q ∧ q < S * L * k + S * L then
        imgBytes S 1 E px (q - S * L * k) else cubeBytes .bsq S L B E v q)) := by
  obtain ⟨hE, hS, hL, hB, hdr, wb, f, h1, h2, h3, h4, h5, h6, h7, h8, h9, h10, h11⟩ := hc
  rw [bytes_iff] at h9 h10
  have h9' : Holds m hdr.data (S * L * B * E) (cubeBytes .bsq S L B E v) := by
    apply h9.congr
    intro q hq
    obtain ⟨i, j, k, hi, hj, hk, hq1, hq2⟩ := byte_cover .bsq hq
    obtain ⟨t, rfl⟩ := Nat.exists_eq_add_of_le hq1
    rw [h11 i j k t hi hj hk (by omega), cubeBytes_at .bsq hi hj hk (by omega)]
  obtain ⟨e1, e2, e3⟩ := get_elemsize_eq hE
  obtain ⟨dd, di, b1, b6⟩ := img_lit hi
  have hne : hdr.data ≠ dd := hsep _ _ h1 b1
  have hS1 : S * L * B ≤ S * L * B * E := Nat.le_mul_of_pos_right _ e2
  have hS2 : S * L ≤ S * L * B := Nat.le_mul_of_pos_right _ hB
  have hB2 : B ≤ S * L * B := Nat.le_mul_of_pos_left _ (Nat.mul_pos hS hL)
  have hk2 : S * L * k + S * L ≤ S * L * B := by
    have : S * L * (k + 1) ≤ S * L * B := Nat.mul_le_mul_left _ hk
    calc S * L * k + S * L = S * L * (k + 1) := by ring
      _ ≤ _ := this
  have off := (band_off (S := S) hL (show 0 < 1 by omega) (k := k) (by omega)).resolve_right (by simp; omega)
  have hLS : S * L ≤ L * S * 1 * E := by
    calc S * L = L * S * 1 := by ring
      _ ≤ L * S * 1 * E := Nat.le_mul_of_pos_right _ e2
  have key := memcpy_ok (m := m) (doff := S * L * k) (soff := 0) (k := S * L) b6 h9' hne.symm
    (by omega) (by omega)
  refine ⟨hdr, h1, ?_⟩
  unfold simple_mat_2_hyper_mat
  rw [bind_ok (show derefH (some p) m = _ from getH_ok h1),
    bind_ok (show derefS (some ip) m = _ from getS_ok b1)]
  have ht : decide (cmpstr hdr.tagMem "bsq".toList = 1) = true := by
    have := (cmpstr_tag_tag .bsq .bsq hdr.pad).2 rfl
    unfold HyperMat.tagMem
    rw [h6, decide_eq_true_eq]
    simpa [Layout.tag] using this
  have ht2 : decide ((k:Int) + 1 ≤ (B:Int) ∧ (k:Int) + 1 > 0) = true := by
    simp only [decide_eq_true_eq]; omega
  rw [h2, h3, h4, ht, ht2]
  simp only [and_self, decide_true, cassert_bind_true]
  have x0 : (CI.lit (S:Int) * CI.lit (L:Int) : CI) = CI.lit ((S * L : Nat) : Int) := by
    have h : S * L < 2147483648 := by omega
    ci_down
  have off' : (CI.lit (S:Int) * CI.lit (L:Int) * (CI.lit ((k:Int) + 1) - CI.lit 1) : CI)
      = CI.lit ((S * L * k : Nat) : Int) := by
    rw [x0, CI.sub_ok (by constructor <;> omega)]
    have e : (k:Int) + 1 - 1 = (k:Int) := by omega
    rw [e, CI.mul_ok]
    · push_cast; rfl
    · have : ((S * L * k : Nat) : Int) ≤ 2147483647 := by omega
      have h0 : (0:Int) ≤ ((S * L : Nat):Int) * (k:Int) := by positivity
      push_cast at this h0 ⊢
      constructor <;> omega
  rw [ev_bind off', ev_bind x0]
  simp only [Int.natCast_zero] at key
  rw [key]
  refine congrArg (fun x => Except.ok ((), x)) ?_
  apply put_congr
  intro q hq
  simp

end

end HyperCV
