/- C50: k-means clustering. -/
import Verif.Proof.Cluster
import Verif.Props.Statistics

namespace HyperCV
open Spec

namespace Spec
/-- preconditions of k-means: `R*C` pixels with foreground `fg` in a grey image, or in a colour image whose rounded channel
mean is not 0 in the foreground, and sums of coordinates that fit in an `int` -/
structure KmArgs (m : Mem) (p R C : Nat) (fg : Nat → Nat → Bool) (K : Nat) : Prop where
  wf : m.WF
  image : (∃ (px : Nat → Nat → Nat → UInt8), IsImage8 m p R C 1 px ∧ ∀ i j, i < R → j < C → fg i j = decide (px i j 0 ≠ 0)) ∨
    (∃ (px : Nat → Nat → Nat → UInt8) (g : Nat → Nat → Nat), IsImage8 m p R C 3 px ∧ R * C * 3 ≤ 2147483551 ∧
      (∀ i j, i < R → j < C → GreyOf 0 (px i j 0).toNat (px i j 1).toNat (px i j 2).toNat (g i j)) ∧
      ∀ i j, i < R → j < C → fg i j = decide (g i j ≠ 0))
  pos : 0 < K
  squares : R * R + C * C ≤ 2147483647
  sum_x : R * C * C ≤ 2147483647
  sum_y : R * C * R ≤ 2147483647

/-- the random initial centres -/
def randomCentres (rand : Nat → Nat) (R C : Nat) : Nat → Nat × Nat := fun k => (rand (2 * k) % C, rand (2 * k + 1) % R)

/-- the result `v` of the function holds the centres `c` -/
def Returns (K : Nat) (r : Except Err ((Int → Int × Int) × Mem)) (c : Nat → Nat × Nat) : Prop :=
  ∃ v m', r = .ok (v, m') ∧ ∀ k, k < K → v (k : Int) = (((c k).1 : Int), ((c k).2 : Int))
end Spec

section
variable {m : Mem} {p R C K : Nat} {fg : Nat → Nat → Bool}

theorem members_congr {fg fg' : Nat → Nat → Bool} (h : ∀ i j, i < R → j < C → fg i j = fg' i j) (lab : Nat → Nat → Nat) (k : Nat) :
    members R C fg lab k = members R C fg' lab k := by
  unfold members
  refine Finset.filter_congr fun q hq => ?_
  rw [Finset.mem_product, Finset.mem_range, Finset.mem_range] at hq
  rw [h q.1 q.2 hq.1 hq.2]

theorem kmNext_congr {fg fg' : Nat → Nat → Bool} (h : ∀ i j, i < R → j < C → fg i j = fg' i j) (c : Nat → Nat × Nat) :
    kmNext K R C fg c = kmNext K R C fg' c := by
  funext k
  unfold kmNext
  rw [members_congr h]

/-- the call reduces to the loop on a block of grey levels -/
theorem km_open (h : KmArgs m p R C fg K) (th : ℤ) (rand : Nat → Nat) :
    ∃ m' d f v, (∀ fuel, hypercv_k_means fuel rand (some p) K K th m = kmLoop d K R C th fuel v m') ∧
      Holds m' d (R * C) f ∧ (∀ i j, i < R → j < C → decide (f (i * C + j) ≠ 0) = fg i j) ∧
      HoldsC K v (randomCentres rand R C) ∧ InImage K R C (randomCentres rand R C) := by
  have key : ∀ {ch : Nat} {px : Nat → Nat → Nat → UInt8} {m' : Mem} {d q : Nat} {si : SimpleMat}, IsImage8 m p R C ch px →
      greyOfMat (some p) ch m = .ok (some q, m') → m'.sm q = some si → si.data = d →
      (∀ fuel, hypercv_k_means fuel rand (some p) K K th m = kmLoop d K R C th fuel
        (fun k => ((rand (2 * k.toNat) : Int) % (C:Int), (rand (2 * k.toNat + 1) : Int) % (R:Int))) m') := by
    intro ch px m' d q si hi hg hq hd fuel
    obtain ⟨sd, si', h1, h2⟩ := img8_lit hi
    have g1 : derefS (some p) m = .ok (_, m) := getS_ok h1
    have g2 : derefS (some q) m' = .ok (_, m') := getS_ok hq
    unfold hypercv_k_means
    have := h.pos
    rw [cassert_bind (by simp), cassert_bind (by simp; omega), cassert_bind (by simp), bind_ok g1, bind_ok hg, bind_ok g2, hd]
  have hcen : ∀ (hR : 0 < R) (hC : 0 < C), HoldsC K (fun k => ((rand (2 * k.toNat) : Int) % (C:Int), (rand (2 * k.toNat + 1) : Int) % (R:Int)))
      (randomCentres rand R C) ∧ InImage K R C (randomCentres rand R C) := by
    intro hR hC
    refine ⟨fun k _ => ?_, fun k _ => ⟨Nat.mod_lt _ hC, Nat.mod_lt _ hR⟩⟩
    unfold randomCentres
    dsimp only
    rw [Int.toNat_natCast]
    push_cast
    rfl
  rcases h.image with ⟨px, hi, hfg⟩ | ⟨px, g, hi, hN, hg, hfg⟩
  · obtain ⟨sd, si, h1, h2⟩ := img8_lit hi
    rw [Nat.mul_one] at h2
    refine ⟨m, sd, _, _, key hi (by unfold greyOfMat; rw [if_neg (by decide)]; rfl) h1 rfl, h2, ?_, (hcen hi.posR hi.posC).1, (hcen hi.posR hi.posC).2⟩
    intro i j hi' hj
    have := imgBytes_at8 (C := C) (ch := 1) (i := i) (j := j) (c := 0) (px := px) hj (by decide)
    rw [Nat.mul_one, Nat.add_zero] at this
    rw [this, hfg i j hi' hj]
  · have hrun := rgb2gray_run (method := 0) h.wf hi hN
    have hgi : IsImage8 (m.newImage R C 1 1 1 (imgBytes C 1 1 (fun i j _ _ => uchar ((greyLevel 0 (px i j 0).toNat (px i j 1).toNat (px i j 2).toNat : Nat) : ℤ))))
        (m.next + 1) R C 1 (fun i j _ => uchar ((greyLevel 0 (px i j 0).toNat (px i j 1).toNat (px i j 2).toNat : Nat) : ℤ)) :=
      newImage_isImage rfl hi.posR hi.posC (by decide)
    obtain ⟨sd, si, k1, k2⟩ := img8_lit hgi
    rw [Nat.mul_one] at k2
    refine ⟨_, sd, _, _, key hi (by unfold greyOfMat; rw [if_pos (by decide)]; exact hrun) k1 rfl, k2, ?_, (hcen hi.posR hi.posC).1, (hcen hi.posR hi.posC).2⟩
    intro i j hi' hj
    have := imgBytes_at8 (C := C) (ch := 1) (i := i) (j := j) (c := 0)
      (px := fun i j _ => uchar ((greyLevel 0 (px i j 0).toNat (px i j 1).toNat (px i j 2).toNat : Nat) : ℤ)) hj (by decide)
    rw [Nat.mul_one, Nat.add_zero] at this
    rw [this, hfg i j hi' hj]
    have a1 := hg i j hi' hj
    have a2 := greyLevel_spec 0 (px i j 0).toNat (px i j 1).toNat (px i j 2).toNat
    have x0 := (px i j 0).toNat_lt
    have x1 := (px i j 1).toNat_lt
    have x2 := (px i j 2).toNat_lt
    unfold GreyOf at a1 a2
    rw [if_neg (by decide), if_neg (by decide)] at a1 a2
    have e : greyLevel 0 (px i j 0).toNat (px i j 1).toNat (px i j 2).toNat = g i j := by omega
    rw [e]
    have hlt : g i j < 256 := by omega
    refine decide_eq_decide.2 (not_congr ?_)
    rw [← UInt8.toNat_inj]
    unfold uchar
    rw [UInt8.toNat_ofNat']
    show _ = 0 ↔ _
    omega

/-- state of the loop after `n` rounds -/
def kmIter (K R C : Nat) (fg : Nat → Nat → Bool) (c : Nat → Nat × Nat) : Nat → Nat → Nat × Nat
  | 0 => c
  | n + 1 => kmNext K R C fg (kmIter K R C fg c n)

theorem kmIter_in (hR : 0 < R) (hC : 0 < C) {c : Nat → Nat × Nat} (hc : InImage K R C c) (n : Nat) : InImage K R C (kmIter K R C fg c n) := by
  cases n with
  | zero => exact hc
  | succ n => exact kmNext_in hR hC fg

theorem kmIter_shift (c : Nat → Nat × Nat) (n : Nat) : kmIter K R C fg (kmNext K R C fg c) n = kmIter K R C fg c (n + 1) := by
  induction n with
  | zero => rfl
  | succ n ih => rw [kmIter, ih]; rfl

theorem kmLoop_run {m : Mem} {d : Nat} {f : Nat → UInt8} {c : Nat → Nat × Nat} {v : Int → Int × Int} (hK : 0 < K) (hs : Holds m d (R * C) f)
    (hf : ∀ i j, i < R → j < C → decide (f (i * C + j) ≠ 0) = fg i j) (hv : HoldsC K v c) (hc : InImage K R C c)
    (hb : R * R + C * C ≤ 2147483647) (hx : R * C * C ≤ 2147483647) (hy : R * C * R ≤ 2147483647) (th : ℤ) :
    ∀ fuel, (∃ n, n < fuel ∧ (∀ l, l < n → Grew K th (kmIter K R C fg c l) (kmIter K R C fg c (l+1))) ∧
        ¬ Grew K th (kmIter K R C fg c n) (kmIter K R C fg c (n+1)) ∧ Returns K (kmLoop d K R C th fuel v m) (kmIter K R C fg c (n+1))) ∨
      ((∀ l, l < fuel → Grew K th (kmIter K R C fg c l) (kmIter K R C fg c (l+1))) ∧ kmLoop d K R C th fuel v m = .error .diverge) := by
  intro fuel
  induction fuel generalizing v c with
  | zero => exact Or.inr ⟨fun l hl => by omega, rfl⟩
  | succ fuel ih =>
    have hR : 0 < R := Nat.lt_of_le_of_lt (Nat.zero_le _) (hc 0 hK).2
    have hC : 0 < C := Nat.lt_of_le_of_lt (Nat.zero_le _) (hc 0 hK).1
    obtain ⟨v', h1, h2⟩ := kmRound_ok hK hs hv hc hb hx hy th
    rw [kmNext_congr hf] at h1 h2
    have e : kmLoop d K R C th (fuel + 1) v m =
        if Grew K th c (kmNext K R C fg c) then kmLoop d K R C th fuel v' m else .ok (v', m) := by
      rw [kmLoop, bind_ok h1]
      dsimp only
      by_cases hg : Grew K th c (kmNext K R C fg c)
      · rw [if_pos (by simpa using hg), if_pos hg]
      · rw [if_neg (by simpa using hg), if_neg hg]; rfl
    rw [e]
    by_cases hg : Grew K th c (kmNext K R C fg c)
    · rw [if_pos hg]
      rcases ih h2 (kmNext_in hR hC fg) with ⟨n, n1, n2, n3, n4⟩ | ⟨n1, n2⟩
      · rw [kmIter_shift, kmIter_shift] at n3
        rw [kmIter_shift] at n4
        refine Or.inl ⟨n + 1, by omega, ?_, n3, n4⟩
        intro l hl
        cases l with
        | zero => exact hg
        | succ l =>
          have := n2 l (by omega)
          rwa [kmIter_shift, kmIter_shift] at this
      · refine Or.inr ⟨?_, n2⟩
        intro l hl
        cases l with
        | zero => exact hg
        | succ l =>
          have := n1 l (by omega)
          rwa [kmIter_shift, kmIter_shift] at this
    · rw [if_neg hg]
      exact Or.inl ⟨0, by omega, fun l hl => by omega, hg, v', m, rfl, h2⟩

/-- **C50, part**: for every image, every sequence of random numbers and every number of rounds that we wait, the function has
either not returned yet (and has done nothing undefined) or has returned centres that lie inside the image and are the truncated
means of the foreground pixels nearest to centres `c` inside the image, which were the centres one round before, and no coordinate
has grown by more than the threshold from `c`.
Missing: the returned centres need not be the means of the pixels nearest to themselves (`C50_refuted_stable`), and the function
need not return (`C50_refuted_never`). -/
theorem C50_result_partial (h : KmArgs m p R C fg K) (th : ℤ) (rand : Nat → Nat) (fuel : Nat) :
    hypercv_k_means fuel rand (some p) K K th m = .error .diverge ∨
    ∃ c c', Returns K (hypercv_k_means fuel rand (some p) K K th m) c' ∧ InImage K R C c' ∧ InImage K R C c ∧
      KmRound K R C fg c c' ∧ ¬ Grew K th c c' := by
  obtain ⟨m', d, f, v, e, hs, hf, hv, hc⟩ := km_open h th rand
  have hR : 0 < R := Nat.lt_of_le_of_lt (Nat.zero_le _) (hc 0 h.pos).2
  have hC : 0 < C := Nat.lt_of_le_of_lt (Nat.zero_le _) (hc 0 h.pos).1
  rw [e]
  rcases kmLoop_run h.pos hs hf hv hc h.squares h.sum_x h.sum_y th fuel with ⟨n, -, -, n3, n4⟩ | ⟨-, h2⟩
  · exact Or.inr ⟨_, _, n4, kmIter_in hR hC hc _, kmIter_in hR hC hc n, kmNext_round h.pos fg, n3⟩
  · exact Or.inl h2

/-- **C50, exact**: the function returns after the first round in which no coordinate grows by more than the threshold: if
`c 0` are the random centres and each `c (n+1)` is obtained from `c n` by one round, then it returns `c (n+1)` for the least such
`n`, and while there is none it keeps running. -/
theorem C50_rounds (h : KmArgs m p R C fg K) (th : ℤ) (rand : Nat → Nat) (c : Nat → Nat → Nat × Nat)
    (h0 : c 0 = randomCentres rand R C) (hc : ∀ n, KmRound K R C fg (c n) (c (n + 1))) (fuel : Nat) :
    (∀ n, n < fuel → (∀ l, l < n → Grew K th (c l) (c (l + 1))) → ¬ Grew K th (c n) (c (n + 1)) →
      Returns K (hypercv_k_means fuel rand (some p) K K th m) (c (n + 1))) ∧
    ((∀ l, l < fuel → Grew K th (c l) (c (l + 1))) → hypercv_k_means fuel rand (some p) K K th m = .error .diverge) := by
  have hcong : ∀ {c c' : Nat → Nat × Nat}, (∀ k, k < K → c k = c' k) → kmNext K R C fg c = kmNext K R C fg c' := by
    intro c c' hh
    funext k
    unfold kmNext
    congr 2
    funext i j
    have a1 := kmLab_spec c i j h.pos
    have a2 := kmLab_spec c' i j h.pos
    refine a1.unique (K := K) ⟨a2.1, ?_, ?_⟩
    · intro l hl
      rw [hh _ a2.1, hh _ hl]
      exact a2.2.1 l hl
    · intro l hl
      have := a2.1
      rw [hh _ a2.1, hh _ (by omega)]
      exact a2.2.2 l hl
  have hsame : ∀ n k, k < K → c n k = kmIter K R C fg (randomCentres rand R C) n k := by
    intro n
    induction n with
    | zero => intro k _; rw [h0]; rfl
    | succ n ih =>
      intro k hk
      rw [(hc n).unique (kmNext_round h.pos fg) k hk, hcong ih]
      rfl
  have hgrew : ∀ n, Grew K th (c n) (c (n+1)) ↔ Grew K th (kmIter K R C fg (randomCentres rand R C) n) (kmIter K R C fg (randomCentres rand R C) (n+1)) := by
    intro n
    unfold Grew
    refine exists_congr fun k => and_congr_right fun hk => ?_
    rw [hsame n k hk, hsame (n+1) k hk]
  obtain ⟨m', d, f, v, e, hs, hf, hv, hcc⟩ := km_open h th rand
  rw [e]
  have run := kmLoop_run h.pos hs hf hv hcc h.squares h.sum_x h.sum_y th fuel
  constructor
  · intro n hn hl hng
    rcases run with ⟨n', k1, k2, k3, v', m', k4, k5⟩ | ⟨k1, -⟩
    · rw [← hgrew] at k3
      obtain rfl : n = n' := by
        rcases Nat.lt_trichotomy n n' with hh | hh | hh
        · exact absurd ((hgrew n).2 (k2 n hh)) hng
        · exact hh
        · exact absurd (hl n' hh) k3
      exact ⟨v', m', k4, fun k hk => by rw [k5 k hk, hsame (n+1) k hk]⟩
    · exact absurd ((hgrew n).2 (k1 n hn)) hng
  · intro hl
    rcases run with ⟨n', k1, k2, k3, -⟩ | ⟨-, k2⟩
    · exact absurd ((hgrew n').1 (hl n' k1)) k3
    · exact k2

/-- **C50, part**: with one centre and a threshold that is not negative the function returns, after at most two rounds, the mean of
the foreground. -/
theorem C50_one_centre_partial (h : KmArgs m p R C fg 1) {th : ℤ} (hth : 0 ≤ th) (rand : Nat → Nat) :
    Returns 1 (hypercv_k_means 2 rand (some p) 1 1 th m)
      (fun _ => centroid ((Finset.range R ×ˢ Finset.range C).filter fun q => fg q.1 q.2 = true)) := by
  have hn : ∀ c : Nat → Nat × Nat, kmNext 1 R C fg c 0 = centroid ((Finset.range R ×ˢ Finset.range C).filter fun q => fg q.1 q.2 = true) := by
    intro c
    unfold kmNext members
    congr 1
    refine Finset.filter_congr fun q _ => ?_
    have : kmLab c q.1 q.2 1 = 0 := by
      have := (kmLab_spec c q.1 q.2 Nat.one_pos).1
      omega
    dsimp only
    rw [this]
    exact and_iff_left rfl
  obtain ⟨m', d, f, v, e, hs, hf, hv, hc⟩ := km_open h th rand
  have e2 := e 2
  rw [show ((1:Nat):ℤ) = 1 from rfl] at e2
  rw [e2]
  have fin : ∀ r n, Returns 1 r (kmIter 1 R C fg (randomCentres rand R C) (n+1)) →
      Returns 1 r (fun _ => centroid ((Finset.range R ×ˢ Finset.range C).filter fun q => fg q.1 q.2 = true)) := by
    rintro r n ⟨v, m', a, b⟩
    refine ⟨v, m', a, fun k hk => ?_⟩
    rw [b k hk]
    obtain rfl : k = 0 := by omega
    rw [kmIter, hn]
  rcases kmLoop_run h.pos hs hf hv hc h.squares h.sum_x h.sum_y th 2 with ⟨n, -, -, -, n4⟩ | ⟨h1, -⟩
  · exact fin _ n n4
  · obtain ⟨k, hk, hg⟩ := h1 1 (by decide)
    obtain rfl : k = 0 := by omega
    rw [kmIter, kmIter, hn, hn] at hg
    omega

/-- **C50, part**: if the threshold is not below the image's width and height minus one, the function returns after one round. -/
theorem C50_large_threshold_partial (h : KmArgs m p R C fg K) {th : ℤ} (hx : (C:ℤ) - 1 ≤ th) (hy : (R:ℤ) - 1 ≤ th) (rand : Nat → Nat) :
    ∃ c', Returns K (hypercv_k_means 1 rand (some p) K K th m) c' ∧ InImage K R C c' ∧ KmRound K R C fg (randomCentres rand R C) c' := by
  obtain ⟨m', d, f, v, e, hs, hf, hv, hc⟩ := km_open h th rand
  have hR : 0 < R := Nat.lt_of_le_of_lt (Nat.zero_le _) (hc 0 h.pos).2
  have hC : 0 < C := Nat.lt_of_le_of_lt (Nat.zero_le _) (hc 0 h.pos).1
  rw [e]
  rcases kmLoop_run h.pos hs hf hv hc h.squares h.sum_x h.sum_y th 1 with ⟨n, n1, -, -, n4⟩ | ⟨h1, -⟩
  · obtain rfl : n = 0 := by omega
    exact ⟨_, n4, kmIter_in hR hC hc _, kmNext_round h.pos fg⟩
  · obtain ⟨k, hk, hg⟩ := h1 0 (by decide)
    have := kmIter_in (fg := fg) hR hC hc (0 + 1) k hk
    omega

/-- **C50 refuted**: with a threshold not above minus the image's width (or height) the function never returns, whatever the
image and the random numbers are. -/
theorem C50_refuted_never (h : KmArgs m p R C fg K) {th : ℤ} (hth : th ≤ -(C:ℤ) ∨ th ≤ -(R:ℤ)) (rand : Nat → Nat) (fuel : Nat) :
    hypercv_k_means fuel rand (some p) K K th m = .error .diverge := by
  obtain ⟨m', d, f, v, e, hs, hf, hv, hc⟩ := km_open h th rand
  have hR : 0 < R := Nat.lt_of_le_of_lt (Nat.zero_le _) (hc 0 h.pos).2
  have hC : 0 < C := Nat.lt_of_le_of_lt (Nat.zero_le _) (hc 0 h.pos).1
  rw [e]
  rcases kmLoop_run h.pos hs hf hv hc h.squares h.sum_x h.sum_y th fuel with ⟨n, -, -, n3, -⟩ | ⟨-, h2⟩
  · refine absurd ⟨0, h.pos, ?_⟩ n3
    have a := kmIter_in (fg := fg) hR hC hc n 0 h.pos
    have b := kmIter_in (fg := fg) hR hC hc (n+1) 0 h.pos
    rcases hth with ht | ht
    · left; omega
    · right; omega
  · exact h2

/-- **C50 refuted**: the test for movement ignores centres that move left or up.  With the threshold 0 and the foreground pixels 0
and 2 of a row of three, two centres that both start at pixel 1 are returned as 1 and 0, but the pixel nearest to the centre 1 is
pixel 2, so that the centre is not the mean of its pixels. -/
theorem C50_refuted_stable (h : KmArgs m p 1 3 (fun _ j => decide (j ≠ 1)) 2) (rand : Nat → Nat) (h0 : rand 0 % 3 = 1) (h2 : rand 2 % 3 = 1) :
    ∃ c, Returns 2 (hypercv_k_means 1 rand (some p) 2 2 0 m) c ∧
      ∀ c', KmRound 2 1 3 (fun _ j => decide (j ≠ 1)) c c' → c' 0 ≠ c 0 := by
  obtain ⟨m', d, f, v, e, hs, hf, hv, hc⟩ := km_open h 0 rand
  have e2 := e 1
  rw [show ((2:Nat):ℤ) = 2 from rfl] at e2
  rw [e2]
  have hstart : ∀ k, k < 2 → randomCentres rand 1 3 k = (1, 0) := by
    intro k hk
    unfold randomCentres
    rw [Nat.mod_one]
    rcases (show k = 0 ∨ k = 1 by omega) with rfl | rfl
    · rw [h0]
    · rw [h2]
  have hlab : ∀ i j, kmLab (randomCentres rand 1 3) i j 2 = 0 := by
    intro i j
    have hn := kmLab_spec (randomCentres rand 1 3) i j (K := 2) (by decide)
    have hone : FirstNearest 2 (randomCentres rand 1 3) i j 0 := by
      refine ⟨by decide, fun l hl => ?_, fun l hl => by omega⟩
      rw [hstart 0 (by decide), hstart l hl]
    exact hn.unique hone
  have hnext : ∀ k, kmNext 2 1 3 (fun _ j => decide (j ≠ 1)) (randomCentres rand 1 3) k = if k = 0 then (1, 0) else (0, 0) := by
    intro k
    unfold kmNext
    rw [show (fun i j => kmLab (randomCentres rand 1 3) i j 2) = fun _ _ => 0 from by funext i j; exact hlab i j]
    by_cases hk : k = 0
    · subst hk; decide +kernel
    · rw [if_neg hk]
      have : members 1 3 (fun _ j => decide (j ≠ 1)) (fun _ _ => 0) k = ∅ := by
        unfold members
        refine Finset.filter_false_of_mem fun q _ hq => hk hq.2.symm
      rw [this]; rfl
  rcases kmLoop_run h.pos hs hf hv hc h.squares h.sum_x h.sum_y 0 1 with ⟨n, n1, -, n3, n4⟩ | ⟨h1, -⟩
  · obtain rfl : n = 0 := by omega
    refine ⟨_, n4, ?_⟩
    intro c' hc'
    rw [hc'.unique (kmNext_round (by decide) _) 0 (by decide)]
    have : kmIter 2 1 3 (fun _ j => decide (j ≠ 1)) (randomCentres rand 1 3) (0 + 1) = fun k => if k = 0 then (1, 0) else (0, 0) := by
      funext k; exact hnext k
    rw [this]
    decide +kernel
  · obtain ⟨k, hk, hg⟩ := h1 0 (by decide)
    rw [kmIter, kmIter, kmIter, hnext, hstart k hk] at hg
    rcases (show k = 0 ∨ k = 1 by omega) with rfl | rfl <;> simp at hg

/-- a row of three pixels of which the outer ones are set -/
example : KmArgs (demoPair 1 3 fun _ j _ _ => if j ≠ 1 then 9 else 0) 1 1 3 (fun _ j => decide (j ≠ 1)) 2 where
  wf := newImage_WF (newImage_WF empty_WF)
  image := Or.inl ⟨_, (demoPair_args (by decide) (by decide) (by decide) _).src, by
    intro i j _ hj
    by_cases h : j = 1
    · subst h; rfl
    · simp [h]⟩
  pos := by decide
  squares := by decide
  sum_x := by decide
  sum_y := by decide

/-- a colour image of 2 x 3 pixels -/
example : ∃ m fg, KmArgs m 1 2 3 fg 3 ∧ fg 1 1 = true := by
  refine ⟨Mem.empty.newImage 2 3 1 3 1 (imgBytes 3 3 1 fun i j c _ => demoPx i j c 0),
    fun i j => decide (greyLevel 0 (demoPx i j 0 0).toNat (demoPx i j 1 0).toNat (demoPx i j 2 0).toNat ≠ 0),
    ⟨newImage_WF empty_WF, Or.inr ⟨fun i j c => demoPx i j c 0, _,
      newImage_isImage (m := Mem.empty) rfl (by decide) (by decide) (by decide), by decide,
      fun i j _ _ => greyLevel_spec _ _ _ _, fun i j _ _ => rfl⟩, by decide, by decide, by decide, by decide⟩, by decide +kernel⟩

end
end HyperCV
