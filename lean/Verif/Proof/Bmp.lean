import Verif.Model.Bmp
import Verif.Spec.Bmp
import Verif.Proof.Color
import Verif.Proof.Typed

namespace HyperCV
open Spec

/-! ### Loops of disjoint swaps -/

/-- contents of a buffer when the positions in `D` have been exchanged by `σ` -/
noncomputable def mix (f : Nat → UInt8) (σ : Nat → Nat) (D : Nat → Prop) : Nat → UInt8 :=
  fun p => by classical exact if D p then f (σ p) else f p

theorem mix_congr {f : Nat → UInt8} {σ : Nat → Nat} {D D' : Nat → Prop} (h : ∀ p, D p ↔ D' p) :
    mix f σ D = mix f σ D' := by
  have : D = D' := funext fun p => propext (h p)
  rw [this]

/-- `x` exchanges the positions in `D` (by `σ`) of the buffer `d` and leaves the rest as it is -/
def Swaps (x : M Unit) (m : Mem) (d N : Nat) (f : Nat → UInt8) (σ : Nat → Nat) (D : Nat → Prop) : Prop :=
  ∀ D0 : Nat → Prop, (∀ p, D p → ¬ D0 p) →
    x (m.put d N (mix f σ D0)) = .ok ((), m.put d N (mix f σ (fun p => D0 p ∨ D p)))

theorem Swaps.swap {m : Mem} {d N a b : Nat} {f : Nat → UInt8} {σ : Nat → Nat} (ha : a < N) (hb : b < N)
    (hab : a ≠ b) (h1 : σ a = b) (h2 : σ b = a) :
    Swaps (swapBytes d (a:Int) (b:Int)) m d N f σ (fun p => p = a ∨ p = b) := by
  intro D0 hD
  have na : ¬ D0 a := hD a (Or.inl rfl)
  have nb : ¬ D0 b := hD b (Or.inr rfl)
  unfold swapBytes
  rw [bind_ok (load_ok (holds_put m d N _) ha), bind_ok (load_ok (holds_put m d N _) hb),
    bind_ok (store_put ha), store_put hb]
  congr 2
  apply put_congr
  intro p _
  by_cases pb : p = b
  · subst pb
    simp [mix, na, h2]
  · by_cases pa : p = a
    · subst pa
      simp [mix, nb, h1, hab]
    · by_cases hp : D0 p <;> simp [mix, pa, pb, hp]

theorem Swaps.loop {n : Nat} {body : Int → M Unit} {m : Mem} {d N : Nat} {f : Nat → UInt8} {σ : Nat → Nat}
    {D : Nat → Nat → Prop} (h : ∀ i, i < n → Swaps (body (i:Int)) m d N f σ (D i))
    (hd : ∀ i i', i < n → i' < n → i ≠ i' → ∀ p, D i p → ¬ D i' p) :
    Swaps (forI 0 (n:Int) body) m d N f σ (fun p => ∃ i, i < n ∧ D i p) := by
  intro D0 hD
  have key := forI_run (n := n) (body := body)
    (fun i => m.put d N (mix f σ (fun p => D0 p ∨ ∃ i', i' < i ∧ D i' p))) (by
      intro i hi
      rw [h i hi]
      · refine congrArg (fun g => Except.ok ((), m.put d N g)) (mix_congr ?_)
        intro p
        constructor
        · rintro ((h0 | ⟨i', h1, h2⟩) | h3)
          · exact Or.inl h0
          · exact Or.inr ⟨i', by omega, h2⟩
          · exact Or.inr ⟨i, by omega, h3⟩
        · rintro (h0 | ⟨i', h1, h2⟩)
          · exact Or.inl (Or.inl h0)
          · by_cases e : i' = i
            · subst e; exact Or.inr h2
            · exact Or.inl (Or.inr ⟨i', by omega, h2⟩)
      · intro p hp
        rintro (h0 | ⟨i', h1, h2⟩)
        · exact hD p ⟨i, hi, hp⟩ h0
        · exact hd i i' hi (by omega) (by omega) p hp h2)
  have e : (fun p => D0 p ∨ ∃ i', i' < 0 ∧ D i' p) = D0 := by
    funext p; simp
  rw [e] at key
  exact key

theorem Swaps.bind {α : Type} {x : M α} {g : α → M Unit} {m : Mem} {d N : Nat} {f : Nat → UInt8} {σ : Nat → Nat}
    {D : Nat → Prop} {a : α} (hx : ∀ g, x (m.put d N g) = .ok (a, m.put d N g)) (hf : Swaps (g a) m d N f σ D) :
    Swaps (x >>= g) m d N f σ D := by
  intro D0 hD
  rw [bind_ok (hx _)]
  exact hf D0 hD

/-- running a loop of swaps from the original contents -/
theorem Swaps.run {x : M Unit} {m : Mem} {d N : Nat} {f : Nat → UInt8} {σ : Nat → Nat} {D : Nat → Prop}
    (h : Swaps x m d N f σ D) (hf : Holds m d N f) (hσ : ∀ p, p < N → ¬ D p → σ p = p) :
    x m = .ok ((), m.put d N (fun p => f (σ p))) := by
  have := h (fun _ => False) (fun _ _ => id)
  have e : mix f σ (fun _ => False) = f := by funext p; simp [mix]
  rw [e, hf.put_self] at this
  rw [this]
  congr 2
  apply put_congr
  intro p hp
  by_cases hd : D p
  · simp [mix, hd]
  · simp [mix, hd, hσ p hp hd]

/-! ### The vertical/channel exchange -/

/-- where the byte at position `p` of a buffer with `H` rows of `L` bytes, `W` colour pixels each, comes from -/
def bmpSwap (H L W p : Nat) : Nat :=
  if p % L < 3 * W ∧ (p / L < H / 2 ∨ H - H / 2 ≤ p / L) then
    (H - 1 - p / L) * L + (p % L / 3 * 3 + (2 - p % L % 3))
  else p

theorem row_div {L r q : Nat} (hq : q < L) : (r * L + q) / L = r := by
  rw [Nat.mul_comm, Nat.mul_add_div (by omega), Nat.div_eq_of_lt hq]; omega

theorem row_mod {L r q : Nat} (hq : q < L) : (r * L + q) % L = q := by
  rw [Nat.mul_comm, Nat.mul_add_mod, Nat.mod_eq_of_lt hq]

theorem bmpSwap_at {H L W r j k : Nat} (hL : 3 * W ≤ L) (hj : j < W) (hk : k < 3) :
    bmpSwap H L W (r * L + (j * 3 + k)) =
      if r < H / 2 ∨ H - H / 2 ≤ r then (H - 1 - r) * L + (j * 3 + (2 - k)) else r * L + (j * 3 + k) := by
  unfold bmpSwap
  have h1 : j * 3 + k < L := by omega
  rw [row_div h1, row_mod h1]
  have e1 : (j * 3 + k) / 3 = j := by omega
  have e2 : (j * 3 + k) % 3 = k := by omega
  rw [e1, e2]
  by_cases h : r < H / 2 ∨ H - H / 2 ≤ r
  · rw [if_pos ⟨by omega, h⟩, if_pos h]
  · rw [if_neg (fun hh => h hh.2), if_neg h]

theorem bmpSwap_pad {H L W r q : Nat} (hq : q < L) (h : 3 * W ≤ q) : bmpSwap H L W (r * L + q) = r * L + q := by
  unfold bmpSwap
  rw [row_div hq, row_mod hq, if_neg (by omega)]

/-- the exchange is an involution on pixel bytes -/
theorem bmpSwap_swap {H L W r j k : Nat} (hL : 3 * W ≤ L) (hj : j < W) (hk : k < 3) (hr : r < H) :
    bmpSwap H L W (bmpSwap H L W (r * L + (j * 3 + k))) = r * L + (j * 3 + k) := by
  rw [bmpSwap_at hL hj hk]
  by_cases h : r < H / 2 ∨ H - H / 2 ≤ r
  · rw [if_pos h, bmpSwap_at hL hj (by omega), if_pos (by omega)]
    congr 2 <;> omega
  · rw [if_neg h, bmpSwap_at hL hj hk, if_neg h]

/-- the swapping loops of both routines -/
theorem swap_loops {m : Mem} {d H L W : Nat} {f : Nat → UInt8} (hf : Holds m d (H * L) f) (hL : 3 * W ≤ L)
    {ia ib : Int → Int → Int → CI}
    (ha : ∀ i j k : Nat, i < H / 2 → j < W → k < 3 → ia i j k = CI.lit ((i * L + (j * 3 + k) : Nat) : Int))
    (hb : ∀ i j k : Nat, i < H / 2 → j < W → k < 3 →
      ib i j k = CI.lit (((H - 1 - i) * L + (j * 3 + (2 - k)) : Nat) : Int)) :
    (forI 0 ((H / 2 : Nat) : Int) fun i => forI 0 (W:Int) fun j => forI 0 3 fun k => do
        let a ← ev (ia i j k)
        let b ← ev (ib i j k)
        swapBytes d a b) m = .ok ((), m.put d (H * L) (fun p => f (bmpSwap H L W p))) := by
  have lt : ∀ r q, r < H → q < L → r * L + q < H * L := fun r q hr hq => mix_lt hr hq
  have key : ∀ r r' q q' : Nat, q < L → q' < L → r * L + q = r' * L + q' → r = r' ∧ q = q' := by
    intro r r' q q' h1 h2 e
    have a1 := congrArg (· / L) e
    have a2 := congrArg (· % L) e
    simp only [row_div h1, row_div h2, row_mod h1, row_mod h2] at a1 a2
    exact ⟨a1, a2⟩
  have hs : Swaps (forI 0 ((H / 2 : Nat) : Int) fun i => forI 0 (W:Int) fun j => forI 0 ((3:Nat):Int) fun k => do
        let a ← ev (ia i j k)
        let b ← ev (ib i j k)
        swapBytes d a b) m d (H * L) f (bmpSwap H L W)
      (fun p => ∃ i, i < H / 2 ∧ ∃ j, j < W ∧ ∃ k, k < 3 ∧
        (p = i * L + (j * 3 + k) ∨ p = (H - 1 - i) * L + (j * 3 + (2 - k)))) := by
    apply Swaps.loop (D := fun i p => ∃ j, j < W ∧ ∃ k, k < 3 ∧
        (p = i * L + (j * 3 + k) ∨ p = (H - 1 - i) * L + (j * 3 + (2 - k))))
    · intro i hi
      apply Swaps.loop (D := fun j p => ∃ k, k < 3 ∧
        (p = i * L + (j * 3 + k) ∨ p = (H - 1 - i) * L + (j * 3 + (2 - k))))
      · intro j hj
        apply Swaps.loop (D := fun k p => p = i * L + (j * 3 + k) ∨ p = (H - 1 - i) * L + (j * 3 + (2 - k)))
        · intro k hk
          rw [ha i j k hi hj hk, hb i j k hi hj hk]
          refine Swaps.bind (fun g => ev_ok rfl _) ?_
          refine Swaps.bind (fun g => ev_ok rfl _) ?_
          apply Swaps.swap
          · exact lt _ _ (by omega) (by omega)
          · exact lt _ _ (by omega) (by omega)
          · intro e
            have := (key _ _ _ _ (by omega) (by omega) e).1
            omega
          · rw [bmpSwap_at hL hj hk, if_pos (Or.inl hi)]
          · rw [bmpSwap_at hL hj (by omega), if_pos (by omega)]
            congr 2 <;> omega
        · intro k k' hk hk' hne p h1 h2
          rcases h1 with h1 | h1 <;> rcases h2 with h2 | h2 <;>
            (have := key _ _ _ _ (by omega) (by omega) (h1.symm.trans h2); omega)
      · rintro j j' hj hj' hne p ⟨k, hk, h1⟩ ⟨k', hk', h2⟩
        rcases h1 with h1 | h1 <;> rcases h2 with h2 | h2 <;>
          (have := key _ _ _ _ (by omega) (by omega) (h1.symm.trans h2); omega)
    · rintro i i' hi hi' hne p ⟨j, hj, k, hk, h1⟩ ⟨j', hj', k', hk', h2⟩
      rcases h1 with h1 | h1 <;> rcases h2 with h2 | h2 <;>
        (have := key _ _ _ _ (by omega) (by omega) (h1.symm.trans h2); omega)
  refine hs.run hf ?_
  intro p hp hD
  unfold bmpSwap
  rw [if_neg]
  rintro ⟨h1, h2⟩
  apply hD
  have hL0 : 0 < L := by omega
  have e : p = p / L * L + p % L := by rw [Nat.mul_comm]; exact (Nat.div_add_mod p L).symm
  have hr : p / L < H := Nat.div_lt_of_lt_mul (by rwa [Nat.mul_comm])
  have e3 : p % L / 3 * 3 + p % L % 3 = p % L := by omega
  rcases h2 with h2 | h2
  · exact ⟨p / L, h2, p % L / 3, by omega, p % L % 3, by omega, Or.inl (by rw [e3]; exact e)⟩
  · refine ⟨H - 1 - p / L, by omega, p % L / 3, by omega, 2 - p % L % 3, by omega, Or.inr ?_⟩
    rw [show H - 1 - (H - 1 - p / L) = p / L by omega, show 2 - (2 - p % L % 3) = p % L % 3 by omega, e3]
    exact e

/-! ### Header fields -/

theorem field_get {file : List UInt8} {off w v : Nat} (h : FieldLE file off w v) : fieldU file off w = v := by
  have e : (file.drop off).take w = tab w (leByte v) := by
    apply List.ext_getElem?
    intro t
    rw [List.getElem?_take]
    by_cases ht : t < w
    · rw [if_pos ht, List.getElem?_drop, h.2 t ht, tab_get? _ ht]; rfl
    · rw [if_neg ht, tab_get?_none _ (by omega)]
  unfold fieldU
  rw [e, leNat_leByte, Nat.mod_eq_of_lt h.1]

theorem field_getI {file : List UInt8} {off v : Nat} (h : FieldLE file off 4 v) (hv : v < 2147483648) :
    fieldI file off = v := by
  unfold fieldI
  rw [field_get h, if_pos hv]

theorem field_mk {A B : List UInt8} {w v off : Nat} (hv : v < 256 ^ w) (hA : A.length = off) :
    FieldLE (A ++ (leBytes w v ++ B)) off w v := by
  refine ⟨hv, ?_⟩
  intro t ht
  subst hA
  rw [List.getElem?_append_right (by omega), show A.length + t - A.length = t by omega,
    List.getElem?_append_left (by simpa [leBytes] using ht)]
  exact tab_get? _ ht

theorem field_skip {B : List UInt8} {n x w v : Nat} (off : Nat) (h : FieldLE B off w v) :
    FieldLE (leBytes n x ++ B) (off + n) w v := by
  refine ⟨h.1, ?_⟩
  intro t ht
  have hl : (leBytes n x).length = n := by simp [leBytes]
  rw [List.getElem?_append_right (by omega), ← h.2 t ht]
  congr 1
  omega

theorem field_skip' {A B : List UInt8} {w v : Nat} (off : Nat) (h : FieldLE B off w v) :
    FieldLE (A ++ B) (off + A.length) w v := by
  refine ⟨h.1, ?_⟩
  intro t ht
  rw [List.getElem?_append_right (by omega), ← h.2 t ht]
  congr 1
  omega

theorem leBytes_len (w v : Nat) : (leBytes w v).length = w := by simp [leBytes]

theorem bmpHeaders_len (w h s : Int) : (bmpHeaders w h s).length = 54 := by
  simp [bmpHeaders, leBytes_len]

theorem stride_bounds (C : Nat) : 3 * C ≤ bmpStride C ∧ bmpStride C ≤ 3 * C + 3 := by
  unfold bmpStride; omega

theorem fieldOf_nat {n : Nat} (h : n < 4294967296) : fieldOf (n:Int) = n := by
  unfold fieldOf; omega

/-- the file written for a buffer whose rows are `row` -/
theorem isBmp_mk {R C : Nat} {body : Nat → UInt8} {raw : Nat → Nat → Nat → UInt8} (hC : C < 4294967296)
    (hR : R < 4294967296) (hS : 54 + R * bmpStride C < 4294967296)
    (hraw : ∀ r j k, r < R → j < C → k < 3 → body (r * bmpStride C + (j * 3 + k)) = raw r j k) :
    IsBmp24 (bmpHeaders (C:Int) (R:Int) ((R * bmpStride C : Nat) : Int) ++ tab (R * bmpStride C) body) R C raw := by
  have hlen : (bmpHeaders (C:Int) (R:Int) ((R * bmpStride C : Nat) : Int) ++ tab (R * bmpStride C) body).length
      = 54 + R * bmpStride C := by simp [bmpHeaders_len]
  have e1 : fieldOf (54 + ((R * bmpStride C : Nat) : Int)) = 54 + R * bmpStride C := by
    unfold fieldOf; omega
  generalize hB : tab (R * bmpStride C) body = B
  rw [hB] at hlen
  have full : bmpHeaders (C:Int) (R:Int) ((R * bmpStride C : Nat) : Int) ++ B =
      [0x42, 0x4D] ++ (leBytes 4 (54 + R * bmpStride C) ++ (leBytes 2 0 ++ (leBytes 2 0 ++ (leBytes 4 54 ++
      (leBytes 4 40 ++ (leBytes 4 C ++ (leBytes 4 R ++ (leBytes 2 1 ++ (leBytes 2 24 ++ (leBytes 4 0 ++
      (leBytes 4 (R * bmpStride C) ++ (leBytes 4 100 ++ (leBytes 4 100 ++ (leBytes 4 0 ++ (leBytes 4 0 ++ B)))))))))))))))
      := by
    unfold bmpHeaders
    rw [e1, fieldOf_nat hC, fieldOf_nat hR, fieldOf_nat (show R * bmpStride C < 4294967296 by omega)]
    simp only [List.append_assoc]
    rfl
  constructor
  · rw [full]; exact ⟨rfl, rfl⟩
  · rw [hlen, full]
    exact field_mk (by norm_num; omega) rfl
  · rw [full]
    exact field_skip' 8 (field_skip 4 (field_skip 2 (field_skip 0 (field_mk (A := []) (by norm_num) rfl))))
  · rw [full]
    exact field_skip' 12 (field_skip 8 (field_skip 6 (field_skip 4 (field_skip 0 (field_mk (A := []) (by norm_num) rfl)))))
  · rw [full]
    exact field_skip' 16 (field_skip 12 (field_skip 10 (field_skip 8 (field_skip 4 (field_skip 0
      (field_mk (A := []) (by norm_num; omega) rfl))))))
  · rw [full]
    exact field_skip' 20 (field_skip 16 (field_skip 14 (field_skip 12 (field_skip 8 (field_skip 4 (field_skip 0
      (field_mk (A := []) (by norm_num; omega) rfl)))))))
  · rw [full]
    exact field_skip' 24 (field_skip 20 (field_skip 18 (field_skip 16 (field_skip 12 (field_skip 8 (field_skip 4
      (field_skip 0 (field_mk (A := []) (by norm_num) rfl))))))))
  · rw [full]
    exact field_skip' 26 (field_skip 22 (field_skip 20 (field_skip 18 (field_skip 14 (field_skip 10 (field_skip 6
      (field_skip 2 (field_skip 0 (field_mk (A := []) (by norm_num) rfl)))))))))
  · rw [full]
    exact field_skip' 28 (field_skip 24 (field_skip 22 (field_skip 20 (field_skip 16 (field_skip 12 (field_skip 8
      (field_skip 4 (field_skip 2 (field_skip 0 (field_mk (A := []) (by norm_num) rfl))))))))))
  · exact hlen
  · intro r j k hr hj hk
    have hl := bmpHeaders_len (C:Int) (R:Int) ((R * bmpStride C : Nat) : Int)
    rw [List.getElem?_append_right (by omega), hl, ← hB]
    have hb := (stride_bounds C).1
    have : r * bmpStride C + (j * 3 + k) < R * bmpStride C := mix_lt hr (by omega)
    rw [show 54 + r * bmpStride C + 3 * j + k - 54 = r * bmpStride C + (j * 3 + k) by omega, tab_get? _ this,
      hraw r j k hr hj hk]

/-! ### Reading -/

theorem fread_fills {m : Mem} {d N pos : Nat} {file : List UInt8} {new : Nat → UInt8} (h : pos + N ≤ file.length)
    (hnew : ∀ t, t < N → file[pos + t]? = some (new t)) :
    Fills (freadBytes d file pos N) m d N new (fun p => p < N) := by
  unfold freadBytes
  have e : min N (file.length - pos) = N := by omega
  rw [e]
  refine Fills.congr (Fills.loop (P := fun i p => p = i) (new := new) ?_) ?_ ?_
  · intro i hi
    apply Fills.store hi
    simp [hnew i hi]
  · intro p
    simp
  · intro p _ _; rfl

theorem stride_eval {C : Nat} (hC : 24 * C ≤ 2147483647) :
    (CI.lit (C:Int) * CI.lit 24 / CI.lit 8 : CI) = CI.lit ((3 * C : Nat) : Int) ∧
    ((CI.lit (C:Int) * CI.lit 24 / CI.lit 8 + CI.lit 3) / CI.lit 4 * CI.lit 4 : CI)
      = CI.lit ((bmpStride C : Nat) : Int) := by
  have d8 : (((C:Int) * 24).tdiv 8) = ((3 * C : Nat) : Int) := by
    rw [Int.tdiv_eq_ediv_of_nonneg (by omega)]; omega
  have d4 : ((((3 * C : Nat):Int) + 3).tdiv 4) = (((3 * C + 3) / 4 : Nat) : Int) := by
    rw [Int.tdiv_eq_ediv_of_nonneg (by omega)]; omega
  have h1 : (CI.lit (C:Int) * CI.lit 24 / CI.lit 8 : CI) = CI.lit ((3 * C : Nat) : Int) := by
    rw [CI.mul_ok (by constructor <;> omega), CI.div_ok (by decide) (by rw [d8]; constructor <;> omega), d8]
  refine ⟨h1, ?_⟩
  rw [h1, CI.add_ok (by constructor <;> omega), CI.div_ok (by decide) (by rw [d4]; constructor <;> omega), d4,
    CI.mul_ok (by constructor <;> omega)]
  rfl

/-- image read from a file: the code exchanges rows and channels except for the middle row of an odd height -/
def bmpFlip (R : Nat) (px : Nat → Nat → Nat → UInt8) : Nat → Nat → Nat → UInt8 :=
  fun r j k => if r < R / 2 ∨ R - R / 2 ≤ r then px (R - 1 - r) j (2 - k) else px r j k

theorem half_eval {R : Nat} (hR : R ≤ 2147483647) : (CI.lit (R:Int) / CI.lit 2 : CI) = CI.lit ((R / 2 : Nat) : Int) := by
  have d : ((R:Int).tdiv 2) = ((R / 2 : Nat) : Int) := by
    rw [Int.tdiv_eq_ediv_of_nonneg (by omega)]; omega
  rw [CI.div_ok (by decide) (by rw [d]; constructor <;> omega), d]

theorem swap_eval_a {i j k L R W : Nat} (hi : i < R) (hj : j < W) (hk : k < 3) (hL : 3 * W ≤ L)
    (hN : R * L ≤ 2147483647) :
    (CI.lit (i:Int) * CI.lit (L:Int) + CI.lit (j:Int) * CI.lit 3 + CI.lit (k:Int) : CI)
      = CI.lit ((i * L + (j * 3 + k) : Nat) : Int) := by
  have h : i * L + (j * 3 + k) < R * L := mix_lt hi (by omega)
  have h' : i * L + j * 3 + k < 2147483648 := by omega
  have hp : 0 < L := by omega
  have e : i * L + (j * 3 + k) = i * L + j * 3 + k := by ring
  rw [e]
  show (CI.lit (i:Int) * CI.lit (L:Int) + CI.lit (j:Int) * CI.lit ((3:Nat):Int) + CI.lit (k:Int) : CI) = _
  ci_down

theorem swap_eval_b {i j k L R W : Nat} (hi : i < R) (hj : j < W) (hk : k < 3) (hL : 3 * W ≤ L) (hR : R ≤ 2147483647)
    (hN : R * L ≤ 2147483647) :
    ((CI.lit (R:Int) - CI.lit (i:Int) - CI.lit 1) * CI.lit (L:Int) + CI.lit (j:Int) * CI.lit 3 + CI.lit 2
      - CI.lit (k:Int) : CI) = CI.lit (((R - 1 - i) * L + (j * 3 + (2 - k)) : Nat) : Int) := by
  have e0 : (CI.lit (R:Int) - CI.lit (i:Int) - CI.lit 1 : CI) = CI.lit ((R - 1 - i : Nat) : Int) := by
    rw [CI.sub_ok (by constructor <;> omega), CI.sub_ok (by constructor <;> omega)]
    congr 1
    omega
  rw [e0]
  have h : (R - 1 - i) * L + (j * 3 + 2) < R * L := mix_lt (by omega) (by omega)
  have h' : (R - 1 - i) * L + j * 3 + 2 < 2147483648 := by omega
  have hp : 0 < L := by omega
  have e1 : (CI.lit ((R - 1 - i : Nat):Int) * CI.lit (L:Int) + CI.lit (j:Int) * CI.lit ((3:Nat):Int)
      + CI.lit ((2:Nat):Int) : CI) = CI.lit (((R - 1 - i) * L + j * 3 + 2 : Nat) : Int) := by
    ci_down
  have e2 : (CI.lit ((R - 1 - i : Nat):Int) * CI.lit (L:Int) + CI.lit (j:Int) * CI.lit 3
      + CI.lit 2 : CI) = CI.lit (((R - 1 - i) * L + j * 3 + 2 : Nat) : Int) := e1
  rw [e2, CI.sub_ok (by constructor <;> omega)]
  congr 1
  omega

theorem swap_eval_b3 {i j k R W : Nat} (hi : i < R) (hj : j < W) (hk : k < 3) (hR : R ≤ 2147483647)
    (hN : R * W * 3 ≤ 2147483647) :
    ((CI.lit (R:Int) - CI.lit (i:Int) - CI.lit 1) * CI.lit (W:Int) * CI.lit 3 + CI.lit (j:Int) * CI.lit 3 + CI.lit 2
      - CI.lit (k:Int) : CI) = CI.lit (((R - 1 - i) * (3 * W) + (j * 3 + (2 - k)) : Nat) : Int) := by
  have e0 : (CI.lit (R:Int) - CI.lit (i:Int) - CI.lit 1 : CI) = CI.lit ((R - 1 - i : Nat) : Int) := by
    rw [CI.sub_ok (by constructor <;> omega), CI.sub_ok (by constructor <;> omega)]
    congr 1
    omega
  rw [e0]
  have e1 := eval_img (ch := 3) (c := 2) (show R - 1 - i < R by omega) hj (by decide) hN
  have e2 : (CI.lit ((R - 1 - i : Nat):Int) * CI.lit (W:Int) * CI.lit 3 + CI.lit (j:Int) * CI.lit 3
      + CI.lit 2 : CI) = CI.lit ((((R - 1 - i) * W + j) * 3 + 2 : Nat) : Int) := e1
  have h := img8_lt (ch := 3) (c := 2) (show R - 1 - i < R by omega) hj (by decide)
  have e3 : (R - 1 - i) * (3 * W) = (R - 1 - i) * W * 3 := by ring
  rw [e2, CI.sub_ok (by constructor <;> omega), e3]
  congr 1
  omega

/-- the rows are copied without their padding -/
theorem copy_rows {m : Mem} {d b R C L : Nat} {g new : Nat → UInt8} (hb : Holds m b (R * L) g) (hne : b ≠ d)
    (hC : 0 < C) (hL : 3 * C ≤ L) (hN : R * L ≤ 2147483647)
    (hnew : ∀ i q, i < R → q < 3 * C → new (i * (3 * C) + q) = g (i * L + q)) :
    Fills (if (L:Int) = ((3 * C : Nat) : Int) then do
        let n ← ev (CI.lit (L:Int) * CI.lit (R:Int))
        memcpy d 0 b 0 n
      else
        forI 0 (R:Int) fun i => do
          let dd ← ev (CI.lit i * CI.lit (C:Int) * CI.lit 3)
          let s ← ev (CI.lit i * CI.lit (L:Int))
          let w ← ev (CI.lit (C:Int) * CI.lit 3)
          memcpy d dd b s w) m d (R * C * 3) new (fun p => p < R * C * 3) := by
  have e3 : R * C * 3 = R * (3 * C) := by ring
  rw [e3]
  by_cases hl : (L:Int) = ((3 * C : Nat) : Int)
  · rw [if_pos hl]
    have hl' : L = 3 * C := by omega
    subst hl'
    have h1 : (CI.lit ((3 * C : Nat):Int) * CI.lit (R:Int) : CI) = CI.lit ((R * (3 * C) : Nat) : Int) := by
      rw [CI.mul_ok (by constructor <;> (push_cast at hN ⊢; nlinarith))]
      congr 1; push_cast; ring
    refine Fills.bind (fun g => ev_ok h1 _) ?_
    refine Fills.congr (Fills.memcpy (doff := 0) (soff := 0) (k := R * (3 * C)) (new := new) hb hne (by omega) (by omega) ?_) ?_ ?_
    · intro p _ hp
      have hp' : p < R * (3 * C) := by omega
      have hr : p / (3 * C) < R := Nat.div_lt_of_lt_mul (by rwa [Nat.mul_comm])
      have := hnew (p / (3 * C)) (p % (3 * C)) hr (Nat.mod_lt _ (by omega))
      have e : p / (3 * C) * (3 * C) + p % (3 * C) = p := by rw [Nat.mul_comm]; exact Nat.div_add_mod p (3 * C)
      rw [e] at this
      rw [this]; congr 1; omega
    · intro p hp; omega
    · intro p _ _; rfl
  · rw [if_neg hl]
    refine Fills.congr (Fills.loop (P := fun i p => i * (3 * C) ≤ p ∧ p < i * (3 * C) + 3 * C) (new := new) ?_) ?_ ?_
    · intro i hi
      have hb1 : i * L + 3 * C ≤ R * L := by
        have : (i + 1) * L ≤ R * L := Nat.mul_le_mul_right L hi
        have e : (i + 1) * L = i * L + L := by ring
        omega
      have hb2 : i * (3 * C) + 3 * C ≤ R * (3 * C) := by
        have : (i + 1) * (3 * C) ≤ R * (3 * C) := Nat.mul_le_mul_right (3 * C) hi
        have e : (i + 1) * (3 * C) = i * (3 * C) + 3 * C := by ring
        omega
      have hb3 : i * (3 * C) ≤ i * L := Nat.mul_le_mul_left i hL
      have a1 : (CI.lit (i:Int) * CI.lit (C:Int) * CI.lit 3 : CI) = CI.lit ((i * (3 * C) : Nat) : Int) := by
        have h : i * C * 3 < 2147483648 := by
          have : i * C * 3 = i * (3 * C) := by ring
          omega
        have e : i * (3 * C) = i * C * 3 := by ring
        rw [e]
        show (CI.lit (i:Int) * CI.lit (C:Int) * CI.lit ((3:Nat):Int) : CI) = _
        ci_down
      have a2 : (CI.lit (i:Int) * CI.lit (L:Int) : CI) = CI.lit ((i * L : Nat) : Int) := by
        have h : i * L < 2147483648 := by omega
        have h0 : 0 < L := by omega
        ci_down
      have a3 : (CI.lit (C:Int) * CI.lit 3 : CI) = CI.lit ((3 * C : Nat) : Int) := by
        rw [CI.mul_ok (by constructor <;> omega)]
        congr 1; push_cast; ring
      refine Fills.bind (fun g => ev_ok a1 _) ?_
      refine Fills.bind (fun g => ev_ok a2 _) ?_
      refine Fills.bind (fun g => ev_ok a3 _) ?_
      refine Fills.memcpy hb hne hb2 hb1 ?_
      intro p h1 h2
      have := hnew i (p - i * (3 * C)) hi (by omega)
      rw [show i * (3 * C) + (p - i * (3 * C)) = p by omega] at this
      exact this
    · intro p hp
      constructor
      · intro _; exact hp
      · intro _
        have hr : p / (3 * C) < R := Nat.div_lt_of_lt_mul (by rwa [Nat.mul_comm])
        have e : p / (3 * C) * (3 * C) + p % (3 * C) = p := by rw [Nat.mul_comm]; exact Nat.div_add_mod p (3 * C)
        have := Nat.mod_lt p (show 0 < 3 * C by omega)
        exact ⟨p / (3 * C), hr, by omega, by omega⟩
    · intro p _ _; rfl

theorem free_ok {m : Mem} {h n : Nat} {f : Nat → UInt8} (hh : Holds m h n f) :
    free h m = .ok ((), m.setBlk h none) := by
  unfold free
  rw [show m.blk h = _ from hh]

theorem smread_run {m : Mem} (hm : m.WF) {file : List UInt8} {R C : Nat} {raw : Nat → Nat → Nat → UInt8} (hR : 0 < R)
    (hC : 0 < C) (hC24 : 24 * C ≤ 2147483647) (hN : R * bmpStride C ≤ 2147483551) (h : IsBmp24 file R C raw) :
    ∃ m', smread_bmp file m = .ok (some (m.next + 2), m') ∧
      IsImage8 m' (m.next + 2) R C 3 (bmpFlip R raw) ∧ FreshImg m m' (m.next + 2) ∧ Frame m m' ∧ m'.WF ∧
      (∀ x, ¬ OwnsImg m' (m.next + 2) x → m'.blk x = m.blk x ∧ m'.hm x = m.hm x ∧ m'.sm x = m.sm x) := by
  obtain ⟨hs1, hs2⟩ := stride_bounds C
  obtain ⟨ev1, ev2⟩ := stride_eval hC24
  generalize hL : bmpStride C = L at *
  have hRL : R ≤ R * L := Nat.le_mul_of_pos_right R (by omega)
  have hlen := h.length
  rw [hL] at hlen
  have hR3 : R * C * 3 ≤ R * L := by
    have : R * (3 * C) ≤ R * L := Nat.mul_le_mul_left R hs1
    have e : R * (3 * C) = R * C * 3 := by ring
    omega
  have evn : (CI.lit (L:Int) * CI.lit (R:Int) : CI) = CI.lit ((R * L : Nat) : Int) := by
    rw [CI.mul_ok (by constructor <;> (push_cast at hN ⊢; nlinarith))]
    congr 1; push_cast; ring
  unfold smread_bmp
  rw [if_neg (by omega)]
  rw [field_getI h.width (by omega), field_getI h.height (by omega), field_get h.bitCount]
  have ev1' : (CI.lit (C:Int) * CI.lit ((24:Nat):Int) / CI.lit 8 : CI) = CI.lit ((3 * C : Nat) : Int) := ev1
  have ev2' : ((CI.lit (C:Int) * CI.lit ((24:Nat):Int) / CI.lit 8 + CI.lit 3) / CI.lit 4 * CI.lit 4 : CI)
      = CI.lit (L : Int) := ev2
  rw [bind_ok (ev_ok ev2' m)]
  rw [if_neg (by decide)]
  rw [bind_ok (show (pure 54 : M Nat) m = .ok (54, m) from rfl)]
  rw [bind_ok (ev_ok evn m)]
  rw [if_neg (by omega)]
  rw [bind_ok (malloc_run _ m)]
  simp only [Int.toNat_natCast]
  -- the file contents
  have hfile : ∀ t, t < R * L → file[54 + t]? = some ((file[54 + t]?).getD 0) := by
    intro t ht
    have : 54 + t < file.length := by omega
    simp [this]
  rw [bind_ok (((fread_fills (m := m.grow (R * L) (m.junk m.next)) (d := m.next) (by omega) hfile).total
    (fun p hp => hp) (grow_holds m _ _)).trans (by rw [grow_put]))]
  rw [bind_ok (ev_ok (half_eval (by omega)) _)]
  have hsw := swap_loops (grow_holds m (R * L) (fun t => (file[54 + t]?).getD 0)) hs1
    (ia := fun i j k => CI.lit i * CI.lit (L:Int) + CI.lit j * CI.lit 3 + CI.lit k)
    (ib := fun i j k => (CI.lit (R:Int) - CI.lit i - CI.lit 1) * CI.lit (L:Int) + CI.lit j * CI.lit 3 + CI.lit 2 - CI.lit k)
    (fun i j k hi hj hk => swap_eval_a (R := R) (by omega) hj hk hs1 (by omega))
    (fun i j k hi hj hk => swap_eval_b (by omega) hj hk hs1 (by omega) (by omega))
  rw [bind_ok (hsw.trans (by rw [grow_put]))]
  set g : Nat → UInt8 := fun p => (file[54 + bmpSwap R L C p]?).getD 0 with hg
  set m1 := m.grow (R * L) g with hm1
  have hm1WF : m1.WF := grow_WF hm _ _
  rw [bind_ok (create_rgb hR hC (by omega))]
  rw [bind_ok (show derefS (some (m1.next + 1)) _ = _ from getS_ok (newImage_sm m1 R C 1 3 1 _))]
  rw [bind_ok (ev_ok ev1' _)]
  have hb0 := newImage_holds_old hm1WF (R := R) (C := C) (dt := 1) (ch := 3) (E := 1)
    (f := fun p => if p < R * C * 1 then 0 else m1.junk m1.next p) (grow_holds m (R * L) g)
  have hf := copy_rows (d := m1.next) (new := imgBytes C 3 1 (fun i j c _ => bmpFlip R raw i j c)) hb0
    (by simp [hm1]) hC hs1 (by omega) (by
      intro i q hi hq
      have e1 : i * (3 * C) + q = (i * C + q / 3) * 3 + q % 3 := by
        have : i * (3 * C) = i * C * 3 := by ring
        omega
      have hj : q / 3 < C := by omega
      have hc : q % 3 < 3 := by omega
      rw [e1, imgBytes_at8 hj hc (px := bmpFlip R raw)]
      have e2 : i * L + q = i * L + (q / 3 * 3 + q % 3) := by omega
      show _ = (file[54 + bmpSwap R L C (i * L + q)]?).getD 0
      rw [e2, bmpSwap_at hs1 hj hc]
      unfold bmpFlip
      have hp := h.pixel
      rw [hL] at hp
      split
      · have := hp (R - 1 - i) (q / 3) (2 - q % 3) (by omega) hj (by omega)
        rw [show 54 + ((R - 1 - i) * L + (q / 3 * 3 + (2 - q % 3)))
          = 54 + (R - 1 - i) * L + 3 * (q / 3) + (2 - q % 3) by omega, this]; rfl
      · have := hp i (q / 3) (q % 3) hi hj (by omega)
        rw [show 54 + (i * L + (q / 3 * 3 + q % 3)) = 54 + i * L + 3 * (q / 3) + q % 3 by omega, this]; rfl)
  have hf' := new8_fill (px := bmpFlip R raw) hf
  rw [show (newSHdr m1 R C 1 3 1).data = m1.next from rfl, bind_ok hf']
  set m2 := m1.newImage R C 1 3 1 (imgBytes C 3 1 fun i j c _ => bmpFlip R raw i j c) with hm2
  have hb2 : Holds m2 m.next (R * L) g := newImage_holds_old hm1WF (grow_holds m (R * L) g)
  rw [bind_ok (free_ok hb2)]
  have hn1 : m1.next = m.next + 1 := rfl
  have hblk : ∀ x, x ≠ m.next + 1 → (m2.setBlk m.next none).blk x = m.blk x := by
    intro x hx
    by_cases h0 : x = m.next
    · subst h0
      rw [(hm m.next (Nat.le_refl _)).1]
      simp [Mem.setBlk]
    · rw [hm2]
      simp only [Mem.setBlk, h0, if_false]
      rw [newImage_blk_old _ (by omega), hm1, grow_blk_ne _ _ _ h0]
  have hsm : ∀ x, x ≠ m.next + 2 → (m2.setBlk m.next none).sm x = m.sm x := by
    intro x hx
    show m2.sm x = _
    rw [hm2, newImage_sm_old _ (by omega)]; rfl
  have hsm' : (m2.setBlk m.next none).sm (m.next + 2) = some (newSHdr m1 R C 1 3 1) := newImage_sm m1 R C 1 3 1 _
  refine ⟨m2.setBlk m.next none, rfl, ?_, ?_, ?_, ?_, ?_⟩
  · refine img_mk (hdr := newSHdr m1 R C 1 3 1) rfl hR hC (by decide) hsm' rfl rfl rfl rfl rfl ?_
    have := newImage_data m1 R C 1 3 1 (imgBytes C 3 1 fun i j c _ => bmpFlip R raw i j c)
    unfold Holds at *
    rw [← this]
    show (if m1.next = m.next then none else m2.blk m1.next) = _
    rw [if_neg (by omega)]
  · rintro x (rfl | ⟨hdr, h1, rfl⟩)
    · omega
    · rw [hsm'] at h1
      cases h1
      show m.next ≤ m1.next
      omega
  · intro x hx
    exact ⟨hblk x (by omega), rfl, hsm x (by omega)⟩
  · intro x hx
    have hx' : m.next + 3 ≤ x := hx
    rw [hblk x (by omega), hsm x (by omega)]
    exact hm x (by omega)
  · intro x hx
    have h1 : x ≠ m.next + 2 := fun e => hx (Or.inl e)
    have h2 : x ≠ m.next + 1 := fun e => hx (Or.inr ⟨_, hsm', e⟩)
    exact ⟨hblk x h2, rfl, hsm x h1⟩

/-! ### Writing -/

theorem rows_run {m : Mem} (hm : m.WF) {d R C : Nat} {g : Nat → UInt8} (hd : Holds m d (R * C * 3) g) (hC : 0 < C)
    (hC24 : 24 * C ≤ 2147483647) (hN : R * bmpStride C ≤ 2147483647) :
    ∃ body m', bmpRows d (C:Int) (R:Int) (bmpStride C : Int) m = .ok (tab (R * bmpStride C) body, m') ∧
      (∀ r q, r < R → q < 3 * C → body (r * bmpStride C + q) = g (r * (3 * C) + q)) ∧
      m'.blk = m.blk ∧ m'.sm = m.sm ∧ m'.hm = m.hm ∧ m.next ≤ m'.next := by
  obtain ⟨hs1, hs2⟩ := stride_bounds C
  obtain ⟨ev1, -⟩ := stride_eval hC24
  generalize hL : bmpStride C = L at *
  have e3 : R * C * 3 = R * (3 * C) := by ring
  rw [e3] at hd
  have evn : (CI.lit (R:Int) * CI.lit (L:Int) : CI) = CI.lit ((R * L : Nat) : Int) := by
    rw [CI.mul_ok (by constructor <;> (push_cast at hN ⊢; nlinarith))]
    congr 1
  unfold bmpRows
  rw [bind_ok (ev_ok ev1 m), bind_ok (ev_ok evn m)]
  by_cases hl : L = 3 * C
  · rw [if_neg (by omega)]
    have hd' : Holds m d (R * L) g := by rw [hl]; exact hd
    refine ⟨g, m, ?_, ?_, rfl, rfl, rfl, Nat.le_refl _⟩
    · have := loadBytes_ok hd' (R * L) 0 (by omega)
      simp only [Nat.zero_add] at this
      exact this
    · intro r q _ _; rw [hl]
  · rw [if_pos (by omega)]
    rw [bind_ok (malloc_run _ m)]
    simp only [Int.toNat_natCast]
    have hdl := hd.lt_next hm
    have hs := hd.grow hm (n' := R * L) (f' := m.junk m.next)
    have hnew : ∀ r q, r < R → q < 3 * C →
        (fun p => if p % L < 3 * C then g (p / L * (3 * C) + p % L) else m.junk m.next p) (r * L + q)
          = g (r * (3 * C) + q) := by
      intro r q hr hq
      show (if (r * L + q) % L < 3 * C then _ else _) = _
      rw [row_mod (by omega), row_div (by omega), if_pos hq]
    have hf := Fills.loop (n := R) (m := m.grow (R * L) (m.junk m.next)) (d := m.next) (N := R * L)
      (new := fun p => if p % L < 3 * C then g (p / L * (3 * C) + p % L) else m.junk m.next p)
      (body := fun i => do
        let w ← ev (CI.lit (C:Int) * CI.lit 3)
        memcpy m.next (i * (L:Int)) d (i * w) w)
      (P := fun i p => i * L ≤ p ∧ p < i * L + 3 * C) (by
        intro i hi
        have hb1 : i * L + 3 * C ≤ R * L := by
          have : (i + 1) * L ≤ R * L := Nat.mul_le_mul_right L hi
          have e : (i + 1) * L = i * L + L := by ring
          omega
        have hb2 : i * (3 * C) + 3 * C ≤ R * (3 * C) := by
          have : (i + 1) * (3 * C) ≤ R * (3 * C) := Nat.mul_le_mul_right (3 * C) hi
          have e : (i + 1) * (3 * C) = i * (3 * C) + 3 * C := by ring
          omega
        have a3 : (CI.lit (C:Int) * CI.lit 3 : CI) = CI.lit ((3 * C : Nat) : Int) := by
          rw [CI.mul_ok (by constructor <;> omega)]
          congr 1; push_cast; ring
        refine Fills.bind (fun g => ev_ok a3 _) ?_
        rw [← Int.natCast_mul, ← Int.natCast_mul]
        refine Fills.memcpy hs (by omega) hb1 hb2 ?_
        intro p h1 h2
        have := hnew i (p - i * L) hi (by omega)
        rw [show i * L + (p - i * L) = p by omega] at this
        exact this)
    obtain ⟨body, hrun, hbody⟩ : ∃ body, (forI 0 (R:Int) fun i => do
        let w ← ev (CI.lit (C:Int) * CI.lit 3)
        memcpy m.next (i * (L:Int)) d (i * w) w) (m.grow (R * L) (m.junk m.next)) = .ok ((), m.grow (R * L) body) ∧
        ∀ r q, r < R → q < 3 * C → body (r * L + q) = g (r * (3 * C) + q) := by
      refine ⟨_, (hf.run (grow_holds m _ _)).trans (by rw [grow_put]), ?_⟩
      intro r q hr hq
      have : ∃ i, i < R ∧ i * L ≤ r * L + q ∧ r * L + q < i * L + 3 * C := ⟨r, hr, by omega, by omega⟩
      rw [if_pos this]
      exact hnew r q hr hq
    rw [bind_ok hrun]
    refine ⟨body, { m with next := m.next + 1 }, ?_, ?_, rfl, rfl, rfl, Nat.le_succ _⟩
    · have := loadBytes_ok (grow_holds m (R * L) body) (R * L) 0 (by omega)
      simp only [Nat.zero_add, Int.natCast_zero] at this
      rw [bind_ok this, bind_ok (free_ok (grow_holds m (R * L) body))]
      show Except.ok _ = Except.ok _
      congr 2
      apply Mem.ext' <;> try rfl
      funext x
      by_cases hx : x = m.next
      · subst hx
        rw [(hm m.next (Nat.le_refl _)).1]
        simp [Mem.setBlk]
      · simp [Mem.setBlk, hx, grow_blk_ne]
    · exact hbody

/-- the write of a 3-channel image -/
theorem smwrite_run {m : Mem} (hm : m.WF) {p R C : Nat} {px : Nat → Nat → Nat → UInt8} (h : IsImage8 m p R C 3 px)
    (hC24 : 24 * C ≤ 2147483647) (hN : R * bmpStride C ≤ 2147483551) :
    ∃ file m', smwrite_bmp (some p) m = .ok (file, m') ∧ IsBmp24 file R C (bmpFlip R px) ∧
      IsImage8 m' p R C 3 (bmpFlip R px) ∧ OnlyPixels m m' p := by
  obtain ⟨sd, si, a1, a6⟩ := img8_lit h
  obtain ⟨hs1, hs2⟩ := stride_bounds C
  obtain ⟨ev1, ev2⟩ := stride_eval hC24
  have hC := h.posC
  have hR := h.posR
  have hRL : R ≤ R * bmpStride C := Nat.le_mul_of_pos_right R (by omega)
  have e3 : R * C * 3 = R * (3 * C) := by ring
  have hR3 : R * (3 * C) ≤ R * bmpStride C := Nat.mul_le_mul_left R hs1
  have evn : (CI.lit (bmpStride C:Int) * CI.lit (R:Int) : CI) = CI.lit ((R * bmpStride C : Nat) : Int) := by
    rw [CI.mul_ok (by constructor <;> (push_cast at hN ⊢; nlinarith))]
    congr 1; push_cast; ring
  unfold smwrite_bmp
  rw [bind_ok (show nonNull (some p) m = .ok (p, m) from rfl), bind_ok (getS_ok a1)]
  simp only [decide_true, cassert_bind_true]
  rw [if_neg (by decide), bind_ok (show (pure (some p) : M (Option Nat)) m = .ok (some p, m) from rfl),
    bind_ok (show derefS (some p) m = _ from getS_ok a1)]
  dsimp only
  rw [bind_ok (ev_ok ev2 m), bind_ok (ev_ok evn m), bind_ok (ev_ok (half_eval (by omega)) m)]
  rw [e3] at a6
  have hsw := swap_loops (L := 3 * C) (W := C) a6 (Nat.le_refl _)
    (ia := fun i j k => CI.lit i * CI.lit (C:Int) * CI.lit 3 + CI.lit j * CI.lit 3 + CI.lit k)
    (ib := fun i j k => (CI.lit (R:Int) - CI.lit i - CI.lit 1) * CI.lit (C:Int) * CI.lit 3 + CI.lit j * CI.lit 3
      + CI.lit 2 - CI.lit k)
    (fun i j k hi hj hk => by
      have e := eval_img (R := R) (ch := 3) (show i < R by omega) hj hk (by omega)
      have e' : (i * C + j) * 3 + k = i * (3 * C) + (j * 3 + k) := by ring
      rw [e'] at e
      exact e)
    (fun i j k hi hj hk => swap_eval_b3 (by omega) hj hk (by omega) (by omega))
  rw [bind_ok hsw]
  set g : Nat → UInt8 := fun q => imgBytes C 3 1 (fun i j c _ => px i j c) (bmpSwap R (3 * C) C q) with hg
  have hgat : ∀ i j c, i < R → j < C → c < 3 → g (i * (3 * C) + (j * 3 + c)) = bmpFlip R px i j c := by
    intro i j c hi hj hc
    rw [hg]
    beta_reduce
    rw [bmpSwap_at (Nat.le_refl _) hj hc]
    unfold bmpFlip
    split
    · rw [show (R - 1 - i) * (3 * C) + (j * 3 + (2 - c)) = ((R - 1 - i) * C + j) * 3 + (2 - c) by ring,
        imgBytes_at8 hj (by omega)]
    · rw [show i * (3 * C) + (j * 3 + c) = (i * C + j) * 3 + c by ring, imgBytes_at8 hj hc]
  obtain ⟨g1, g2⟩ := img8_put (new := g) (px' := bmpFlip R px) h a1 (by
    intro i j c hi hj hc
    rw [← hgat i j c hi hj hc]; congr 1; ring)
  rw [e3] at g1 g2
  have hm1 := only_WF hm h g2
  have hd1 : Holds (m.put sd (R * (3 * C)) g) sd (R * C * 3) g := by rw [e3]; exact holds_put _ _ _ _
  obtain ⟨body, m', b1, b2, b3, b4, b5, b6⟩ := rows_run hm1 hd1 hC hC24 (by omega)
  rw [bind_ok b1]
  refine ⟨_, m', rfl, ?_, ?_, ?_⟩
  · refine isBmp_mk (by omega) (by omega) (by omega) ?_
    intro r j k hr hj hk
    rw [b2 r _ hr (by omega), hgat r j k hr hj hk]
  · obtain ⟨q0, q1, q2, q3, hdr, f, c1, c2, c3, c4, c5, c6, c7, c8⟩ := g1
    exact ⟨q0, q1, q2, q3, hdr, f, by rw [b4]; exact c1, c2, c3, c4, c5, c6, by
      unfold Bytes at *; rw [b3]; exact c7, c8⟩
  · refine ⟨b5.trans g2.1, b4.trans g2.2.1, Nat.le_trans g2.2.2.1 b6, ?_⟩
    intro x hx
    rw [b3]; exact g2.2.2.2 x hx

theorem bmpFlip_flip {R : Nat} {px : Nat → Nat → Nat → UInt8} {i j c : Nat} (hi : i < R) (hc : c < 3) :
    bmpFlip R (bmpFlip R px) i j c = px i j c := by
  unfold bmpFlip
  by_cases h : i < R / 2 ∨ R - R / 2 ≤ i
  · rw [if_pos h, if_pos (by omega), show R - 1 - (R - 1 - i) = i by omega, show 2 - (2 - c) = c by omega]
  · rw [if_neg h, if_neg h]

/-- the write of a 1-channel image -/
theorem smwrite_gray_run {m : Mem} (hm : m.WF) {p R C : Nat} {px : Nat → Nat → Nat → UInt8}
    (h : IsImage8 m p R C 1 px) (hC24 : 24 * C ≤ 2147483647) (hN : R * bmpStride C ≤ 2147483551) :
    ∃ file m', smwrite_bmp (some p) m = .ok (file, m') ∧ IsBmp24 file R C (bmpFlip R (fun i j _ => px i j 0)) ∧
      Frame m m' ∧ m'.WF ∧ m.next ≤ m'.next ∧ IsImage8 m' (m.next + 1) R C 3 (bmpFlip R (fun i j _ => px i j 0)) := by
  have hs1 := (stride_bounds C).1
  have e3 : R * C * 3 = R * (3 * C) := by ring
  have hR3 : R * (3 * C) ≤ R * bmpStride C := Nat.mul_le_mul_left R hs1
  have hg := gray2rgb_run hm h (by omega)
  obtain ⟨sd, si, a1, a6⟩ := img8_lit h
  set m1 := m.newImage R C 1 3 1 (imgBytes C 3 1 (fun i j _ _ => px i j 0)) with hm1
  have hm1WF : m1.WF := newImage_WF hm
  have hi1 : IsImage8 m1 (m.next + 1) R C 3 (fun i j _ => px i j 0) :=
    newImage_isImage rfl h.posR h.posC (by decide)
  obtain ⟨file, m', w1, w2, w3, w4⟩ := smwrite_run hm1WF hi1 hC24 hN
  refine ⟨file, m', ?_, w2, ?_, only_WF hm1WF hi1 w4, ?_, w3⟩
  · have hs := newImage_sm m R C 1 3 1 (imgBytes C 3 1 (fun i j _ _ => px i j 0))
    unfold newSHdr at hs
    unfold smwrite_bmp at w1 ⊢
    rw [bind_ok (show nonNull (some p) m = .ok (p, m) from rfl), bind_ok (getS_ok a1)]
    rw [bind_ok (show nonNull (some (m.next + 1)) m1 = .ok (m.next + 1, m1) from rfl), bind_ok (getS_ok hs)] at w1
    simp only [decide_true, cassert_bind_true] at w1 ⊢
    rw [if_neg (show ¬ (((3:Nat):Int) = 1) by decide), bind_ok (show (pure (some (m.next + 1)) : M (Option Nat)) m1 = .ok (some (m.next + 1), m1) from rfl)] at w1
    rw [if_pos (show ((1:Nat):Int) = 1 from rfl), bind_ok hg]
    exact w1
  · have f1 : Frame m m1 := newImage_frame m
    intro x hx
    have hnp : ¬ PixelBlock m1 (m.next + 1) x := by
      rintro ⟨hdr, q1, q2⟩
      have := newImage_fresh m (R := R) (C := C) (dt := 1) (ch := 3) (E := 1)
        (f := imgBytes C 3 1 (fun i j _ _ => px i j 0)) x (Or.inr ⟨hdr, q1, q2⟩)
      omega
    rw [w4.2.2.2 x hnp, w4.1, w4.2.1]
    exact f1 x hx
  · have := w4.2.2.1
    have e : m1.next = m.next + 2 := rfl
    omega

/-! ### Other bit depths -/

/-- block `h` is live and has `N` bytes -/
def Live (h N : Nat) (m : Mem) : Prop := ∃ f, Holds m h N f

theorem live_put {h N : Nat} {m : Mem} {g : Nat → UInt8} : Live h N (m.put h N g) := ⟨g, holds_put _ _ _ _⟩

theorem live_load {h N i : Nat} {m : Mem} (hl : Live h N m) :
    load h (i:Int) m = .error (.ub .oob) ∨ ∃ v, load h (i:Int) m = .ok (v, m) := by
  obtain ⟨f, hf⟩ := hl
  by_cases hi : i < N
  · exact Or.inr ⟨_, load_ok hf hi⟩
  · exact Or.inl (load_oob hf (by omega))

theorem live_store {h N i : Nat} {m : Mem} {v : UInt8} (hl : Live h N m) :
    store h (i:Int) v m = .error (.ub .oob) ∨ ∃ m', store h (i:Int) v m = .ok ((), m') ∧ Live h N m' := by
  obtain ⟨f, hf⟩ := hl
  by_cases hi : i < N
  · have := store_put (m := m) (h := h) (n := N) (f := f) (v := v) hi
    rw [hf.put_self] at this
    exact Or.inr ⟨_, this, live_put⟩
  · exact Or.inl (store_oob hf (by omega))

theorem live_swap {h N a b : Nat} {m : Mem} (hl : Live h N m) :
    swapBytes h (a:Int) (b:Int) m = .error (.ub .oob) ∨
      ∃ m', swapBytes h (a:Int) (b:Int) m = .ok ((), m') ∧ Live h N m' := by
  unfold swapBytes
  rcases live_load (i := a) hl with h1 | ⟨v, h1⟩
  · exact Or.inl (bind_err h1)
  rw [bind_ok h1]
  rcases live_load (i := b) hl with h2 | ⟨w, h2⟩
  · exact Or.inl (bind_err h2)
  rw [bind_ok h2]
  rcases live_store (i := a) (v := w) hl with h3 | ⟨m', h3, hl'⟩
  · exact Or.inl (bind_err h3)
  rw [bind_ok h3]
  exact live_store hl'

theorem swap_oob {h N a b : Nat} {m : Mem} (hl : Live h N m) (hb : N ≤ b) :
    swapBytes h (a:Int) (b:Int) m = .error (.ub .oob) := by
  unfold swapBytes
  rcases live_load (i := a) hl with h1 | ⟨v, h1⟩
  · exact bind_err h1
  rw [bind_ok h1]
  obtain ⟨f, hf⟩ := hl
  exact bind_err (load_oob hf hb)

theorem fread_live {m : Mem} {d N pos : Nat} {file : List UInt8} {f : Nat → UInt8} (h : Holds m d N f) :
    ∃ g, freadBytes d file pos N m = .ok ((), m.put d N g) := by
  unfold freadBytes
  have := Fills.loop (n := min N (file.length - pos)) (m := m) (d := d) (N := N)
    (new := fun p => (file[pos + p]?).getD 0) (P := fun i p => p = i)
    (body := fun t => store d t ((file[pos + t.toNat]?).getD 0)) (by
      intro i hi
      exact Fills.store (by omega) (by simp))
  exact ⟨_, this.run h⟩

/-- reading a file with 8 bits per pixel leaves the pixel buffer -/
theorem smread8_oob {m : Mem} {file : List UInt8} {R C : Nat} (hlen : 54 ≤ file.length) (hw : FieldLE file 18 4 C)
    (hh : FieldLE file 22 4 R) (hb : FieldLE file 28 2 8) (hR : 2 ≤ R) (hC : 2 ≤ C)
    (hN : R * (3 * C + 3) ≤ 2147483647) (h8 : 8 * C ≤ 2147483647) :
    smread_bmp file m = .error (.ub .oob) := by
  have hCR : R ≤ R * (3 * C + 3) := Nat.le_mul_of_pos_right R (by omega)
  have hCR' : 3 * C + 3 ≤ R * (3 * C + 3) := Nat.le_mul_of_pos_left _ (by omega)
  unfold smread_bmp
  rw [if_neg (by omega), field_getI hw (by omega), field_getI hh (by omega), field_get hb]
  obtain ⟨L, hL⟩ : ∃ L, L = (C + 3) / 4 * 4 := ⟨_, rfl⟩
  have hL1 : C ≤ L ∧ L ≤ C + 3 ∧ L < 3 * C := by omega
  have hRL : R * L ≤ R * (3 * C + 3) := Nat.mul_le_mul_left R (by omega)
  have e1 : ((CI.lit (C:Int) * CI.lit ((8:Nat):Int) / CI.lit 8 + CI.lit 3) / CI.lit 4 * CI.lit 4 : CI)
      = CI.lit (L : Int) := by
    have d8 : (((C:Int) * ((8:Nat):Int)).tdiv 8) = (C : Int) := by
      rw [Int.tdiv_eq_ediv_of_nonneg (by omega)]; omega
    have d4 : (((C:Int) + 3).tdiv 4) = (((C + 3) / 4 : Nat) : Int) := by
      rw [Int.tdiv_eq_ediv_of_nonneg (by omega)]; omega
    rw [CI.mul_ok (by constructor <;> omega), CI.div_ok (by decide) (by rw [d8]; constructor <;> omega), d8,
      CI.add_ok (by constructor <;> omega), CI.div_ok (by decide) (by rw [d4]; constructor <;> omega), d4,
      CI.mul_ok (by constructor <;> omega), hL]
    rfl
  have evn : (CI.lit (L:Int) * CI.lit (R:Int) : CI) = CI.lit ((R * L : Nat) : Int) := by
    rw [CI.mul_ok (by constructor <;> (push_cast at hN hRL ⊢; nlinarith))]
    congr 1; push_cast; ring
  rw [bind_ok (ev_ok e1 m), if_pos (by decide)]
  obtain ⟨g1, hg1⟩ : ∃ m1, (do let t ← malloc 4096; freadBytes t file 54 1024; pure 1078 : M Nat) m = .ok (1078, m1) := by
    rw [bind_ok (malloc_run 4096 m)]
    have := Fills.loop (n := min 1024 (file.length - 54)) (m := m.grow 4096 (m.junk m.next)) (d := m.next) (N := 4096)
      (new := fun p => (file[54 + p]?).getD 0) (P := fun i p => p = i)
      (body := fun t => store m.next t ((file[54 + t.toNat]?).getD 0)) (by
        intro i hi
        exact Fills.store (by omega) (by simp))
    refine ⟨_, bind_ok (f := fun _ => pure 1078) (this.run (grow_holds m 4096 _))⟩
  rw [bind_ok hg1, bind_ok (ev_ok evn g1), if_neg (by omega), bind_ok (malloc_run _ g1)]
  simp only [Int.toNat_natCast]
  obtain ⟨f, hf⟩ := fread_live (file := file) (pos := 1078) (grow_holds g1 (R * L) (g1.junk g1.next))
  rw [bind_ok hf, bind_ok (ev_ok (half_eval (by omega)) _)]
  have hl : Live g1.next (R * L) ((g1.grow (R * L) (g1.junk g1.next)).put g1.next (R * L) f) := live_put
  generalize (g1.grow (R * L) (g1.junk g1.next)).put g1.next (R * L) f = m3 at hl
  generalize g1.next = buf at hl
  have ea : ∀ i j k : Nat, i < R → j < C → k < 3 →
      (CI.lit (i:Int) * CI.lit (L:Int) + CI.lit (j:Int) * CI.lit 3 + CI.lit (k:Int) : CI)
        = CI.lit ((i * L + j * 3 + k : Nat) : Int) := by
    intro i j k hi hj hk
    have h1 : i * L ≤ R * L := Nat.mul_le_mul_right L (by omega)
    have h2 : (i + 1) * (3 * C + 3) ≤ R * (3 * C + 3) := Nat.mul_le_mul_right _ (by omega)
    have h3 : i * L ≤ i * (3 * C + 3) := Nat.mul_le_mul_left i (by omega)
    have e : (i + 1) * (3 * C + 3) = i * (3 * C + 3) + (3 * C + 3) := by ring
    have h : i * L + j * 3 + k < 2147483648 := by omega
    have hp : 0 < L := by omega
    show (CI.lit (i:Int) * CI.lit (L:Int) + CI.lit (j:Int) * CI.lit ((3:Nat):Int) + CI.lit (k:Int) : CI) = _
    ci_down
  have eb : ∀ i j k : Nat, i < R → j < C → k < 3 →
      ((CI.lit (R:Int) - CI.lit (i:Int) - CI.lit 1) * CI.lit (L:Int) + CI.lit (j:Int) * CI.lit 3 + CI.lit 2
        - CI.lit (k:Int) : CI) = CI.lit (((R - 1 - i) * L + j * 3 + 2 - k : Nat) : Int) := by
    intro i j k hi hj hk
    have e0 : (CI.lit (R:Int) - CI.lit (i:Int) - CI.lit 1 : CI) = CI.lit ((R - 1 - i : Nat) : Int) := by
      rw [CI.sub_ok (by constructor <;> omega), CI.sub_ok (by constructor <;> omega)]
      congr 1
      omega
    have h2 : (R - 1 - i + 1) * (3 * C + 3) ≤ R * (3 * C + 3) := Nat.mul_le_mul_right _ (by omega)
    have h3 : (R - 1 - i) * L ≤ (R - 1 - i) * (3 * C + 3) := Nat.mul_le_mul_left _ (by omega)
    have e : (R - 1 - i + 1) * (3 * C + 3) = (R - 1 - i) * (3 * C + 3) + (3 * C + 3) := by ring
    have h : (R - 1 - i) * L + j * 3 + 2 < 2147483648 := by omega
    have hp : 0 < L := by omega
    have e1 : (CI.lit ((R - 1 - i : Nat):Int) * CI.lit (L:Int) + CI.lit (j:Int) * CI.lit ((3:Nat):Int)
        + CI.lit ((2:Nat):Int) : CI) = CI.lit (((R - 1 - i) * L + j * 3 + 2 : Nat) : Int) := by
      ci_down
    have e2 : (CI.lit ((R - 1 - i : Nat):Int) * CI.lit (L:Int) + CI.lit (j:Int) * CI.lit 3
        + CI.lit 2 : CI) = CI.lit (((R - 1 - i) * L + j * 3 + 2 : Nat) : Int) := e1
    rw [e0, e2, CI.sub_ok (by constructor <;> omega)]
    congr 1
    omega
  have step : ∀ i j k : Nat, i < R → j < C → k < 3 → ∀ m, Live buf (R * L) m →
      (do
        let a ← ev (CI.lit (i:Int) * CI.lit (L:Int) + CI.lit (j:Int) * CI.lit 3 + CI.lit (k:Int))
        let b ← ev ((CI.lit (R:Int) - CI.lit (i:Int) - CI.lit 1) * CI.lit (L:Int) + CI.lit (j:Int) * CI.lit 3 + CI.lit 2
          - CI.lit (k:Int))
        swapBytes buf a b : M Unit) m = swapBytes buf ((i * L + j * 3 + k : Nat) : Int)
          (((R - 1 - i) * L + j * 3 + 2 - k : Nat) : Int) m := by
    intro i j k hi hj hk m hm
    rw [bind_ok (ev_ok (ea i j k hi hj hk) m), bind_ok (ev_ok (eb i j k hi hj hk) m)]
  refine bind_err ?_
  refine forI_fails (k := 0) (Live buf (R * L)) ?_ (by omega) ?_ hl
  · intro i hi m hm
    refine forI_outcome (Live buf (R * L)) ?_ hm
    intro j hj m hm
    refine forI_outcome (n := 3) (Live buf (R * L)) ?_ hm
    intro k hk m hm
    rw [step i j k (by omega) hj hk m hm]
    exact live_swap hm
  · intro m hm
    refine forI_fails (k := C - 1) (Live buf (R * L)) ?_ (by omega) ?_ hm
    · intro j hj m hm
      refine forI_outcome (n := 3) (Live buf (R * L)) ?_ hm
      intro k hk m hm
      rw [step 0 j k (by omega) hj hk m hm]
      exact live_swap hm
    · intro m hm
      refine forI_fails (n := 3) (k := 0) (Live buf (R * L)) ?_ (by omega) ?_ hm
      · intro k hk m hm
        rw [step 0 (C - 1) k (by omega) (by omega) hk m hm]
        exact live_swap hm
      · intro m hm
        rw [step 0 (C - 1) 0 (by omega) (by omega) (by omega) m hm]
        apply swap_oob hm
        have e : R * L = (R - 1 - 0) * L + L := by
          obtain ⟨R', rfl⟩ : ∃ R', R = R' + 1 := ⟨R - 1, by omega⟩
          rw [show R' + 1 - 1 - 0 = R' by omega]
          ring
        omega

end HyperCV
