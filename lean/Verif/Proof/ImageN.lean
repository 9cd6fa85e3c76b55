/- Images of typed elements in put form, and loops over their pixels. -/
import Verif.Proof.Image
import Verif.Proof.Typed
import Verif.Spec.Typed

namespace HyperCV
open Spec

/-- flattened pixels -/
def pxF (C ch : Nat) (a : Nat → Nat → Nat → Nat) (p : Nat) : Nat := a (p / ch / C) (p / ch % C) (p % ch)

theorem pxF_at {C ch i j c : Nat} (a : Nat → Nat → Nat → Nat) (hj : j < C) (hc : c < ch) :
    pxF C ch a ((i * C + j) * ch + c) = a i j c := by
  unfold pxF
  rw [mix_div hc, mix_mod hc, mix_div hj, mix_mod hj]

/-- replace the pixels -/
def Mem.putP (m : Mem) (d w R C ch : Nat) (a : Nat → Nat → Nat → Nat) : Mem := m.putN d w (R * C * ch) (pxF C ch a)

/-- the block `d` holds the pixels `a` -/
def HoldsP (m : Mem) (d w R C ch : Nat) (a : Nat → Nat → Nat → Nat) : Prop := HoldsN m d w (R * C * ch) (pxF C ch a)

def FitsP (w R C ch : Nat) (a : Nat → Nat → Nat → Nat) : Prop :=
  ∀ i j c, i < R → j < C → c < ch → a i j c < 256 ^ w

theorem FitsP.pxF {w R C ch : Nat} {a : Nat → Nat → Nat → Nat} (h : FitsP w R C ch a) :
    ∀ p, p < R * C * ch → pxF C ch a p < 256 ^ w := by
  intro p hp
  obtain ⟨i, j, c, hi, hj, hc, rfl⟩ := img8_cover hp
  rw [pxF_at a hj hc]; exact h i j c hi hj hc

theorem putP_congr (m : Mem) {d w R C ch : Nat} {a b : Nat → Nat → Nat → Nat}
    (h : ∀ i j c, i < R → j < C → c < ch → a i j c = b i j c) : m.putP d w R C ch a = m.putP d w R C ch b := by
  apply putN_congr
  intro p hp
  obtain ⟨i, j, c, hi, hj, hc, rfl⟩ := img8_cover hp
  rw [pxF_at a hj hc, pxF_at b hj hc, h i j c hi hj hc]

theorem HoldsP.fits {m : Mem} {d w R C ch : Nat} {a : Nat → Nat → Nat → Nat} (h : HoldsP m d w R C ch a) :
    FitsP w R C ch a := by
  intro i j c hi hj hc
  have := h.2 _ (img8_lt hi hj hc)
  rwa [pxF_at a hj hc] at this

theorem holdsP_putP (m : Mem) {d w R C ch : Nat} {a : Nat → Nat → Nat → Nat} (h : FitsP w R C ch a) :
    HoldsP (m.putP d w R C ch a) d w R C ch a := holdsN_putN m h.pxF

theorem HoldsP.put_self {m : Mem} {d w R C ch : Nat} {a : Nat → Nat → Nat → Nat} (h : HoldsP m d w R C ch a) :
    m.putP d w R C ch a = m := HoldsN.put_self h

theorem HoldsP.load {m : Mem} {d w R C ch i j c : Nat} {a : Nat → Nat → Nat → Nat} (h : HoldsP m d w R C ch a)
    (hi : i < R) (hj : j < C) (hc : c < ch) :
    loadN w d (((i * C + j) * ch + c : Nat) : Int) m = .ok (a i j c, m) := by
  rw [HoldsN.load h (img8_lt hi hj hc), pxF_at a hj hc]

theorem storeP_put {m : Mem} {d w R C ch i j c v : Nat} {a : Nat → Nat → Nat → Nat} (hi : i < R) (hj : j < C)
    (hc : c < ch) :
    storeN w d (((i * C + j) * ch + c : Nat) : Int) v (m.putP d w R C ch a)
      = .ok ((), m.putP d w R C ch (fun i' j' c' => if i' = i ∧ j' = j ∧ c' = c then v % 256 ^ w else a i' j' c')) := by
  unfold Mem.putP
  rw [storeN_put (img8_lt hi hj hc)]
  refine congrArg (fun x => Except.ok ((), x)) (putN_congr m ?_)
  intro p hp
  obtain ⟨i', j', c', hi', hj', hc', rfl⟩ := img8_cover hp
  rw [pxF_at a hj' hc', pxF_at _ hj' hc']
  by_cases e : (i' * C + j') * ch + c' = (i * C + j) * ch + c
  · rw [if_pos e]
    have e1 : c' = c := by
      have := congrArg (· % ch) e
      simp only [mix_mod hc', mix_mod hc] at this
      exact this
    have e2 : i' * C + j' = i * C + j := by
      have := congrArg (· / ch) e
      simp only [mix_div hc', mix_div hc] at this
      exact this
    have e3 : j' = j := by
      have := congrArg (· % C) e2
      simp only [mix_mod hj', mix_mod hj] at this
      exact this
    have e4 : i' = i := by
      have := congrArg (· / C) e2
      simp only [mix_div hj', mix_div hj] at this
      exact this
    rw [if_pos ⟨e4, e3, e1⟩]
  · rw [if_neg e, if_neg]
    rintro ⟨rfl, rfl, rfl⟩
    exact e rfl

theorem imgN_open {m : Mem} {p R C ch E : Nat} {dt : Int} {a : Nat → Nat → Nat → Nat} (h : IsImageN m p R C dt ch E a) :
    ∃ data inl, m.sm p = some ⟨R, C, dt, ch, E, data, inl⟩ ∧ HoldsP m data E R C ch a := by
  obtain ⟨data, inl, h1, h2⟩ := img_lit h.1
  refine ⟨data, inl, h1, ?_, FitsP.pxF h.2⟩
  apply h2.congr
  intro q hq
  obtain ⟨i, j, c, t, hi, hj, hc, ht, rfl⟩ := img_cover hq
  rw [imgBytes_at hj hc ht, encN_at _ ht, pxF_at a hj hc]

theorem imgN_put {m : Mem} {p R C ch E : Nat} {dt : Int} {a b : Nat → Nat → Nat → Nat} {hdr : SimpleMat}
    (h : IsImageN m p R C dt ch E a) (h1 : m.sm p = some hdr) (hb : FitsP E R C ch b) :
    IsImageN (m.putP hdr.data E R C ch b) p R C dt ch E b ∧ OnlyPixels m (m.putP hdr.data E R C ch b) p := by
  have := img_put (px' := fun i j c t => leByte (b i j c) t) (new := encN E (pxF C ch b)) h.1 h1 (by
    intro i j c t hi hj hc ht
    rw [encN_at _ ht, pxF_at b hj hc])
  exact ⟨⟨this.1, hb⟩, this.2⟩

/-- pixels before (`i`, `j`) in row-major order are new -/
def mixP (i j : Nat) (new old : Nat → Nat → Nat → Nat) : Nat → Nat → Nat → Nat :=
  fun a b c => if a < i ∨ (a = i ∧ b < j) then new a b c else old a b c

theorem FitsP.mix {w R C ch i j : Nat} {a b : Nat → Nat → Nat → Nat} (ha : FitsP w R C ch a) (hb : FitsP w R C ch b) :
    FitsP w R C ch (mixP i j a b) := by
  intro x y c hx hy hc
  unfold mixP
  split
  · exact ha x y c hx hy hc
  · exact hb x y c hx hy hc

/-- a loop over all pixels, one pixel at a time -/
theorem pixels_run {m : Mem} {d w R C ch : Nat} {old new : Nat → Nat → Nat → Nat} {body : Int → Int → M Unit}
    (hd : HoldsP m d w R C ch old)
    (step : ∀ i j, i < R → j < C → body i j (m.putP d w R C ch (mixP i j new old))
      = .ok ((), m.putP d w R C ch (mixP i (j+1) new old))) :
    (forI 0 (R:Int) fun i => forI 0 (C:Int) fun j => body i j) m = .ok ((), m.putP d w R C ch new) := by
  have top := forI_run (n := R) (body := fun i => forI 0 (C:Int) fun j => body i j)
    (fun i => m.putP d w R C ch (mixP i 0 new old)) (fun i hi => by
    refine (forI_run (n := C) (body := fun j => body i j)
      (fun j => m.putP d w R C ch (mixP i j new old)) (fun j hj => step i j hi hj)).trans ?_
    refine congrArg (fun x => Except.ok ((), x)) (putP_congr m ?_)
    intro a b c ha hb hc
    unfold mixP
    by_cases hd : a < i + 1
    · rw [if_pos (by omega), if_pos (by omega)]
    · rw [if_neg (by omega), if_neg (by omega)])
  have s0 : m.putP d w R C ch (mixP 0 0 new old) = m :=
    (putP_congr m (fun a b c _ _ _ => if_neg (by omega))).trans hd.put_self
  have s1 : m.putP d w R C ch (mixP R 0 new old) = m.putP d w R C ch new :=
    putP_congr m (fun a b c ha _ _ => if_pos (Or.inl ha))
  rw [s0, s1] at top
  exact top

/-- writing the single channel of one pixel advances the front -/
theorem mixP_step1 {R C i j : Nat} {new old : Nat → Nat → Nat → Nat} (v : Nat) (hv : v = new i j 0) :
    ∀ i' j' c', i' < R → j' < C → c' < 1 →
      (if i' = i ∧ j' = j ∧ c' = 0 then v else mixP i j new old i' j' c') = mixP i (j+1) new old i' j' c' := by
  intro i' j' c' hi hj hc
  obtain rfl : c' = 0 := by omega
  unfold mixP
  by_cases e : i' = i ∧ j' = j
  · obtain ⟨rfl, rfl⟩ := e
    rw [if_pos ⟨rfl, rfl, rfl⟩, if_pos (by omega), hv]
  · rw [if_neg (by omega)]
    by_cases hd : i' < i ∨ (i' = i ∧ j' < j)
    · rw [if_pos hd, if_pos (by omega)]
    · rw [if_neg hd, if_neg (by omega)]

/-- one-channel index expressions -/
theorem eval_px1 {R C i j : Nat} (hi : i < R) (hj : j < C) (hN : R * C ≤ 2147483647) :
    (CI.lit (i:Int) * CI.lit (C:Int) + CI.lit (j:Int) : CI) = CI.lit (((i * C + j) * 1 + 0 : Nat) : Int) := by
  have := mix_lt hi hj
  have h2 : i * C ≤ 2147483647 := by omega
  rw [CI.mul_ok (by constructor <;> ((try norm_cast) <;> omega))]
  rw [CI.add_ok (by constructor <;> ((try norm_cast) <;> omega))]
  congr 1
  push_cast
  ring

end HyperCV
