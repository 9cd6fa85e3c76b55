import Verif.Base.Sem
import Mathlib.Tactic.Ring
import Mathlib.Tactic.Linarith
import Mathlib.Tactic.Positivity
import Mathlib.Tactic.NormNum
import Mathlib.Tactic.Convert

namespace HyperCV

/-! ### Monad -/

@[simp] theorem pure_run {α : Type} (a : α) (m : Mem) : (pure a : M α) m = .ok (a, m) := rfl

theorem bind_run {α β : Type} (x : M α) (f : α → M β) (m : Mem) :
    (x >>= f) m = match x m with
      | .error e => .error e
      | .ok (a, m') => f a m' := rfl

theorem bind_ok {α β : Type} {x : M α} {f : α → M β} {m m' : Mem} {a : α}
    (h : x m = .ok (a, m')) : (x >>= f) m = f a m' := by
  rw [bind_run, h]

theorem bind_err {α β : Type} {x : M α} {f : α → M β} {m : Mem} {e : Err}
    (h : x m = .error e) : (x >>= f) m = .error e := by
  rw [bind_run, h]

@[simp] theorem fail_run {α : Type} (e : Err) (m : Mem) : (fail e : M α) m = .error e := rfl

@[simp] theorem cassert_true (m : Mem) : cassert true m = .ok ((), m) := rfl
@[simp] theorem cassert_false (m : Mem) : cassert false m = .error .exit := rfl

theorem cassert_bind {β : Type} {c : Bool} (hc : c = true) (f : Unit → M β) (m : Mem) :
    (cassert c >>= f) m = f () m := by
  subst hc; rfl

@[simp] theorem cassert_bind_true {β : Type} (f : Unit → M β) (m : Mem) :
    (cassert true >>= f) m = f () m := rfl

@[simp] theorem cassert_bind_false {β : Type} (f : Unit → M β) (m : Mem) :
    (cassert false >>= f) m = .error .exit := rfl

/-! ### Checked ints -/

namespace CI

theorem lit_def (x : Int) : lit x = .ok x := rfl

theorem add_ok {a b : Int} (h : InR (a + b)) : (lit a + lit b : CI) = lit (a + b) := by
  show ck (a + b) = _
  simp [ck, h]

theorem sub_ok {a b : Int} (h : InR (a - b)) : (lit a - lit b : CI) = lit (a - b) := by
  show ck (a - b) = _
  simp [ck, h]

theorem mul_ok {a b : Int} (h : InR (a * b)) : (lit a * lit b : CI) = lit (a * b) := by
  show ck (a * b) = _
  simp [ck, h]

theorem neg_ok {a : Int} (h : InR (-a)) : (- lit a : CI) = lit (-a) := by
  show ck (-a) = _
  simp [ck, h]

theorem div_ok {a b : Int} (hb : b ≠ 0) (h : InR (a.tdiv b)) :
    (lit a / lit b : CI) = lit (a.tdiv b) := by
  show (if b = 0 then _ else ck (a.tdiv b)) = _
  simp [ck, h, hb]

theorem mod_ok {a b : Int} (hb : b ≠ 0) (h : InR (a.tdiv b)) (h' : InR (a.tmod b)) :
    (lit a % lit b : CI) = lit (a.tmod b) := by
  show (if b = 0 then _ else if InR (a.tdiv b) then ck (a.tmod b) else _) = _
  simp [ck, h, h', hb]

theorem div_zero {a : Int} : (lit a / lit 0 : CI) = err (.ub .divZero) := rfl

theorem mul_bad {a b : Int} (h : ¬ InR (a * b)) : (lit a * lit b : CI) = err (.ub .overflow) := by
  show ck (a * b) = _
  simp [ck, h]

theorem add_bad {a b : Int} (h : ¬ InR (a + b)) : (lit a + lit b : CI) = err (.ub .overflow) := by
  show ck (a + b) = _
  simp [ck, h]

theorem sub_bad {a b : Int} (h : ¬ InR (a - b)) : (lit a - lit b : CI) = err (.ub .overflow) := by
  show ck (a - b) = _
  simp [ck, h]

@[simp] theorem ofNat_lit (n : Nat) : (OfNat.ofNat n : CI) = lit (OfNat.ofNat n) := rfl

@[simp] theorem err_mul (e : Err) (y : CI) : (err e * y : CI) = err e := rfl
@[simp] theorem err_add (e : Err) (y : CI) : (err e + y : CI) = err e := rfl
@[simp] theorem err_sub (e : Err) (y : CI) : (err e - y : CI) = err e := rfl

/-- top-down evaluation of sums of non-negative values: if the total fits, every part fits -/
theorem add_down {x y : CI} {a b : Nat} (h : a + b < 2147483648)
    (hx : a < 2147483648 → x = lit (a : Int)) (hy : b < 2147483648 → y = lit (b : Int)) :
    x + y = lit ((a + b : Nat) : Int) := by
  rw [hx (by omega), hy (by omega), add_ok]
  · push_cast; rfl
  · constructor <;> omega

theorem mul_down {x : CI} {a b : Nat} (h : a * b < 2147483648) (hb : 0 < b)
    (hx : a < 2147483648 → x = lit (a : Int)) :
    x * lit (b : Int) = lit ((a * b : Nat) : Int) := by
  have : a ≤ a * b := Nat.le_mul_of_pos_right a hb
  rw [hx (by omega), mul_ok]
  · push_cast; rfl
  · constructor
    · have : (0:Int) ≤ (a:Int) * b := by positivity
      omega
    · have : ((a * b : Nat) : Int) ≤ 2147483647 := by omega
      push_cast at this; exact this

end CI

/-- evaluates a checked sum/product of naturals, given a bound on the total as a hypothesis
and positivity of the right factors in the context -/
macro "ci_down" : tactic =>
  `(tactic| repeat' (first
      | rfl
      | (intro _; rfl)
      | (refine CI.mul_down (by assumption) (by first | assumption | omega) ?_)
      | (refine CI.add_down (by assumption) ?_ ?_)
      | intro _))

theorem ev_ok {x : CI} {a : Int} (h : x = CI.lit a) (m : Mem) : ev x m = .ok (a, m) := by
  subst h; rfl

@[simp] theorem ev_lit (a : Int) (m : Mem) : ev (CI.lit a) m = .ok (a, m) := rfl

theorem ev_bind {β : Type} {x : CI} {a : Int} (h : x = CI.lit a) (f : Int → M β) (m : Mem) :
    (ev x >>= f) m = f a m := by
  subst h; rfl

@[simp] theorem ev_lit_bind {β : Type} (a : Int) (f : Int → M β) (m : Mem) :
    (ev (CI.lit a) >>= f) m = f a m := rfl

theorem ev_err_bind {β : Type} {x : CI} {e : Err} (h : x = CI.err e) (f : Int → M β) (m : Mem) :
    (ev x >>= f) m = .error e := by
  subst h; rfl

/-! ### Tables and blocks -/

@[simp] theorem tab_length {α : Type} (n : Nat) (f : Nat → α) : (tab n f).length = n := by
  simp [tab]

theorem tab_get? {α : Type} {n i : Nat} (f : Nat → α) (h : i < n) : (tab n f)[i]? = some (f i) := by
  simp [tab, h]

theorem tab_get?_none {α : Type} {n i : Nat} (f : Nat → α) (h : n ≤ i) : (tab n f)[i]? = none := by
  simp [tab, h]

theorem tab_set {α : Type} (n i : Nat) (f : Nat → α) (v : α) :
    (tab n f).set i v = tab n (fun p => if p = i then v else f p) := by
  apply List.ext_getElem?
  intro j
  simp only [tab, List.getElem?_set, List.getElem?_map, List.length_map, List.length_range]
  by_cases hj : j < n
  · by_cases hij : i = j
    · subst hij; simp [hj]
    · simp [hj, hij, Ne.symm hij]
  · by_cases hij : i = j
    · subst hij; simp [hj]
    · simp [hj, hij]

theorem tab_congr {α : Type} {n : Nat} {f g : Nat → α} (h : ∀ i < n, f i = g i) :
    tab n f = tab n g := by
  apply List.map_congr_left
  intro i hi
  exact h i (List.mem_range.mp hi)

theorem tab_inj {α : Type} {n : Nat} {f g : Nat → α} (h : tab n f = tab n g) :
    ∀ i < n, f i = g i := by
  intro i hi
  have := congrArg (fun l => l[i]?) h
  simp only [tab_get? _ hi] at this
  exact Option.some.inj this

theorem eq_tab {l : List UInt8} : l = tab l.length (fun i => l.getD i 0) := by
  apply List.ext_getElem?
  intro i
  by_cases h : i < l.length
  · rw [tab_get? _ h]; simp [h]
  · rw [tab_get?_none _ (by omega)]; simp; omega

/-- block `h` is replaced by the table of `f` of length `n` -/
def Mem.put (m : Mem) (h n : Nat) (f : Nat → UInt8) : Mem := m.setBlk h (some (tab n f))

/-- block `h` holds exactly the `n` bytes `f 0 .. f (n-1)` -/
def Holds (m : Mem) (h n : Nat) (f : Nat → UInt8) : Prop := m.blk h = some (tab n f)

theorem Mem.ext' {m m' : Mem} (h1 : m.blk = m'.blk) (h2 : m.next = m'.next)
    (h3 : m.junk = m'.junk) (h4 : m.hm = m'.hm) (h5 : m.sm = m'.sm) (h6 : m.pad = m'.pad)
    (h7 : m.addr = m'.addr) : m = m' := by
  cases m; cases m'; simp_all

theorem Holds.put_self {m : Mem} {h n : Nat} {f : Nat → UInt8} (hm : Holds m h n f) :
    m.put h n f = m := by
  apply Mem.ext' <;> try rfl
  funext h'
  simp only [Mem.put, Mem.setBlk]
  split
  · subst_vars; exact hm.symm
  · rfl

@[simp] theorem put_blk_same (m : Mem) (h n : Nat) (f : Nat → UInt8) :
    (m.put h n f).blk h = some (tab n f) := by
  simp [Mem.put, Mem.setBlk]

theorem put_blk_ne (m : Mem) {h h' : Nat} (n : Nat) (f : Nat → UInt8) (hne : h' ≠ h) :
    (m.put h n f).blk h' = m.blk h' := by
  simp [Mem.put, Mem.setBlk, hne]

@[simp] theorem put_next (m : Mem) (h n : Nat) (f : Nat → UInt8) : (m.put h n f).next = m.next := rfl
@[simp] theorem put_junk (m : Mem) (h n : Nat) (f : Nat → UInt8) : (m.put h n f).junk = m.junk := rfl
@[simp] theorem put_hm (m : Mem) (h n : Nat) (f : Nat → UInt8) : (m.put h n f).hm = m.hm := rfl
@[simp] theorem put_sm (m : Mem) (h n : Nat) (f : Nat → UInt8) : (m.put h n f).sm = m.sm := rfl
@[simp] theorem put_pad (m : Mem) (h n : Nat) (f : Nat → UInt8) : (m.put h n f).pad = m.pad := rfl
@[simp] theorem put_addr (m : Mem) (h n : Nat) (f : Nat → UInt8) : (m.put h n f).addr = m.addr := rfl

theorem holds_put (m : Mem) (h n : Nat) (f : Nat → UInt8) : Holds (m.put h n f) h n f := by
  simp [Holds]

theorem Holds.put_ne {m : Mem} {h h' n n' : Nat} {f f' : Nat → UInt8} (hm : Holds m h n f)
    (hne : h ≠ h') : Holds (m.put h' n' f') h n f := by
  unfold Holds; rw [put_blk_ne _ _ _ hne]; exact hm

@[simp] theorem put_put (m : Mem) (h n n' : Nat) (f f' : Nat → UInt8) :
    (m.put h n f).put h n' f' = m.put h n' f' := by
  apply Mem.ext' <;> try rfl
  funext h'
  simp only [Mem.put, Mem.setBlk]
  split <;> rfl

theorem put_comm (m : Mem) {h h' : Nat} (n n' : Nat) (f f' : Nat → UInt8) (hne : h ≠ h') :
    (m.put h n f).put h' n' f' = (m.put h' n' f').put h n f := by
  apply Mem.ext' <;> try rfl
  funext x
  simp only [Mem.put, Mem.setBlk]
  by_cases h1 : x = h <;> by_cases h2 : x = h' <;> simp [h1, h2]
  all_goals (intro hh; omega)

theorem put_congr (m : Mem) (h n : Nat) {f g : Nat → UInt8} (hfg : ∀ i < n, f i = g i) :
    m.put h n f = m.put h n g := by
  unfold Mem.put; rw [tab_congr hfg]

theorem put_WF {m : Mem} (hm : m.WF) {h n : Nat} {f : Nat → UInt8} (hh : h < m.next) :
    (m.put h n f).WF := by
  intro x hx
  simp only [put_next] at hx
  rw [put_blk_ne _ _ _ (by omega)]
  simpa using hm x hx

theorem Holds.lt_next {m : Mem} (hm : m.WF) {h n : Nat} {f : Nat → UInt8} (hh : Holds m h n f) :
    h < m.next := by
  by_contra hc
  have := (hm h (by omega)).1
  rw [Holds, this] at hh
  cases hh

theorem Holds.congr {m : Mem} {h n : Nat} {f g : Nat → UInt8} (hm : Holds m h n f)
    (hfg : ∀ i < n, f i = g i) : Holds m h n g := by
  unfold Holds; rw [hm, tab_congr hfg]

theorem Holds.unique {m : Mem} {h n n' : Nat} {f g : Nat → UInt8} (h1 : Holds m h n f)
    (h2 : Holds m h n' g) : n = n' ∧ ∀ i < n, f i = g i := by
  have h3 : tab n f = tab n' g := by
    have := h1.symm.trans h2; exact Option.some.inj this
  have h4 := congrArg List.length h3
  simp at h4
  subst h4
  exact ⟨rfl, tab_inj h3⟩

/-! ### Loads and stores -/

theorem load_ok {m : Mem} {h n i : Nat} {f : Nat → UInt8} (hm : Holds m h n f) (hi : i < n) :
    load h (i : Int) m = .ok (f i, m) := by
  unfold load
  rw [hm]
  simp [tab_get? f hi]

theorem load_oob {m : Mem} {h n i : Nat} {f : Nat → UInt8} (hm : Holds m h n f) (hi : n ≤ i) :
    load h (i : Int) m = .error (.ub .oob) := by
  unfold load
  rw [hm]
  simp [tab_get?_none f hi]

theorem load_neg {m : Mem} {h : Nat} {i : Int} (hi : i < 0) :
    load h i m = .error (.ub .oob) := by
  unfold load
  cases m.blk h <;> simp [hi]

theorem store_put {m : Mem} {h n i : Nat} {f : Nat → UInt8} {v : UInt8} (hi : i < n) :
    store h (i : Int) v (m.put h n f)
      = .ok ((), m.put h n (fun p => if p = i then v else f p)) := by
  unfold store
  simp only [put_blk_same, tab_length, Int.natCast_nonneg, Int.toNat_natCast, hi, and_self,
    if_true, tab_set]
  congr 2
  apply Mem.ext' <;> try rfl
  funext x
  simp only [Mem.put, Mem.setBlk]
  split <;> rfl

theorem store_ok {m : Mem} {h n i : Nat} {f : Nat → UInt8} {v : UInt8} (hm : Holds m h n f)
    (hi : i < n) :
    store h (i : Int) v m = .ok ((), m.put h n (fun p => if p = i then v else f p)) := by
  conv_lhs => rw [← hm.put_self]
  exact store_put hi

theorem store_oob {m : Mem} {h n : Nat} {i : Int} {f : Nat → UInt8} {v : UInt8}
    (hm : Holds m h n f) (hi : (n : Int) ≤ i) :
    store h i v m = .error (.ub .oob) := by
  unfold store
  rw [hm]
  have : ¬ (i.toNat < n) := by omega
  simp [this]

theorem store_neg {m : Mem} {h : Nat} {i : Int} {v : UInt8} (hi : i < 0) :
    store h i v m = .error (.ub .oob) := by
  unfold store
  cases m.blk h with
  | none => rfl
  | some l =>
    have : ¬ (0 ≤ i) := by omega
    simp [this]

/-! ### Loops -/

theorem forLoop_run {σ : Type} {body : Int → σ → M σ} (F : Nat → Mem) (G : Nat → σ) :
    ∀ (n a : Nat) (lo : Int),
    (∀ k, k < n → body (lo + (k : Int)) (G (a + k)) (F (a + k))
        = .ok (G (a + k + 1), F (a + k + 1))) →
    forLoop body n lo (G a) (F a) = .ok (G (a + n), F (a + n)) := by
  intro n
  induction n with
  | zero => intro a lo _; rfl
  | succ n ih =>
    intro a lo h
    have h0 := h 0 (by omega)
    simp only [Int.natCast_zero, Int.add_zero, Nat.add_zero] at h0
    rw [forLoop, bind_ok h0, ih (a+1) (lo+1)]
    · have : a + 1 + n = a + (n + 1) := by omega
      rw [this]
    · intro k hk
      have := h (k+1) (by omega)
      have e1 : lo + ((k+1 : Nat) : Int) = lo + 1 + (k : Int) := by push_cast; ring
      have e2 : a + (k + 1) = a + 1 + k := by omega
      rw [e1, e2] at this
      exact this

/-- deterministic run of `for (i = 0; i < n; i++)`: trajectory of state and memory -/
theorem forA_run {σ : Type} {n : Nat} {body : Int → σ → M σ} (F : Nat → Mem) (G : Nat → σ)
    (h : ∀ i, i < n → body (i : Int) (G i) (F i) = .ok (G (i+1), F (i+1))) :
    forA 0 (n : Int) (G 0) body (F 0) = .ok (G n, F n) := by
  unfold forA
  have := forLoop_run (body := body) F G n 0 0 (by
    intro k hk
    have := h k hk
    simpa using this)
  simpa using this

theorem forI_run {n : Nat} {body : Int → M Unit} (F : Nat → Mem)
    (h : ∀ i, i < n → body (i : Int) (F i) = .ok ((), F (i+1))) :
    forI 0 (n : Int) body (F 0) = .ok ((), F n) :=
  forA_run F (fun _ => ()) h

/-- a loop from `lo` -/
theorem forA_run_from {σ : Type} {n : Nat} {lo hi : Int} {body : Int → σ → M σ}
    (hn : hi = lo + (n : Int))
    (F : Nat → Mem) (G : Nat → σ)
    (h : ∀ i, i < n → body (lo + (i : Int)) (G i) (F i) = .ok (G (i+1), F (i+1))) :
    forA lo hi (G 0) body (F 0) = .ok (G n, F n) := by
  unfold forA
  have := forLoop_run (body := body) F G n 0 lo (by
    intro k hk
    have := h k hk
    simpa using this)
  have e : (hi - lo).toNat = n := by omega
  rw [e]
  simpa using this

theorem forI_run_from {n : Nat} {lo hi : Int} {body : Int → M Unit} (hn : hi = lo + (n : Int))
    (F : Nat → Mem)
    (h : ∀ i, i < n → body (lo + (i : Int)) (F i) = .ok ((), F (i+1))) :
    forI lo hi body (F 0) = .ok ((), F n) :=
  forA_run_from hn F (fun _ => ()) h

theorem forA_empty {σ : Type} {lo hi : Int} {s : σ} {body : Int → σ → M σ} (h : hi ≤ lo) (m : Mem) :
    forA lo hi s body m = .ok (s, m) := by
  unfold forA
  have : (hi - lo).toNat = 0 := by omega
  rw [this]; rfl

theorem forI_empty {lo hi : Int} {body : Int → M Unit} (h : hi ≤ lo) (m : Mem) :
    forI lo hi body m = .ok ((), m) := forA_empty h m

/-- if some iteration fails after successful ones, the loop fails -/
theorem forLoop_err {σ : Type} {body : Int → σ → M σ} (F : Nat → Mem) (G : Nat → σ) (e : Err) :
    ∀ (n b a : Nat) (lo : Int), b < n →
    (∀ k, k < b → body (lo + (k : Int)) (G (a + k)) (F (a + k))
        = .ok (G (a + k + 1), F (a + k + 1))) →
    body (lo + (b : Int)) (G (a + b)) (F (a + b)) = .error e →
    forLoop body n lo (G a) (F a) = .error e := by
  intro n
  induction n with
  | zero => intro b a lo hb; omega
  | succ n ih =>
    intro b a lo hb h he
    cases b with
    | zero =>
      simp only [Int.natCast_zero, Int.add_zero, Nat.add_zero] at he
      rw [forLoop, bind_err he]
    | succ b =>
      have h0 := h 0 (by omega)
      simp only [Int.natCast_zero, Int.add_zero, Nat.add_zero] at h0
      rw [forLoop, bind_ok h0]
      apply ih b (a+1) (lo+1) (by omega)
      · intro k hk
        have := h (k+1) (by omega)
        have e1 : lo + ((k+1 : Nat) : Int) = lo + 1 + (k : Int) := by push_cast; ring
        have e2 : a + (k + 1) = a + 1 + k := by omega
        rw [e1, e2] at this
        exact this
      · have e1 : lo + ((b+1 : Nat) : Int) = lo + 1 + (b : Int) := by push_cast; ring
        have e2 : a + (b + 1) = a + 1 + b := by omega
        rw [e1, e2] at he
        exact he

theorem forI_err {n b : Nat} {body : Int → M Unit} (F : Nat → Mem) {e : Err} (hb : b < n)
    (h : ∀ i, i < b → body (i : Int) (F i) = .ok ((), F (i+1)))
    (he : body (b : Int) (F b) = .error e) :
    forI 0 (n : Int) body (F 0) = .error e := by
  unfold forI forA
  have := forLoop_err (body := fun i (_ : Unit) => body i) F (fun _ => ()) e n b 0 0 hb (by
    intro k hk
    have := h k hk
    simpa using this) (by simpa using he)
  simpa using this

/-- "filling" loop: iteration `i` writes bytes so that the set of finished positions grows from
`W i` to `W (i+1)`; finished positions hold `new`, the others `old`. -/
theorem forI_fill {n : Nat} {body : Int → M Unit} {m : Mem} {d N : Nat} {new old : Nat → UInt8}
    (W : Nat → Nat → Prop) [∀ i p, Decidable (W i p)]
    (h : ∀ i, i < n → body (i : Int) (m.put d N (fun p => if W i p then new p else old p))
        = .ok ((), m.put d N (fun p => if W (i+1) p then new p else old p))) :
    forI 0 (n : Int) body (m.put d N (fun p => if W 0 p then new p else old p))
      = .ok ((), m.put d N (fun p => if W n p then new p else old p)) :=
  forI_run (fun i => m.put d N (fun p => if W i p then new p else old p)) h

/-- one store extends the finished set by one position -/
theorem store_fill {m : Mem} {d N i : Nat} {new old : Nat → UInt8} {W W' : Nat → Prop}
    [∀ p, Decidable (W p)] [∀ p, Decidable (W' p)] {v : UInt8} (hi : i < N) (hv : v = new i)
    (hW : ∀ p, p < N → (W' p ↔ W p ∨ p = i)) :
    store d (i : Int) v (m.put d N (fun p => if W p then new p else old p))
      = .ok ((), m.put d N (fun p => if W' p then new p else old p)) := by
  rw [store_put hi]
  congr 2
  apply put_congr
  intro p hp
  have := hW p hp
  by_cases h1 : p = i
  · subst h1; simp [this, hv]
  · simp [this, h1]

theorem memcpy_put {m : Mem} {d s N n doff soff k : Nat} {f g : Nat → UInt8}
    (hs : Holds m s N f) (hne : s ≠ d) (h1 : doff + k ≤ n) (h2 : soff + k ≤ N) :
    memcpy d (doff : Int) s (soff : Int) (k : Int) (m.put d n g)
      = .ok ((), m.put d n (fun p => if doff ≤ p ∧ p < doff + k then f (soff + (p - doff)) else g p)) := by
  unfold memcpy
  have hk0 : ¬ ((k : Int) < 0) := by omega
  rw [if_neg hk0, if_neg (fun h => hne h.1.symm)]
  have key := forI_fill (n := k) (m := m) (d := d) (N := n)
    (body := fun t => do
      let v ← load s ((soff : Int) + t)
      store d ((doff : Int) + t) v)
    (new := fun p => f (soff + (p - doff))) (old := g)
    (fun i p => doff ≤ p ∧ p < doff + i) (by
      intro i hi
      have e1 : (soff : Int) + (i : Int) = ((soff + i : Nat) : Int) := by push_cast; rfl
      have e2 : (doff : Int) + (i : Int) = ((doff + i : Nat) : Int) := by push_cast; rfl
      rw [bind_ok (by rw [e1]; exact load_ok (hs.put_ne hne) (by omega)), e2]
      apply store_fill (by omega)
      · simp
      · intro p hp; omega)
  rw [← key]
  congr 1
  apply put_congr
  intro p _
  simp

theorem memcpy_ok {m : Mem} {d s N n doff soff k : Nat} {f g : Nat → UInt8}
    (hs : Holds m s N f) (hd : Holds m d n g) (hne : s ≠ d) (h1 : doff + k ≤ n) (h2 : soff + k ≤ N) :
    memcpy d (doff : Int) s (soff : Int) (k : Int) m
      = .ok ((), m.put d n (fun p => if doff ≤ p ∧ p < doff + k then f (soff + (p - doff)) else g p)) := by
  conv_lhs => rw [← hd.put_self]
  exact memcpy_put hs hne h1 h2

theorem memset_ok {m : Mem} {d n off k : Nat} {g : Nat → UInt8} {v : UInt8}
    (hd : Holds m d n g) (h1 : off + k ≤ n) :
    memset d (off : Int) v (k : Int) m
      = .ok ((), m.put d n (fun p => if off ≤ p ∧ p < off + k then v else g p)) := by
  unfold memset
  have : ¬ ((k : Int) < 0) := by omega
  simp only [this, if_false]
  conv_lhs => rw [← hd.put_self]
  have key := forI_fill (n := k) (m := m) (d := d) (N := n)
    (body := fun t => store d ((off : Int) + t) v)
    (new := fun p => v) (old := g)
    (fun i p => off ≤ p ∧ p < off + i) (by
      intro i hi
      have e2 : (off : Int) + (i : Int) = ((off + i : Nat) : Int) := by push_cast; rfl
      rw [e2]
      apply store_fill (by omega)
      · simp
      · intro p hp; omega)
  rw [← key]
  congr 1
  apply put_congr
  intro p _
  simp

/-! ### Allocation -/

/-- memory after `malloc n` -/
def Mem.grow (m : Mem) (n : Nat) (f : Nat → UInt8) : Mem :=
  { m with
    blk := fun h => if h = m.next then some (tab n f) else m.blk h
    next := m.next + 1 }

theorem malloc_run (n : Nat) (m : Mem) : malloc n m = .ok (m.next, m.grow n (m.junk m.next)) := rfl

theorem grow_holds (m : Mem) (n : Nat) (f : Nat → UInt8) : Holds (m.grow n f) m.next n f := by
  simp [Holds, Mem.grow]

@[simp] theorem grow_next (m : Mem) (n : Nat) (f : Nat → UInt8) : (m.grow n f).next = m.next + 1 := rfl
@[simp] theorem grow_junk (m : Mem) (n : Nat) (f : Nat → UInt8) : (m.grow n f).junk = m.junk := rfl
@[simp] theorem grow_hm (m : Mem) (n : Nat) (f : Nat → UInt8) : (m.grow n f).hm = m.hm := rfl
@[simp] theorem grow_sm (m : Mem) (n : Nat) (f : Nat → UInt8) : (m.grow n f).sm = m.sm := rfl
@[simp] theorem grow_pad (m : Mem) (n : Nat) (f : Nat → UInt8) : (m.grow n f).pad = m.pad := rfl
@[simp] theorem grow_addr (m : Mem) (n : Nat) (f : Nat → UInt8) : (m.grow n f).addr = m.addr := rfl

theorem grow_blk_ne (m : Mem) (n : Nat) (f : Nat → UInt8) {h : Nat} (hne : h ≠ m.next) :
    (m.grow n f).blk h = m.blk h := by
  simp [Mem.grow, hne]

theorem Holds.grow {m : Mem} (hm : m.WF) {h n n' : Nat} {f f' : Nat → UInt8} (hh : Holds m h n f) :
    Holds (m.grow n' f') h n f := by
  have := hh.lt_next hm
  unfold Holds; rw [grow_blk_ne _ _ _ (by omega)]; exact hh

theorem grow_WF {m : Mem} (hm : m.WF) (n : Nat) (f : Nat → UInt8) : (m.grow n f).WF := by
  intro x hx
  simp only [grow_next] at hx
  rw [grow_blk_ne _ _ _ (by omega)]
  simpa using hm x (by omega)

theorem grow_put (m : Mem) (n n' : Nat) (f f' : Nat → UInt8) :
    (m.grow n f).put m.next n' f' = m.grow n' f' := by
  apply Mem.ext' <;> try rfl
  funext x
  simp only [Mem.put, Mem.setBlk, Mem.grow]
  split <;> rfl

theorem grow_congr (m : Mem) (n : Nat) {f g : Nat → UInt8} (hfg : ∀ i < n, f i = g i) :
    m.grow n f = m.grow n g := by
  unfold Mem.grow; rw [tab_congr hfg]

theorem put_grow_comm (m : Mem) {h n n' : Nat} {f f' : Nat → UInt8} (hne : h ≠ m.next) :
    (m.put h n f).grow n' f' = (m.grow n' f').put h n f := by
  apply Mem.ext' <;> try rfl
  funext x
  simp only [Mem.put, Mem.setBlk, Mem.grow]
  by_cases h1 : x = h <;> by_cases h2 : x = m.next <;> simp [h1, h2]
  all_goals (intro hh; omega)

/-! ### Headers -/

theorem getH_ok {m : Mem} {p : Nat} {h : HyperMat} (hp : m.hm p = some h) :
    getH p m = .ok (h, m) := by
  unfold getH; rw [hp]

theorem getS_ok {m : Mem} {p : Nat} {h : SimpleMat} (hp : m.sm p = some h) :
    getS p m = .ok (h, m) := by
  unfold getS; rw [hp]

/-- memory with one cube header replaced -/
def Mem.withH (m : Mem) (p : Nat) (h : HyperMat) : Mem :=
  { m with hm := fun q => if q = p then some h else m.hm q }

/-- memory with one image header replaced -/
def Mem.withS (m : Mem) (p : Nat) (h : SimpleMat) : Mem :=
  { m with sm := fun q => if q = p then some h else m.sm q }

/-- memory with one fresh cube header -/
def Mem.growH (m : Mem) (h : HyperMat) : Mem :=
  { m with hm := fun q => if q = m.next then some h else m.hm q, next := m.next + 1 }

/-- memory with one fresh image header -/
def Mem.growS (m : Mem) (h : SimpleMat) : Mem :=
  { m with sm := fun q => if q = m.next then some h else m.sm q, next := m.next + 1 }

theorem setH_ok {m : Mem} {p : Nat} {h h' : HyperMat} (hp : m.hm p = some h) :
    setH p h' m = .ok ((), m.withH p h') := by
  unfold setH; rw [hp]; rfl

theorem setS_ok {m : Mem} {p : Nat} {h h' : SimpleMat} (hp : m.sm p = some h) :
    setS p h' m = .ok ((), m.withS p h') := by
  unfold setS; rw [hp]; rfl

theorem newH_run (h : HyperMat) (m : Mem) : newH h m = .ok (m.next, m.growH h) := rfl
theorem newS_run (h : SimpleMat) (m : Mem) : newS h m = .ok (m.next, m.growS h) := rfl

@[simp] theorem growH_blk (m : Mem) (h : HyperMat) : (m.growH h).blk = m.blk := rfl
@[simp] theorem growH_sm (m : Mem) (h : HyperMat) : (m.growH h).sm = m.sm := rfl
@[simp] theorem growH_next (m : Mem) (h : HyperMat) : (m.growH h).next = m.next + 1 := rfl
@[simp] theorem growH_hm_self (m : Mem) (h : HyperMat) : (m.growH h).hm m.next = some h := by
  simp [Mem.growH]
theorem growH_hm_ne (m : Mem) (h : HyperMat) {q : Nat} (hq : q ≠ m.next) :
    (m.growH h).hm q = m.hm q := by
  simp [Mem.growH, hq]
@[simp] theorem growS_blk (m : Mem) (h : SimpleMat) : (m.growS h).blk = m.blk := rfl
@[simp] theorem growS_hm (m : Mem) (h : SimpleMat) : (m.growS h).hm = m.hm := rfl
@[simp] theorem growS_next (m : Mem) (h : SimpleMat) : (m.growS h).next = m.next + 1 := rfl
@[simp] theorem growS_sm_self (m : Mem) (h : SimpleMat) : (m.growS h).sm m.next = some h := by
  simp [Mem.growS]
theorem growS_sm_ne (m : Mem) (h : SimpleMat) {q : Nat} (hq : q ≠ m.next) :
    (m.growS h).sm q = m.sm q := by
  simp [Mem.growS, hq]
@[simp] theorem withH_blk (m : Mem) (p : Nat) (h : HyperMat) : (m.withH p h).blk = m.blk := rfl
@[simp] theorem withH_sm (m : Mem) (p : Nat) (h : HyperMat) : (m.withH p h).sm = m.sm := rfl
@[simp] theorem withH_next (m : Mem) (p : Nat) (h : HyperMat) : (m.withH p h).next = m.next := rfl
@[simp] theorem withH_hm_self (m : Mem) (p : Nat) (h : HyperMat) : (m.withH p h).hm p = some h := by
  simp [Mem.withH]
theorem withH_hm_ne (m : Mem) {p q : Nat} (h : HyperMat) (hq : q ≠ p) :
    (m.withH p h).hm q = m.hm q := by
  simp [Mem.withH, hq]
@[simp] theorem withS_blk (m : Mem) (p : Nat) (h : SimpleMat) : (m.withS p h).blk = m.blk := rfl
@[simp] theorem withS_hm (m : Mem) (p : Nat) (h : SimpleMat) : (m.withS p h).hm = m.hm := rfl
@[simp] theorem withS_next (m : Mem) (p : Nat) (h : SimpleMat) : (m.withS p h).next = m.next := rfl
@[simp] theorem withS_sm_self (m : Mem) (p : Nat) (h : SimpleMat) : (m.withS p h).sm p = some h := by
  simp [Mem.withS]
theorem withS_sm_ne (m : Mem) {p q : Nat} (h : SimpleMat) (hq : q ≠ p) :
    (m.withS p h).sm q = m.sm q := by
  simp [Mem.withS, hq]

@[simp] theorem nonNull_some {β : Type} (p : Nat) (f : Nat → M β) (m : Mem) :
    (nonNull (some p) >>= f) m = f p m := rfl
@[simp] theorem nonNull_none {β : Type} (f : Nat → M β) (m : Mem) :
    (nonNull none >>= f) m = .error .exit := rfl
@[simp] theorem padOf_run (p : Nat) (m : Mem) : padOf p m = .ok (m.pad p, m) := rfl
@[simp] theorem nextH_run (m : Mem) : nextH m = .ok (m.next, m) := rfl

theorem u32_nat {n : Nat} (h : n < 4294967296) : u32 (n : Int) = n := by
  unfold u32; omega

/-! ### Filling loops

`Fills x m d N new P`: running `x` on any memory that agrees with `m` outside block `d` (of length
`N`) overwrites exactly the positions satisfying `P` with the values of `new`, and changes nothing
else. -/

open Classical in
def Fills (x : M Unit) (m : Mem) (d N : Nat) (new : Nat → UInt8) (P : Nat → Prop) : Prop :=
  ∀ g, x (m.put d N g) = .ok ((), m.put d N (fun p => if P p then new p else g p))

theorem Fills.congr {x : M Unit} {m : Mem} {d N : Nat} {new new' : Nat → UInt8} {P Q : Nat → Prop}
    (h : Fills x m d N new P) (hPQ : ∀ p, p < N → (P p ↔ Q p))
    (hn : ∀ p, p < N → Q p → new p = new' p) :
    Fills x m d N new' Q := by
  intro g
  rw [h g]
  congr 2
  apply put_congr
  intro p hp
  by_cases hq : Q p
  · simp [(hPQ p hp).2 hq, hq, hn p hp hq]
  · have : ¬ P p := fun h => hq ((hPQ p hp).1 h)
    simp [hq, this]

theorem Fills.store {m : Mem} {d N i : Nat} {new : Nat → UInt8} {v : UInt8} (hi : i < N)
    (hv : v = new i) : Fills (store d (i : Int) v) m d N new (fun p => p = i) := by
  intro g
  rw [store_put hi]
  congr 2
  apply put_congr
  intro p _
  by_cases h : p = i
  · subst h; simp [hv]
  · simp [h]

theorem Fills.seq {x y : M Unit} {m : Mem} {d N : Nat} {new : Nat → UInt8} {P Q : Nat → Prop}
    (hx : Fills x m d N new P) (hy : Fills y m d N new Q) :
    Fills (x >>= fun _ => y) m d N new (fun p => P p ∨ Q p) := by
  intro g
  rw [bind_ok (hx g), hy]
  congr 2
  apply put_congr
  intro p _
  by_cases h1 : P p <;> by_cases h2 : Q p <;> simp [h1, h2]

theorem Fills.skip {m : Mem} {d N : Nat} {new : Nat → UInt8} :
    Fills (pure ()) m d N new (fun _ => False) := by
  intro g; simp

theorem Fills.loop {n : Nat} {body : Int → M Unit} {m : Mem} {d N : Nat} {new : Nat → UInt8}
    {P : Nat → Nat → Prop} (h : ∀ i, i < n → Fills (body (i : Int)) m d N new (P i)) :
    Fills (forI 0 (n : Int) body) m d N new (fun p => ∃ i, i < n ∧ P i p) := by
  intro g
  have key := forI_run (n := n) (body := body)
    (fun i => m.put d N (fun p => by classical exact if ∃ i', i' < i ∧ P i' p then new p else g p)) (by
      intro i hi
      rw [h i hi]
      congr 2
      apply put_congr
      intro p _
      by_cases h1 : P i p
      · have : ∃ i', i' < i + 1 ∧ P i' p := ⟨i, by omega, h1⟩
        simp [h1, this]
      · by_cases h2 : ∃ i', i' < i ∧ P i' p
        · have : ∃ i', i' < i + 1 ∧ P i' p := by
            obtain ⟨i', a, b⟩ := h2; exact ⟨i', by omega, b⟩
          rw [if_neg h1, if_pos h2, if_pos this]
        · have : ¬ ∃ i', i' < i + 1 ∧ P i' p := by
            rintro ⟨i', a, b⟩
            by_cases h3 : i' = i
            · subst h3; exact h1 b
            · exact h2 ⟨i', by omega, b⟩
          rw [if_neg h1, if_neg h2, if_neg this])
  simp only [Nat.not_lt_zero, false_and, exists_false, if_false] at key
  convert key

theorem Fills.loop_from {n : Nat} {lo hi : Int} {body : Int → M Unit} {m : Mem} {d N : Nat}
    {new : Nat → UInt8} {P : Nat → Nat → Prop} (hn : hi = lo + (n : Int))
    (h : ∀ i, i < n → Fills (body (lo + (i : Int))) m d N new (P i)) :
    Fills (forI lo hi body) m d N new (fun p => ∃ i, i < n ∧ P i p) := by
  have e : forI lo hi body = forI 0 (n : Int) (fun i => body (lo + i)) := by
    unfold forI forA
    have e1 : (hi - lo).toNat = n := by omega
    have e2 : ((n : Int) - 0).toNat = n := by omega
    rw [e1, e2]
    have gen : ∀ (k : Nat) (a : Int), forLoop (fun i (_ : Unit) => body i) k (lo + a) ()
        = forLoop (fun i (_ : Unit) => body (lo + i)) k a () := by
      intro k
      induction k with
      | zero => intro a; rfl
      | succ k ih =>
        intro a
        unfold forLoop
        have := ih (a + 1)
        have e3 : lo + (a + 1) = lo + a + 1 := by ring
        rw [e3] at this
        simp only [this]
    have := gen n 0
    simpa using this
  rw [e]
  exact Fills.loop h

theorem Fills.memcpy {m : Mem} {d s N n doff soff k : Nat} {f new : Nat → UInt8}
    (hs : Holds m s N f) (hne : s ≠ d) (h1 : doff + k ≤ n) (h2 : soff + k ≤ N)
    (hnew : ∀ p, doff ≤ p → p < doff + k → new p = f (soff + (p - doff))) :
    Fills (memcpy d (doff : Int) s (soff : Int) (k : Int)) m d n new
      (fun p => doff ≤ p ∧ p < doff + k) := by
  intro g
  rw [memcpy_put hs hne h1 h2]
  congr 2
  apply put_congr
  intro p _
  by_cases h : doff ≤ p ∧ p < doff + k
  · simp [h, hnew p h.1 h.2]
  · simp [h]

/-- a filling computation that covers the whole block -/
theorem Fills.total {x : M Unit} {m : Mem} {d N : Nat} {new : Nat → UInt8} {P : Nat → Prop}
    (h : Fills x m d N new P) (hP : ∀ p, p < N → P p) {g : Nat → UInt8} (hd : Holds m d N g) :
    x m = .ok ((), m.put d N new) := by
  have := h g
  rw [hd.put_self] at this
  rw [this]
  congr 2
  apply put_congr
  intro p hp
  simp [hP p hp]

open Classical in
/-- a filling computation started from the actual contents of the block -/
theorem Fills.run {x : M Unit} {m : Mem} {d N : Nat} {new : Nat → UInt8} {P : Nat → Prop}
    (h : Fills x m d N new P) {g : Nat → UInt8} (hd : Holds m d N g) :
    x m = .ok ((), m.put d N (fun p => if P p then new p else g p)) := by
  have := h g
  rwa [hd.put_self] at this

/-- a read before a filling computation -/
theorem Fills.bind {α : Type} {x : M α} {f : α → M Unit} {m : Mem} {d N : Nat} {new : Nat → UInt8}
    {P : Nat → Prop} {a : α} (hx : ∀ g, x (m.put d N g) = .ok (a, m.put d N g))
    (hf : Fills (f a) m d N new P) : Fills (x >>= f) m d N new P := by
  intro g
  rw [bind_ok (hx g)]
  exact hf g

/-- a loop each of whose iterations either fails with `e` or keeps `P` does so itself -/
theorem forI_outcome {n : Nat} {body : Int → M Unit} {e : Err} (P : Mem → Prop)
    (h : ∀ i, i < n → ∀ m, P m → body (i:Int) m = .error e ∨ ∃ m', body (i:Int) m = .ok ((), m') ∧ P m')
    {m : Mem} (hm : P m) :
    forI 0 (n:Int) body m = .error e ∨ ∃ m', forI 0 (n:Int) body m = .ok ((), m') ∧ P m' := by
  have key : ∀ k i m, i + k ≤ n → P m →
      forLoop (fun i (_ : Unit) => body i) k (i:Int) () m = .error e ∨
      ∃ m', forLoop (fun i (_ : Unit) => body i) k (i:Int) () m = .ok ((), m') ∧ P m' := by
    intro k
    induction k with
    | zero => intro i m _ hm; exact Or.inr ⟨m, rfl, hm⟩
    | succ k ih =>
      intro i m hi hm
      unfold forLoop
      rcases h i (by omega) m hm with h1 | ⟨m', h1, h2⟩
      · left; exact bind_err h1
      · rw [bind_ok h1]
        exact ih (i+1) m' (by omega) h2
  have := key n 0 m (by omega) hm
  unfold forI forA
  rw [show ((n:Int) - 0).toNat = n by omega]
  exact this

/-- … and fails if one of its iterations always fails -/
theorem forI_fails {n k : Nat} {body : Int → M Unit} {e : Err} (P : Mem → Prop)
    (h : ∀ i, i < n → ∀ m, P m → body (i:Int) m = .error e ∨ ∃ m', body (i:Int) m = .ok ((), m') ∧ P m')
    (hk : k < n) (he : ∀ m, P m → body (k:Int) m = .error e)
    {m : Mem} (hm : P m) : forI 0 (n:Int) body m = .error e := by
  have key : ∀ r i m, i + r ≤ n → i ≤ k → k < i + r → P m →
      forLoop (fun i (_ : Unit) => body i) r (i:Int) () m = .error e := by
    intro r
    induction r with
    | zero => intro i m _ h1 h2 _; omega
    | succ r ih =>
      intro i m hi h1 h2 hm
      unfold forLoop
      by_cases hik : i = k
      · subst hik; exact bind_err (he m hm)
      · rcases h i (by omega) m hm with h3 | ⟨m', h3, h4⟩
        · exact bind_err h3
        · rw [bind_ok h3]
          exact ih (i+1) m' (by omega) (by omega) (by omega) h4
  have := key n 0 m (by omega) (by omega) (by omega) hm
  unfold forI forA
  rw [show ((n:Int) - 0).toNat = n by omega]
  exact this

end HyperCV
