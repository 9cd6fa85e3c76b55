import Verif.Base.Lemmas
import Verif.Model.HyperMat
import Verif.Spec.Cube

namespace HyperCV
open Spec

theorem bytes_iff {m : Mem} {h n : Nat} {f : Nat → UInt8} : Bytes m h n f ↔ Holds m h n f := by
  constructor
  · rintro ⟨l, h1, h2, h3⟩
    unfold Holds
    rw [h1]
    congr 1
    apply List.ext_getElem?
    intro i
    by_cases hi : i < n
    · rw [tab_get? _ hi, h3 i hi]
    · rw [tab_get?_none _ (by omega)]
      simp; omega
  · intro h1
    refine ⟨tab n f, h1, by simp, fun i hi => tab_get? f hi⟩

theorem get_elemsize_eq {dt : Int} {E : Nat} (h : elemBytes dt = some E) :
    get_elemsize dt = E ∧ 0 < E ∧ E ≤ 8 := by
  unfold elemBytes at h
  split at h <;> simp_all [get_elemsize] <;> omega

theorem get_elemsize_none {dt : Int} (h : elemBytes dt = none) : get_elemsize dt = -1 := by
  unfold elemBytes at h
  split at h <;> simp_all [get_elemsize]

theorem toInt32_nat {n : Nat} (h : n ≤ 2147483647) : toInt32 (n : Int) = n := by
  unfold toInt32; omega

/-- `cmpLoop` on the shorter length decides the prefix relation -/
theorem cmpLoop_iff (a b : List Char) (n : Nat) (ha : n ≤ a.length) (hb : n ≤ b.length) :
    cmpLoop a b n = true ↔ a.take n = b.take n := by
  induction n generalizing a b with
  | zero => simp [cmpLoop]
  | succ n ih =>
    cases a with
    | nil => simp at ha
    | cons x a =>
      cases b with
      | nil => simp at hb
      | cons y b =>
        simp only [List.length_cons, Nat.add_le_add_iff_right] at ha hb
        unfold cmpLoop
        by_cases hxy : x = y
        · subst hxy
          simp [ih a b ha hb]
        · simp [hxy]

theorem cmpstr_cases (a b : List Char) : cmpstr a b = 1 ∨ cmpstr a b = 0 := by
  unfold cmpstr
  dsimp only
  generalize (if (cstr a).length ≤ (cstr b).length then (cstr a).length else (cstr b).length) = n
  by_cases h1 : (cstr a).length = (cstr b).length ∧ n = 0
  · left; rw [if_pos h1]
  · rw [if_neg h1]
    cases cmpLoop (cstr a) (cstr b) n
    · right; rfl
    · left; rfl

/-- `cmpstr` returns 1 exactly when one C string is a prefix of the other -/
theorem cmpstr_iff (a b : List Char) :
    cmpstr a b = 1 ↔ (cstr a <+: cstr b ∨ cstr b <+: cstr a) := by
  have key : ∀ s1 s2 : List Char, s1.length ≤ s2.length →
      (s1.take s1.length = s2.take s1.length ↔ s1 <+: s2) := by
    intro s1 s2 hl
    rw [List.take_length, List.prefix_iff_eq_take]
  unfold cmpstr
  simp only
  generalize cstr a = s1
  generalize cstr b = s2
  by_cases h0 : s1.length = s2.length ∧ (if s1.length ≤ s2.length then s1.length else s2.length) = 0
  · rw [if_pos h0]
    simp only [true_iff]
    left
    obtain ⟨h1, h2⟩ := h0
    rw [if_pos (by omega)] at h2
    have : s1 = [] := List.length_eq_zero_iff.mp h2
    subst this
    exact List.nil_prefix
  · rw [if_neg h0]
    by_cases hl : s1.length ≤ s2.length
    · rw [if_pos hl]
      have e := cmpLoop_iff s1 s2 s1.length (le_refl _) hl
      rw [key s1 s2 hl] at e
      by_cases hp : s1 <+: s2
      · simp [e.2 hp, hp]
      · have : ¬ (cmpLoop s1 s2 s1.length = true) := fun h => hp (e.1 h)
        rw [if_neg this]
        simp only [hp, false_or]
        constructor
        · intro h; omega
        · intro h
          have h1 := h.length_le
          have : s2 = s1 := h.eq_of_length (by omega)
          subst this
          exact absurd List.prefix_rfl hp
    · rw [if_neg hl]
      have e := cmpLoop_iff s1 s2 s2.length (by omega) (le_refl _)
      have e' : (s1.take s2.length = s2.take s2.length ↔ s2 <+: s1) := by
        rw [← key s2 s1 (by omega)]; exact eq_comm
      rw [e'] at e
      by_cases hp : s2 <+: s1
      · simp [e.2 hp, hp]
      · have : ¬ (cmpLoop s1 s2 s2.length = true) := fun h => hp (e.1 h)
        rw [if_neg this]
        simp only [hp, or_false]
        constructor
        · intro h; omega
        · intro h
          have h1 := h.length_le
          omega

theorem cstr_append {a b : List Char} (h : ∀ c ∈ a, c ≠ '\x00') : cstr (a ++ b) = a ++ cstr b := by
  unfold cstr
  rw [List.takeWhile_append_of_pos]
  simpa using h

theorem tag_nonul (lay : Layout) : ∀ c ∈ lay.tag, c ≠ '\x00' := by
  cases lay <;> decide

theorem tag_length (lay : Layout) : lay.tag.length = 3 := by cases lay <;> rfl

/-- the tag comparison depends only on the tag -/
theorem cmpstr_tag (il pad : List Char) (lay : Layout) (h0 : ∀ c ∈ il, c ≠ '\x00') (h3 : il.length = 3) :
    cmpstr (il ++ pad) lay.tag = 1 ↔ il = lay.tag := by
  rw [cmpstr_iff, cstr_append h0]
  have e : cstr lay.tag = lay.tag := by
    have := cstr_append (a := lay.tag) (b := []) (tag_nonul lay)
    simpa [cstr] using this
  rw [e]
  have hl := tag_length lay
  constructor
  · rintro (h | h)
    · have h1 := h.length_le
      rw [List.length_append] at h1
      have h2 : il <+: lay.tag := (List.prefix_append _ _).trans h
      exact h2.eq_of_length (by omega)
    · have h2 : lay.tag <+: il := by
        exact List.prefix_of_prefix_length_le h (List.prefix_append _ _) (by omega)
      exact (h2.eq_of_length (by omega)).symm
  · rintro rfl
    right
    exact List.prefix_append _ _

theorem cmpstr_tag_tag (lay lay' : Layout) (pad : List Char) :
    cmpstr (lay.tag ++ pad) lay'.tag = 1 ↔ lay = lay' := by
  rw [cmpstr_tag _ _ _ (tag_nonul lay) (tag_length lay)]
  cases lay <;> cases lay' <;> decide

/-! ### Creation -/

/-- header produced by `create_hyper_mat` -/
def newHdr (m : Mem) (S L B : Nat) (dt : Int) (il : List Char) : HyperMat where
  samples := S
  lines := L
  bands := B
  data_type := dt
  interleave := (il ++ ['\x00']).take 3
  pad := m.pad (m.next + 2)
  data := m.next
  wavelength := some (m.next + 1)

/-- memory after creating a cube with data `f` and wavelengths `w` -/
def Mem.newCube (m : Mem) (S L B : Nat) (dt : Int) (N : Nat) (il : List Char) (f w : Nat → UInt8) : Mem :=
  ((m.grow N f).grow (4 * B) w).growH (newHdr m S L B dt il)

theorem size_eval {S L B E : Nat} (hL : 0 < L) (hB : 0 < B) (hE : 0 < E)
    (hN : S * L * B * E ≤ 2147483647) :
    (CI.lit (S:Int) * CI.lit (L:Int) * CI.lit (B:Int) * CI.lit (E:Int) : CI)
      = CI.lit ((S * L * B * E : Nat) : Int) := by
  have h : S * L * B * E < 2147483648 := by omega
  ci_down

/-- contents selected by an optional source -/
def srcOr (f : Nat → UInt8) : Option Nat → (Nat → UInt8)
  | none => fun _ => 0
  | some _ => f

/-- the optional source block, if given, holds at least the needed bytes -/
def SrcOK (m : Mem) (src : Option Nat) (n : Nat) (f : Nat → UInt8) : Prop :=
  ∀ s, src = some s → ∃ N, n ≤ N ∧ Holds m s N f

theorem create_with_data_ok {m : Mem} (hm : m.WF) {S L B E : Nat} {dt : Int} {il : List Char}
    {data wave : Option Nat} {f w : Nat → UInt8}
    (hS : 0 < S) (hL : 0 < L) (hB : 0 < B) (hE : elemBytes dt = some E)
    (hN : S * L * B * E ≤ 2147483647) (hW : 4 * B ≤ 2147483647) (hil : 2 ≤ il.length)
    (hdata : SrcOK m data (S * L * B * E) f) (hwave : SrcOK m wave (4 * B) w) :
    create_hyper_mat_with_data S L B dt il data wave m
      = .ok (some (m.next + 2), m.newCube S L B dt (S * L * B * E) il (srcOr f data) (srcOr w wave)) := by
  obtain ⟨e1, e2, e3⟩ := get_elemsize_eq hE
  unfold create_hyper_mat_with_data
  rw [e1]
  have p1 : decide ((S:Int) > 0) = true := by simpa using hS
  have p2 : decide ((L:Int) > 0) = true := by simpa using hL
  have p3 : decide ((B:Int) > 0) = true := by simpa using hB
  have e4 : toInt32 ((B:Int) * 4) = ((4 * B : Nat) : Int) := by
    have := toInt32_nat hW
    rw [← this, Nat.cast_mul, mul_comm]; rfl
  rw [p1, p2, p3]
  simp only [cassert_bind_true]
  rw [ev_bind (size_eval hL hB e2 hN)]
  simp only [e4]
  generalize hNN : S * L * B * E = N at *
  have p4 : decide ((0:Int) ≤ 40 + (N:Int) + 64 + ((4 * B : Nat) : Int) + 64) = true := by
    simp only [decide_eq_true_eq]; omega
  rw [p4]
  simp only [cassert_bind_true]
  rw [bind_ok (malloc_run _ _)]
  simp only [Int.toNat_natCast]
  have ms := memset_ok (off := 0) (k := N) (v := 0) (grow_holds m N (m.junk m.next)) (by omega)
  simp only [Int.natCast_zero] at ms
  rw [bind_ok ms, grow_put]
  set m1 := m.grow N (fun p => if 0 ≤ p ∧ p < 0 + N then 0 else m.junk m.next p) with hm1
  have hm1' : m1 = m.grow N (fun _ => 0) := by
    apply grow_congr; intro i hi; simp [hi]
  rw [hm1']
  rw [bind_ok (malloc_run _ _)]
  simp only [grow_next, grow_junk]
  set m2 := m.grow N (fun _ => 0) with hm2
  have hwf2 : m2.WF := grow_WF hm _ _
  have gh := grow_holds m2 (4 * B) (m.junk (m.next + 1))
  have ms := memset_ok (off := 0) (k := 4 * B) (v := 0) gh (by omega)
  simp only [Int.natCast_zero] at ms
  have en : m2.next = m.next + 1 := rfl
  rw [en] at ms gh
  rw [bind_ok ms]
  have e5 : (m2.grow (4 * B) (m.junk (m.next + 1))).put (m.next + 1) (4 * B)
      (fun p => if 0 ≤ p ∧ p < 0 + 4 * B then 0 else m.junk (m.next + 1) p)
      = m2.grow (4 * B) (fun _ => 0) := by
    rw [← en, grow_put]
    apply grow_congr; intro i hi; simp [hi]
  rw [e5]
  -- data copy
  have hd : memcpyIf m.next data (N : Int) (m2.grow (4 * B) (fun _ => 0))
      = .ok ((), (m.grow N (srcOr f data)).grow (4 * B) (fun _ => 0)) := by
    cases data with
    | none => rfl
    | some s =>
      obtain ⟨N', h1, h2⟩ := hdata s rfl
      have h3 : Holds (m2.grow (4 * B) (fun _ => 0)) s N' f := (h2.grow hm).grow hwf2
      have h4 : Holds (m2.grow (4 * B) (fun _ => 0)) m.next N (fun _ => 0) :=
        (grow_holds m N _).grow hwf2
      have hne : s ≠ m.next := by have := h2.lt_next hm; omega
      have := memcpy_ok (doff := 0) (soff := 0) (k := N) h3 h4 hne (by omega) (by omega)
      simp only [Int.natCast_zero] at this
      unfold memcpyIf
      simp only
      rw [this, ← put_grow_comm _ (by rw [hm2]; simp), hm2, grow_put]
      refine congrArg (fun x => Except.ok ((), Mem.grow x _ _)) ?_
      apply grow_congr
      intro i hi
      simp [hi, srcOr]
  rw [bind_ok hd]
  set m3 := m.grow N (srcOr f data) with hm3
  have hwf3 : m3.WF := grow_WF hm _ _
  have hw : memcpyIf (m.next + 1) wave ((4 * B : Nat) : Int) (m3.grow (4 * B) (fun _ => 0))
      = .ok ((), m3.grow (4 * B) (srcOr w wave)) := by
    cases wave with
    | none => rfl
    | some s =>
      obtain ⟨N', h1, h2⟩ := hwave s rfl
      have h3 : Holds (m3.grow (4 * B) (fun _ => 0)) s N' w := (h2.grow hm).grow hwf3
      have h4 : Holds (m3.grow (4 * B) (fun _ => 0)) (m.next + 1) (4 * B) (fun _ => 0) :=
        grow_holds m3 _ _
      have hne : s ≠ m.next + 1 := by have := h2.lt_next hm; omega
      have := memcpy_ok (doff := 0) (soff := 0) (k := 4 * B) h3 h4 hne (by omega) (by omega)
      simp only [Int.natCast_zero] at this
      unfold memcpyIf
      simp only
      rw [this]
      have en3 : m3.next = m.next + 1 := rfl
      rw [← en3, grow_put]
      refine congrArg (fun x => Except.ok ((), x)) ?_
      apply grow_congr
      intro i hi
      simp [hi, srcOr]
  rw [bind_ok hw]
  have hlen : ¬ (((il ++ ['\x00']).take 3).length < 3) := by
    simp; omega
  rw [if_neg hlen]
  rfl

theorem create_ok {m : Mem} (hm : m.WF) {S L B E : Nat} {dt : Int} {il : List Char}
    (hS : 0 < S) (hL : 0 < L) (hB : 0 < B) (hE : elemBytes dt = some E)
    (hN : S * L * B * E ≤ 2147483647) (hW : 4 * B ≤ 2147483647) (hil : 2 ≤ il.length) :
    create_hyper_mat S L B dt il m
      = .ok (some (m.next + 2), m.newCube S L B dt (S * L * B * E) il (fun _ => 0) (fun _ => 0)) :=
  create_with_data_ok (f := fun _ => 0) (w := fun _ => 0) hm hS hL hB hE hN hW hil
    (by intro s hs; cases hs) (by intro s hs; cases hs)

/-! facts about `newCube` -/

theorem newCube_hm (m : Mem) (S L B : Nat) (dt : Int) (N : Nat) (il : List Char) (f w : Nat → UInt8) :
    (m.newCube S L B dt N il f w).hm (m.next + 2) = some (newHdr m S L B dt il) := by
  unfold Mem.newCube
  exact growH_hm_self _ _

@[simp] theorem newCube_next (m : Mem) (S L B : Nat) (dt : Int) (N : Nat) (il : List Char)
    (f w : Nat → UInt8) : (m.newCube S L B dt N il f w).next = m.next + 3 := rfl

@[simp] theorem newCube_sm (m : Mem) (S L B : Nat) (dt : Int) (N : Nat) (il : List Char)
    (f w : Nat → UInt8) : (m.newCube S L B dt N il f w).sm = m.sm := rfl

theorem newCube_hm_old (m : Mem) {S L B : Nat} {dt : Int} {N : Nat} {il : List Char}
    {f w : Nat → UInt8} {q : Nat} (hq : q ≠ m.next + 2) :
    (m.newCube S L B dt N il f w).hm q = m.hm q := by
  unfold Mem.newCube
  rw [growH_hm_ne _ _ (by simpa using hq)]; rfl

theorem newCube_blk_old (m : Mem) {S L B : Nat} {dt : Int} {N : Nat} {il : List Char}
    {f w : Nat → UInt8} {q : Nat} (hq : q < m.next) :
    (m.newCube S L B dt N il f w).blk q = m.blk q := by
  unfold Mem.newCube
  rw [growH_blk, grow_blk_ne _ _ _ (by simp; omega), grow_blk_ne _ _ _ (by omega)]

theorem newCube_data (m : Mem) (S L B : Nat) (dt : Int) (N : Nat) (il : List Char)
    (f w : Nat → UInt8) : Holds (m.newCube S L B dt N il f w) m.next N f := by
  unfold Holds Mem.newCube
  rw [growH_blk, grow_blk_ne _ _ _ (by simp)]
  exact grow_holds m N f

theorem newCube_wave (m : Mem) (S L B : Nat) (dt : Int) (N : Nat) (il : List Char)
    (f w : Nat → UInt8) : Holds (m.newCube S L B dt N il f w) (m.next + 1) (4 * B) w := by
  unfold Holds Mem.newCube
  rw [growH_blk]
  exact grow_holds (m.grow N f) (4 * B) w

theorem newCube_WF {m : Mem} (hm : m.WF) {S L B : Nat} {dt : Int} {N : Nat} {il : List Char}
    {f w : Nat → UInt8} : (m.newCube S L B dt N il f w).WF := by
  intro h hh
  simp only [newCube_next] at hh
  refine ⟨?_, ?_, ?_⟩
  · unfold Mem.newCube
    rw [growH_blk, grow_blk_ne _ _ _ (by simp; omega), grow_blk_ne _ _ _ (by omega)]
    exact (hm h (by omega)).1
  · rw [newCube_hm_old _ (by omega)]; exact (hm h (by omega)).2.1
  · exact (hm h (by omega)).2.2

theorem newCube_holds_old {m : Mem} (hm : m.WF) {S L B : Nat} {dt : Int} {N : Nat} {il : List Char}
    {f w : Nat → UInt8} {q n : Nat} {g : Nat → UInt8} (h : Holds m q n g) :
    Holds (m.newCube S L B dt N il f w) q n g := by
  unfold Holds
  rw [newCube_blk_old _ (h.lt_next hm)]
  exact h

theorem newCube_put_data (m : Mem) {S L B : Nat} {dt : Int} {N : Nat} {il : List Char}
    {f w g : Nat → UInt8} :
    (m.newCube S L B dt N il f w).put m.next N g = m.newCube S L B dt N il g w := by
  unfold Mem.newCube
  apply Mem.ext' <;> try rfl
  funext h
  by_cases h1 : h = m.next
  · simp [h1, Mem.put, Mem.setBlk, Mem.grow]
  · simp [h1, Mem.put, Mem.setBlk, Mem.grow]

theorem newCube_put_wave (m : Mem) {S L B : Nat} {dt : Int} {N : Nat} {il : List Char}
    {f w g : Nat → UInt8} :
    (m.newCube S L B dt N il f w).put (m.next + 1) (4 * B) g = m.newCube S L B dt N il f g := by
  unfold Mem.newCube
  apply Mem.ext' <;> try rfl
  funext h
  by_cases h1 : h = m.next + 1
  · simp [h1, Mem.put, Mem.setBlk, Mem.grow]
  · simp [h1, Mem.put, Mem.setBlk, Mem.grow]

theorem newCube_congr (m : Mem) {S L B : Nat} {dt : Int} {N : Nat} {il : List Char}
    {f w f' w' : Nat → UInt8} (hf : ∀ i, i < N → f i = f' i) (hw : ∀ i, i < 4 * B → w i = w' i) :
    m.newCube S L B dt N il f w = m.newCube S L B dt N il f' w' := by
  unfold Mem.newCube
  rw [grow_congr m N hf, grow_congr _ (4 * B) hw]

theorem newCube_frame (m : Mem) {S L B : Nat} {dt : Int} {N : Nat} {il : List Char}
    {f w : Nat → UInt8} : Frame m (m.newCube S L B dt N il f w) := by
  intro h hh
  exact ⟨newCube_blk_old m hh, newCube_hm_old m (by omega), rfl⟩

end HyperCV
