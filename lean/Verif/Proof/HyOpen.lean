/- Lemmas on opening and saving the C++ cubes. -/
import Verif.Proof.HyHeader
import Verif.Spec.HyHeader
import Verif.Props.Header

namespace HyperCV
open Spec HyMat

theorem enviHeader_eq (S L B : Nat) (dt : Int) (lay : Layout) : enviHeader S L B dt lay = hdrHead S L B dt lay := rfl

theorem round_harmless (other : Text → FV) (wl : Option Nat) {l : Text} (hl : Harmless l) (rest : List Text) (h : HdrVars) (m : Mem) :
    hdrRound other wl l rest h m = .ok ((rest, h), m) := by
  obtain ⟨h1, h2, h3, h4, h5, h6, h7⟩ := hl
  have e : cstr l = l := cstr_of (fun c hc e => h2 (e ▸ hc))
  have n0 : ∀ c ∈ l.takeWhile (· ≠ '='), c ≠ '\x00' := fun c hc e => h2 (by rw [← e]; exact (List.takeWhile_sublist _).subset hc)
  have key : ∀ w ∈ numberWords, cmpstr (l.takeWhile (· ≠ '=')) w ≠ 1 := by
    intro w hw
    refine cmpstr_ne n0 ?_ (h5 w hw).1 (h5 w hw).2
    revert w; decide
  unfold hdrRound
  rw [e, if_neg h3, if_neg (by omega), if_neg (key _ (by decide)), if_neg (key _ (by decide)), if_neg (key _ (by decide)),
    if_neg (key _ (by decide)), if_neg (by unfold finds; rw [decide_eq_true_eq]; exact h6),
    if_neg (by unfold finds; rw [decide_eq_true_eq]; exact h7)]
  rfl

theorem harmless_getlines : ∀ {ls : List Text}, (∀ l ∈ ls, Harmless l) → ∀ t, getlines (textOf ls ++ t) = ls ++ getlines t := by
  intro ls
  induction ls with
  | nil => intro _ t; rfl
  | cons l ls ih =>
    intro h t
    have e : textOf (l :: ls) ++ t = l ++ '\n' :: (textOf ls ++ t) := by simp [textOf]
    rw [e, getlines_line (fun c hc e => (h l (by simp)).oneLine (e ▸ hc)), ih (fun l hl => h l (by simp [hl]))]
    rfl

theorem harmless_rounds (other : Text → FV) (wl : Option Nat) : ∀ {ls : List Text}, (∀ l ∈ ls, Harmless l) → ∀ (r : List Text) (h : HdrVars) (m : Mem),
    hdrRounds other wl (ls ++ r).length (ls ++ r) h m = hdrRounds other wl r.length r h m := by
  intro ls
  induction ls with
  | nil => intros; rfl
  | cons l ls ih =>
    intro hl r h m
    show hdrRounds other wl ((ls ++ r).length + 1) (l :: (ls ++ r)) h m = _
    rw [rounds_cons _ _ _ _ _ (round_harmless other wl (hl l (by simp)) _ _ _), ih (fun l h => hl l (by simp [h]))]

/-- the header up to some point is understood -/
theorem head_read (other : Text → FV) (wl : Option Nat) {S L B : Nat} {dt : Int} (lay : Layout) (hS : S ≤ 2147483647) (hL : L ≤ 2147483647)
    (hB : B ≤ 2147483647) (hdt : CI.InR dt) {ls : List Text} (hls : ∀ l ∈ ls, Harmless l) (t : Text) (h : HdrVars) (m : Mem) :
    readHdr other (some (enviHeader S L B dt lay ++ textOf ls ++ t)) h wl m
      = hdrRounds other wl (getlines t).length (getlines t) ⟨some (S : Int), some (L : Int), some (B : Int), some dt, lay.code⟩ m := by
  rw [enviHeader_eq, List.append_assoc, head_rounds _ _ _ _ (natInR hS) (natInR hL) (natInR hB) hdt, harmless_getlines hls, harmless_rounds other wl hls]

/-- clearing an object -/
theorem clear_run {m : Mem} (hm : m.WF) {o : HyMat} (ho : Usable m o) : ∃ o1 m2, clear o m = .ok (o1, m2) ∧ o1.data = none ∧
    o1.wavelength = none ∧ m2.next = m.next ∧ m2.WF ∧ (∀ h, (o.data = some h ∨ o.wavelength = some h) → m2.blk h = none) ∧
    (∀ h, o.data ≠ some h → o.wavelength ≠ some h → m2.blk h = m.blk h) ∧ m2.hm = m.hm ∧ m2.sm = m.sm := by
  rcases ho with ⟨lay, S, L, B, dt, E, v, w, ho⟩ | ⟨h1, h2⟩
  · obtain ⟨hE, hS, hL, hB, h5, h6, h7, h8, h9, h10, h11, h12, d, wb, f, x1, x2, x3, x4, x5, x6⟩ := ho
    rw [bytes_iff] at x4 x5
    have hE0 : 0 < E := (get_elemsize_eq hE).2.1
    have hN0 : 0 < S * L * B * E := by positivity
    have e : o.empty = false := by
      simp only [HyMat.empty, x1, h12, reduceCtorEq, decide_false, Bool.false_or, decide_eq_false_iff_not]; omega
    have f1 : freeIf (some d) m = .ok ((), m.setBlk d none) := by
      show free d m = _
      unfold free
      rw [show m.blk d = _ from x4]
    have hb2 : (m.setBlk d none).blk wb = some (tab (4 * B) w) := by
      simp only [Mem.setBlk, if_neg (show wb ≠ d from fun e => x3 e.symm)]
      exact x5
    have f2 : freeIf (some wb) (m.setBlk d none) = .ok ((), (m.setBlk d none).setBlk wb none) := by
      show free wb _ = _
      unfold free
      rw [hb2]
    have hd : d < m.next := by
      by_contra c
      have := (hm d (by omega)).1
      rw [show m.blk d = _ from x4] at this
      exact absurd this (by simp)
    have hw : wb < m.next := by
      by_contra c
      have := (hm wb (by omega)).1
      rw [show m.blk wb = _ from x5] at this
      exact absurd this (by simp)
    refine ⟨{ o with data := none, wavelength := none, samples := 0, lines := 0, bands := 0, dataType := 0 },
      (m.setBlk d none).setBlk wb none, ?_, rfl, rfl, rfl, ?_, ?_, ?_, rfl, rfl⟩
    · unfold clear
      rw [if_pos e]
      unfold release
      rw [x1, x2, bind_ok f1, bind_ok f2]; rfl
    · intro h hh
      have hh' : m.next ≤ h := hh
      refine ⟨?_, (hm h hh').2⟩
      show (if h = wb then none else if h = d then none else m.blk h) = none
      rw [if_neg (by omega), if_neg (by omega)]; exact (hm h hh').1
    · rw [x1, x2]
      rintro h (hh | hh)
      · cases hh
        show (if d = wb then none else if d = d then none else m.blk d) = none
        rw [if_neg x3, if_pos rfl]
      · cases hh
        show (if wb = wb then none else _) = none
        rw [if_pos rfl]
    · rw [x1, x2]
      intro h a b
      show (if h = wb then none else if h = d then none else m.blk h) = m.blk h
      rw [if_neg (fun e => b (by rw [e])), if_neg (fun e => a (by rw [e]))]
  · refine ⟨o, m, ?_, h1, h2, rfl, hm, ?_, fun _ _ _ => rfl, rfl, rfl⟩
    · unfold clear HyMat.empty
      rw [h1]; rfl
    · rw [h1, h2]; rintro h (hh | hh) <;> exact absurd hh (by simp)

/-- the memory of a new cube after the image file has been read -/
theorem readFile_run {m : Mem} {S L B E N : Nat} {dt : Int} {lay : Layout} {w : Nat → UInt8} (img : List UInt8) (hNe : S * L * B * E = N)
    (hlen : img.length ≤ N ∨ E = 1) :
    readFile (newHy m S L B dt E lay) img (hyMem m N B (fun _ => 0) w) = .ok ((), hyMem m N B (fun p => img.getD p 0) w) := by
  have hn : ∃ n : Nat, min (img.length : Int) ((E : Int) * ((S * L * B * E : Nat) : Int)) = (n : Int) ∧ n ≤ N ∧ (n < N → img.length ≤ n) := by
    refine ⟨min img.length (E * N), ?_, ?_, ?_⟩
    · rw [hNe]; push_cast; rfl
    · rcases hlen with h | h
      · exact le_trans (min_le_left _ _) h
      · rw [h, one_mul]; exact min_le_right _ _
    · intro h
      rcases hlen with h2 | h2
      · rcases Nat.eq_zero_or_pos E with h0 | h0
        · rw [h0] at hNe; simp at hNe; omega
        · have : N ≤ E * N := Nat.le_mul_of_pos_left _ h0
          omega
      · rw [h2, one_mul] at h ⊢
        omega
  obtain ⟨n, n1, n2, n3⟩ := hn
  unfold readFile newHy
  dsimp only
  rw [n1]
  have key := forI_run (n := n) (body := fun i => store m.next i (img.getD i.toNat 0))
    (fun i => hyMem m N B (fun p => if p < i then img.getD p 0 else 0) w) (by
      intro i hi
      rw [← hyMem_put_data (f := fun _ => 0), store_put (by omega), hyMem_put_data, Int.toNat_natCast]
      refine congrArg (fun x => Except.ok ((), x)) ?_
      congr 1
      funext p
      by_cases h : p = i
      · rw [if_pos h, if_pos (by omega), h]
      · rw [if_neg h]
        by_cases h2 : p < i
        · rw [if_pos h2, if_pos (by omega)]
        · rw [if_neg h2, if_neg (by omega)])
  have e0 : (fun p => if p < 0 then img.getD p 0 else (0 : UInt8)) = fun _ => 0 := by funext p; rw [if_neg (by omega)]
  rw [e0] at key
  rw [key]
  refine congrArg (fun x => Except.ok ((), x)) ?_
  rw [← hyMem_put_data (f := fun _ => 0), ← hyMem_put_data (m := m) (N := N) (B := B) (w := w) (f := fun _ => 0) (fun p => img.getD p 0)]
  apply put_congr
  intro p hp
  by_cases h : p < n
  · rw [if_pos h]
  · rw [if_neg h, List.getD_eq_getElem?_getD, List.getElem?_eq_none (by omega)]; rfl

/-- a longer image file is read past the end of the data -/
theorem readFile_long {m : Mem} {S L B E N : Nat} {dt : Int} {lay : Layout} {w : Nat → UInt8} (img : List UInt8) (hNe : S * L * B * E = N)
    (hN : 0 < N) (hm : m.WF) (hlen : N < img.length) (hE : 1 < E) :
    readFile (newHy m S L B dt E lay) img (hyMem m N B (fun _ => 0) w) = .error (.ub .oob) := by
  have hn : ∃ n : Nat, min (img.length : Int) ((E : Int) * ((S * L * B * E : Nat) : Int)) = (n : Int) ∧ N < n := by
    refine ⟨min img.length (E * N), by rw [hNe]; push_cast; rfl, ?_⟩
    rw [lt_min_iff]
    exact ⟨hlen, by nlinarith⟩
  obtain ⟨n, n1, n2⟩ := hn
  unfold readFile newHy
  dsimp only
  rw [n1]
  have key := forI_err (n := n) (b := N) (body := fun i => store m.next i (img.getD i.toNat 0))
    (fun i => hyMem m N B (fun p => if p < i then img.getD p 0 else 0) w) (e := .ub .oob) n2 (by
      intro i hi
      rw [← hyMem_put_data (f := fun _ => 0), store_put (by omega), hyMem_put_data, Int.toNat_natCast]
      refine congrArg (fun x => Except.ok ((), x)) ?_
      congr 1
      funext p
      by_cases h : p = i
      · rw [if_pos h, if_pos (by omega), h]
      · rw [if_neg h]
        by_cases h2 : p < i
        · rw [if_pos h2, if_pos (by omega)]
        · rw [if_neg h2, if_neg (by omega)]) (store_oob (hyMem_data hm) (le_refl _))
  have e0 : (fun p => if p < 0 then img.getD p 0 else (0 : UInt8)) = fun _ => 0 := by funext p; rw [if_neg (by omega)]
  rw [e0] at key
  exact key

/-- opening up to the reading of the image file -/
theorem openHdr_run (other : Text → FV) {m : Mem} (hm : m.WF) {o : HyMat} (ho : Usable m o) {S L B E : Nat} {dt : Int} (lay : Layout)
    (hS : 0 < S) (hL : 0 < L) (hB : 0 < B) (hE : elemBytes dt = some E) (hN : S * L * B * E ≤ 2147483647) {ls : List Text}
    (hls : ∀ l ∈ ls, Harmless l) : ∃ m2, m2.WF ∧ m2.next = m.next ∧ (∀ h, (o.data = some h ∨ o.wavelength = some h) → m2.blk h = none) ∧
      (∀ h, o.data ≠ some h → o.wavelength ≠ some h → m2.blk h = m.blk h) ∧ m2.hm = m.hm ∧ m2.sm = m.sm ∧
      ∀ image, openHdr other o image (some (enviHeader S L B dt lay ++ textOf ls)) m
        = (match image with
          | none => pure (newHy m2 S L B dt E lay)
          | some img => readFile (newHy m2 S L B dt E lay) img >>= fun _ => pure (newHy m2 S L B dt E lay))
          (hyMem m2 (S * L * B * E) B (fun _ => 0) (fun _ => 0)) := by
  obtain ⟨o1, m2, c1, c2, c3, c4, c5, c6, c7, c8, c9⟩ := clear_run hm ho
  have hE' := get_elemsize_eq hE
  have hSLB : S * L * B ≤ 2147483647 := le_trans (Nat.le_mul_of_pos_right _ hE'.2.1) hN
  have hSL : S * L ≤ 2147483647 := le_trans (Nat.le_mul_of_pos_right _ hB) hSLB
  have hSr : S ≤ 2147483647 := le_trans (Nat.le_mul_of_pos_right _ hL) hSL
  have hLr : L ≤ 2147483647 := le_trans (Nat.le_mul_of_pos_left _ hS) hSL
  have hBr : B ≤ 2147483647 := le_trans (Nat.le_mul_of_pos_left _ (by positivity)) hSLB
  refine ⟨m2, c5, c4, c6, c7, c8, c9, fun image => ?_⟩
  unfold openHdr
  have hr := head_read other o1.wavelength lay hSr hLr hBr (elem_InR hE) hls [] ⟨none, none, none, none, o1.format⟩ m2
  rw [List.append_nil] at hr
  have hr2 : readHdr other (some (enviHeader S L B dt lay ++ textOf ls)) ⟨none, none, none, none, o1.format⟩ o1.wavelength m2
      = .ok (⟨some (S : Int), some (L : Int), some (B : Int), some dt, lay.code⟩, m2) := by
    rw [hr]; rfl
  rw [bind_ok c1, bind_ok hr2]
  dsimp only
  have hi : ∀ (x : Int) (m : Mem), initialised (some x) m = .ok (x, m) := fun _ _ => rfl
  rw [bind_ok (hi _ _), bind_ok (hi _ _), bind_ok (hi _ _), bind_ok (hi _ _)]
  have hc := construct_run (raw := { o1 with samples := S, lines := L, bands := B, dataType := dt, format := lay.code })
    ⟨by show (0 : Int) < (B : Int); omega, by show (elemBytes dt).isSome = true; rw [hE]; rfl, c2⟩ lay m2 hS hL hB hE hN
  rw [bind_ok (show create _ _ _ _ _ _ none none m2 = _ from hc)]
  cases image <;> rfl

/-- an object whose header cannot be read -/
theorem openHdr_err (other : Text → FV) {m : Mem} (hm : m.WF) {o : HyMat} (ho : Usable m o) {hdr : Option Text} {e : Err}
    (h : ∀ (f : Int) (m : Mem), readHdr other hdr ⟨none, none, none, none, f⟩ none m = .error e) (image : Option (List UInt8)) :
    openHdr other o image hdr m = .error e := by
  obtain ⟨o1, m2, c1, c2, c3, c4⟩ := clear_run hm ho
  unfold openHdr
  rw [bind_ok c1, c3]
  exact bind_err (h _ _)

/-- the header of an object is the header of the C functions -/
theorem writeHdr_eq {o : HyMat} {lay : Layout} (hi : o.interleave = lay.tag) (m : Mem) :
    writeHdr o m = writehdr o.samples o.lines o.bands o.dataType lay.tag o.wavelength m := by
  have e1 : (lay.tag ++ ['\x00']).take 3 = lay.tag := by cases lay <;> rfl
  have e2 : cstr lay.tag = lay.tag := cstr_of (tag_nonul lay)
  have e3 : lay.tag.take 3 = lay.tag := by cases lay <;> rfl
  unfold writeHdr writehdr
  dsimp only
  rw [hi, e1, if_neg (by rw [tag_length]; omega), if_neg (by rw [tag_length]; omega), e2, e3]
  cases o.wavelength <;> rfl

/-- saving an object -/
theorem hySave_run {m : Mem} {o : HyMat} {S L B E : Nat} {dt : Int} {lay : Layout} {v : Nat → Nat → Nat → Nat → UInt8} {w : Nat → UInt8}
    (hc : IsHyMat m o lay S L B dt E v w) (hN : S * L * B * E ≤ 2147483647) (path : Text) :
    ∃ img, save o path m = .ok (some (img, hdrPath path, enviHeader S L B dt lay ++ ("wavelength = { \n".toList ++ waveTail (waveAt w) 0 (B - 1))), m) ∧
      img.length = S * L * B * E ∧
      ∀ i j k t, i < L → j < S → k < B → t < E → img.getD (lay.pos S L B i j k * E + t) 0 = v i j k t := by
  obtain ⟨hE, hS, hL, hB, h5, h6, h7, h8, h9, h10, h11, h12, d, wb, f, x1, x2, x3, x4, x5, x6⟩ := hc
  obtain ⟨e1, e2, e3⟩ := get_elemsize_eq hE
  have hSLB : S * L * B ≤ 2147483647 := le_trans (Nat.le_mul_of_pos_right _ e2) hN
  have hSL : S * L ≤ 2147483647 := le_trans (Nat.le_mul_of_pos_right _ hB) hSLB
  have hBr : B ≤ 2147483647 := le_trans (Nat.le_mul_of_pos_left _ (by positivity)) hSLB
  have eds : (CI.lit (S : Int) * CI.lit (L : Int) * CI.lit (B : Int) : CI) = CI.lit ((S * L * B : Nat) : Int) := by
    rw [CI.mul_ok, CI.mul_ok]
    · push_cast; rfl
    · have : ((S : Int) * L * B) = ((S * L * B : Nat) : Int) := by push_cast; rfl
      rw [this]; constructor <;> omega
    · have : ((S : Int) * L) = ((S * L : Nat) : Int) := by push_cast; rfl
      rw [this]; constructor <;> omega
  refine ⟨tab (S * L * B * E) f, ?_, by simp, ?_⟩
  · unfold save
    rw [h5, h6, h7, if_neg (by omega), ev_bind eds, h11, if_neg (by omega), x1,
      bind_ok (show usePtr (some d) m = .ok (d, m) from rfl)]
    have en : ((E : Int) * ((S * L * B : Nat) : Int)).toNat = S * L * B * E := by
      rw [← Nat.cast_mul, Int.toNat_natCast, Nat.mul_comm]
    have hlb := loadBytes_ok (bytes_iff.1 x4) (S * L * B * E) 0 (by omega)
    simp only [Nat.zero_add] at hlb
    rw [en, bind_ok (show loadBytes d (S * L * B * E) 0 m = _ from hlb)]
    have hw := writehdr_some (S : Int) (L : Int) dt lay hB hBr (bytes_iff.1 x5) (by omega)
    rw [bind_ok (show writeHdr o m = _ by rw [writeHdr_eq h10, h5, h6, h7, h8, x2]; exact hw)]
    rfl
  · intro i j k t hi hj hk ht
    rw [← x6 i j k t hi hj hk ht]
    have hb : lay.pos S L B i j k * E + t < S * L * B * E := by
      have := byte_lt lay (E := E) hi hj hk; omega
    rw [List.getD_eq_getElem?_getD, tab_get? _ hb]
    rfl

end HyperCV
