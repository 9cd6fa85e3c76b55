/- Lines of a header that the reader passes over. -/
import Verif.Proof.Header

namespace HyperCV
open Spec

/-- the text before the first `=` of a line -/
def keyOf (l : Text) : Text := l.takeWhile (· ≠ '=')

theorem fgetsAux_append (s t : Text) : ∀ (room : Nat) (acc : Text),
    fgetsAux room acc (s ++ '\n' :: t) = fgetsAux room acc (s ++ ['\n']) ++ fgetsLines t := by
  induction s with
  | nil =>
    intro room acc
    simp [fgetsAux, fgetsLines]
  | cons c s ih =>
    intro room acc
    simp only [List.cons_append, fgetsAux]
    split
    · rw [ih]; rfl
    · rw [ih]

theorem fgets_append {t1 : Text} (h : t1 = [] ∨ ∃ s, t1 = s ++ ['\n']) (t : Text) :
    fgetsLines (t1 ++ t) = fgetsLines t1 ++ fgetsLines t := by
  rcases h with rfl | ⟨s, rfl⟩
  · simp [fgetsLines, fgetsAux]
  · have := fgetsAux_append s t 9999 []
    simpa [fgetsLines] using this

/-- every line of a text that ends with an end of line has an end of line, or is very long -/
theorem fgetsAux_full (s : Text) : ∀ (room : Nat) (acc : Text), acc.length + room = 9999 → 0 < room →
    ∀ l ∈ fgetsAux room acc (s ++ ['\n']), ('\n' ∈ l ∨ 9999 ≤ l.length) ∧ l <:+: acc.reverse ++ (s ++ ['\n']) := by
  induction s with
  | nil =>
    intro room acc _ _ l hl
    simp [fgetsAux] at hl
    subst hl
    exact ⟨Or.inl (by simp), by simp⟩
  | cons c s ih =>
    intro room acc h1 h2 l hl
    simp only [List.cons_append, fgetsAux] at hl
    split at hl
    · rename_i hc
      rw [List.mem_cons] at hl
      rcases hl with rfl | hl
      · refine ⟨?_, ?_⟩
        · rcases hc with hc | hc
          · left; simp [hc]
          · right; simp; omega
        · refine ⟨[], s ++ ['\n'], ?_⟩
          simp
      · obtain ⟨a1, a2⟩ := ih 9999 [] (by simp) (by norm_num) l hl
        refine ⟨a1, ?_⟩
        refine List.IsInfix.trans (show l <:+: s ++ ['\n'] by simpa using a2) ?_
        refine ⟨acc.reverse ++ [c], [], ?_⟩
        simp
    · rename_i hc
      rw [not_or] at hc
      have := ih (room - 1) (c :: acc) (by simp; omega) (by omega) l hl
      simpa using this

/-- the part of the work of `readhdr` that does not depend on the lines behind -/
def hdrFold (other : Text → Option FV) : List Text → Hdr → M Hdr
  | [], h => pure h
  | l :: ls, h => hdrStep other (cstr l) [] h >>= fun r => hdrFold other ls r.2

/-- a line that does not start the wavelengths is read in the same way whatever follows -/
theorem hdrStep_rest (other : Text → Option FV) {line : Text} (hw : cmpstr line "wavelength = {".toList ≠ 1) (rest : List Text) (h : Hdr) :
    hdrStep other line rest h = (hdrStep other line [] h >>= fun r => pure (rest, r.2)) := by
  funext m
  unfold hdrStep
  cases scanItem line h.item with
  | none => rfl
  | some item =>
    have e : ∀ (f : Text → M (List Text × Hdr)), (initialised (some item) >>= f) m = f item m := fun f => rfl
    show (_ : Except _ _) = ((initialised (some item) >>= _) >>= _) m
    rw [e]
    have e2 : ∀ (f : Text → M (List Text × Hdr)) (g : List Text × Hdr → M (List Text × Hdr)),
      ((initialised (some item) >>= f) >>= g) m = (f item >>= g) m := fun f g => rfl
    rw [e2]
    dsimp only
    have bp : ∀ {α : Type} (x : M α) (f : α → Hdr), (x >>= fun t => pure (rest, f t)) m
        = ((x >>= fun t => (pure (([] : List Text), f t) : M (List Text × Hdr))) >>= fun r => pure (rest, r.2)) m := by
      intro α x f
      cases hx : x m with
      | error e => rw [bind_err hx, bind_err (bind_err hx)]
      | ok y =>
        have e3 : (x >>= fun t => (pure (([] : List Text), f t) : M (List Text × Hdr))) m = .ok (([], f y.1), y.2) := by
          rw [bind_ok hx]; rfl
        rw [bind_ok hx, bind_ok e3]
    by_cases c1 : cmpstr item "samples".toList = 1
    · simp only [if_pos c1]; exact bp _ _
    simp only [if_neg c1]
    by_cases c2 : cmpstr item "lines".toList = 1
    · simp only [if_pos c2]; exact bp _ _
    simp only [if_neg c2]
    by_cases c3 : cmpstr item "bands".toList = 1
    · simp only [if_pos c3]; exact bp _ _
    simp only [if_neg c3]
    by_cases c4 : cmpstr item "data".toList = 1
    · simp only [if_pos c4]; exact bp _ _
    simp only [if_neg c4]
    by_cases c5 : cmpstr item "interleave".toList = 1
    · simp only [if_pos c5]; exact bp _ (fun h => h)
    simp only [if_neg c5]
    simp only [if_neg hw]
    rfl

theorem hdrLoop_append (other : Text → Option FV) (X : List Text) (n : Nat) : ∀ (A : List Text) (h : Hdr) (m : Mem),
    (∀ l ∈ A, cmpstr (cstr l) "wavelength = {".toList ≠ 1) →
    hdrLoop other (A.length + n) (A ++ X) h m = (hdrFold other A h >>= fun h => hdrLoop other n X h) m := by
  intro A
  induction A with
  | nil => intro h m _; simp [hdrFold]; rfl
  | cons l A ih =>
    intro h m hA
    have e : (l :: A).length + n = (A.length + n) + 1 := by simp; omega
    rw [e]
    show (hdrStep other (cstr l) (A ++ X) h >>= fun r => hdrLoop other (A.length + n) r.1 r.2) m
      = ((hdrStep other (cstr l) [] h >>= fun r => hdrFold other A r.2) >>= fun h => hdrLoop other n X h) m
    rw [hdrStep_rest other (hA l (by simp))]
    cases hs : hdrStep other (cstr l) [] h m with
    | error e =>
      rw [bind_err (bind_err hs), bind_err (bind_err hs)]
    | ok r =>
      obtain ⟨⟨r1, r2⟩, m1⟩ := r
      have e1 : (hdrStep other (cstr l) [] h >>= fun r => (pure (A ++ X, r.2) : M (List Text × Hdr))) m = .ok ((A ++ X, r2), m1) := by
        rw [bind_ok hs]; rfl
      rw [bind_ok e1]
      dsimp only
      rw [ih r2 m1 (fun l hl => hA l (by simp [hl]))]
      have e2 : (hdrStep other (cstr l) [] h >>= fun r => hdrFold other A r.2) m = hdrFold other A r2 m1 := by
        rw [bind_ok hs]
      cases hf : hdrFold other A r2 m1 with
      | error e => rw [bind_err hf, bind_err (e2.trans hf)]
      | ok y => rw [bind_ok hf, bind_ok (e2.trans hf)]

/-- the keyword left over from an earlier line matters only if the next line has none -/
theorem hdrStep_item (other : Text → Option FV) {line : Text} (hl : keyOf line ≠ []) (rest : List Text) (h : Hdr) (a : Option Text) :
    hdrStep other line rest { h with item := a } = hdrStep other line rest h := by
  have e : ∀ o, scanItem line o = some (keyOf line) := by
    intro o
    unfold scanItem
    unfold keyOf at hl ⊢
    cases hk : line.takeWhile (· ≠ '=') with
    | nil => exact absurd hk hl
    | cons => rfl
  unfold hdrStep
  rw [e, e]

theorem hdrLoop_item {β : Type} (other : Text → Option FV) (k : Hdr → M β) (hk : ∀ h a, k { h with item := a } = k h)
    (n : Nat) (Y : List Text) (hY : ∀ l, Y.head? = some l → keyOf (cstr l) ≠ []) (h : Hdr) (a : Option Text) :
    (hdrLoop other n Y { h with item := a } >>= k) = (hdrLoop other n Y h >>= k) := by
  cases Y with
  | nil =>
    funext m
    rw [bind_ok (show hdrLoop other n [] { h with item := a } m = _ from hdrLoop_nil _ _ _)]
    rw [bind_ok (show hdrLoop other n [] h m = _ from hdrLoop_nil _ _ _)]
    exact congrFun (hk h a) m
  | cons l Y =>
    cases n with
    | zero => rfl
    | succ n =>
      show ((hdrStep other (cstr l) Y { h with item := a } >>= fun r => hdrLoop other n r.1 r.2) >>= k) = _
      rw [hdrStep_item other (hY l rfl)]
      rfl

/-- a line that the reader passes over changes only the stored keyword -/
theorem hdrStep_skip (other : Text → Option FV) {line : Text} (hl : keyOf line ≠ [])
    (h1 : ∀ k ∈ ["samples".toList, "lines".toList, "bands".toList, "data".toList, "interleave".toList], cmpstr (keyOf line) k ≠ 1)
    (hw : cmpstr line "wavelength = {".toList ≠ 1) (rest : List Text) (h : Hdr) (m : Mem) :
    hdrStep other line rest h m = .ok ((rest, { h with item := some (keyOf line) }), m) := by
  have e : scanItem line h.item = some (keyOf line) := by
    unfold scanItem
    unfold keyOf at hl ⊢
    cases hk : line.takeWhile (· ≠ '=') with
    | nil => exact absurd hk hl
    | cons => rfl
  unfold hdrStep
  rw [e, bind_ok (show initialised (some (keyOf line)) m = _ from rfl)]
  dsimp only
  rw [if_neg (h1 _ (by simp)), if_neg (h1 _ (by simp)), if_neg (h1 _ (by simp)), if_neg (h1 _ (by simp)), if_neg (h1 _ (by simp)), if_neg hw]
  rfl

/-- the reader of a header does not see a line that it passes over -/
theorem readhdr_skip {β : Type} (other : Text → Option FV) (k : Hdr → M β) (hk : ∀ h a, k { h with item := a } = k h)
    {t1 l t2 : Text} (ht1 : t1 = [] ∨ ∃ s, t1 = s ++ ['\n']) (hA : ∀ l ∈ fgetsLines t1, cmpstr (cstr l) "wavelength = {".toList ≠ 1)
    (hnl : ∀ c ∈ l, c ≠ '\n') (hlen : l.length < 9999) (hl0 : ∀ c ∈ l, c ≠ '\x00') (hkey : keyOf (l ++ ['\n']) ≠ [])
    (h1 : ∀ k ∈ ["samples".toList, "lines".toList, "bands".toList, "data".toList, "interleave".toList],
      cmpstr (keyOf (l ++ ['\n'])) k ≠ 1)
    (hw : cmpstr (l ++ ['\n']) "wavelength = {".toList ≠ 1)
    (hY : ∀ l, (fgetsLines t2).head? = some l → keyOf (cstr l) ≠ []) (m : Mem) :
    (readhdr other (t1 ++ (l ++ '\n' :: t2)) >>= k) m = (readhdr other (t1 ++ t2) >>= k) m := by
  have hc : cstr (l ++ ['\n']) = l ++ ['\n'] := cstr_of (by
    intro c hc
    rw [List.mem_append, List.mem_singleton] at hc
    rcases hc with hc | rfl
    · exact hl0 c hc
    · decide)
  unfold readhdr
  rw [fgets_append ht1, fgets_append ht1, fgets_line hnl hlen]
  have e1 : ∀ h m, hdrLoop other ((fgetsLines t2).length + 1) ((l ++ ['\n']) :: fgetsLines t2) h m
      = hdrLoop other (fgetsLines t2).length (fgetsLines t2) { h with item := some (keyOf (l ++ ['\n'])) } m := by
    intro h m
    exact hdrLoop_cons _ _ _ _ hc (hdrStep_skip other hkey h1 hw _ _ _)
  have a1 : ∀ m, hdrLoop other (fgetsLines t1 ++ (l ++ ['\n']) :: fgetsLines t2).length (fgetsLines t1 ++ (l ++ ['\n']) :: fgetsLines t2) Hdr.init m
      = (hdrFold other (fgetsLines t1) Hdr.init >>= fun h => hdrLoop other ((fgetsLines t2).length + 1) ((l ++ ['\n']) :: fgetsLines t2) h) m := by
    intro m
    rw [List.length_append, List.length_cons]
    exact hdrLoop_append other _ _ _ _ _ hA
  have a2 : ∀ m, hdrLoop other (fgetsLines t1 ++ fgetsLines t2).length (fgetsLines t1 ++ fgetsLines t2) Hdr.init m
      = (hdrFold other (fgetsLines t1) Hdr.init >>= fun h => hdrLoop other (fgetsLines t2).length (fgetsLines t2) h) m := by
    intro m
    rw [List.length_append]
    exact hdrLoop_append other _ _ _ _ _ hA
  rw [funext a1, funext a2]
  cases hf : hdrFold other (fgetsLines t1) Hdr.init m with
  | error e => rw [bind_err (bind_err hf), bind_err (bind_err hf)]
  | ok y =>
    obtain ⟨h, m1⟩ := y
    have b : ∀ (g : Hdr → M Hdr), ((hdrFold other (fgetsLines t1) Hdr.init >>= g) >>= k) m = (g h >>= k) m1 := by
      intro g
      have : (hdrFold other (fgetsLines t1) Hdr.init >>= g) m = g h m1 := by rw [bind_ok hf]
      cases hg : g h m1 with
      | error e => rw [bind_err (this.trans hg), bind_err hg]
      | ok z => rw [bind_ok (this.trans hg), bind_ok hg]
    rw [b, b]
    have := congrFun (hdrLoop_item other k hk (fgetsLines t2).length (fgetsLines t2) hY h (some (keyOf (l ++ ['\n'])))) m1
    rw [← this]
    rw [funext (e1 h)]

end HyperCV
