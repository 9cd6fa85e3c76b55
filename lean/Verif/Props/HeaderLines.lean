/- C13, lines at every position of a header. -/
import Verif.Proof.HeaderLines

namespace HyperCV
open Spec

theorem first_char {c : Char} {t a : Text} (ha : (fgetsLines (c :: t)).head? = some a) : a.head? = some c := by
  have hd : ∀ (s acc : Text) (room : Nat) (x : Char), acc.getLast? = some x → ∀ a, (fgetsAux room acc s).head? = some a → a.head? = some x := by
    intro s
    induction s with
    | nil =>
      intro acc room x hx a ha
      simp only [fgetsAux] at ha
      split at ha
      · rename_i hn; subst hn; simp at hx
      · simp at ha; subst ha; simpa using hx
    | cons y s ih =>
      intro acc room x hx a ha
      have hx' : (y :: acc).getLast? = some x := by
        rw [List.getLast?_cons, hx]; rfl
      simp only [fgetsAux] at ha
      split at ha
      · simp only [List.head?_cons, Option.some.injEq] at ha
        subst ha
        rw [List.head?_reverse]; exact hx'
      · exact ih _ _ x hx' a ha
  unfold fgetsLines at ha
  simp only [fgetsAux] at ha
  split at ha
  · simp at ha; subst ha; rfl
  · exact hd t [c] _ c rfl a ha

/-- **C13, partial**, all positions: a line that is unrelated to the cube may be put into a header, or removed from it, behind any lines
that leave no brace of the wavelengths open, in particular behind the wavelengths: every call that reads the header has the same result
and the same effect.  `ls` are the lines before it and `t2` is what follows.  Missing: lines whose keyword begins with one of the five
words (see `C13_refuted`). -/
theorem C13_any_position_partial (other : Text → Option FV) (image : Option (List UInt8)) {ls : List (List Char)} {l t2 : List Char}
    (hls : ∀ a ∈ ls, PlainLine a) (hout : OutsideBraces ls) (hl : PlainLine l) (hu : Unrelated l)
    (ht2 : ∀ c, t2.head? = some c → c ≠ '=' ∧ c ≠ '\x00') (m : Mem) :
    hmread_with_hdr other image (some (textOf ls ++ (l ++ '\n' :: t2))) m = hmread_with_hdr other image (some (textOf ls ++ t2)) m := by
  have hlc : ∀ c ∈ l, c ≠ '\n' := fun c hc e => hl.1 (e ▸ hc)
  have hlz : ∀ c ∈ l, c ≠ '\x00' := fun c hc e => hl.2.1 (e ▸ hc)
  have hlz' : ∀ c ∈ l ++ ['\n'], c ≠ '\x00' := by
    intro c hc
    rw [List.mem_append, List.mem_singleton] at hc
    rcases hc with hc | rfl
    · exact hlz c hc
    · decide
  have hkw : ∀ k ∈ hdrWords, (∀ c ∈ k, c ≠ '\x00') ∧ ∀ c ∈ k, c ≠ '\n' := by decide
  have hne : l.takeWhile (· ≠ '=') ≠ [] := by
    intro e
    exact (hu.1 "samples".toList (by decide)).2 (by rw [e]; exact List.nil_prefix)
  have hkne : keyOf (l ++ ['\n']) ≠ [] := by
    rcases key_nl l with h | h <;> rw [h]
    · exact hne
    · simp
  have h1 : ∀ k ∈ hdrWords, cmpstr (keyOf (l ++ ['\n'])) k ≠ 1 := by
    intro k hk
    refine cmpstr_ne (fun c hc => hlz' c (takeWhile_sub c hc)) (hkw k hk).1 ?_ ?_
    · intro hp
      rcases key_nl l with h | h <;> rw [h] at hp
      · exact (hu.1 k hk).1 hp
      · exact (hu.1 k hk).1 (prefix_nl (hkw k hk).2 hp)
    · intro hp
      rcases key_nl l with h | h <;> rw [h] at hp
      · exact (hu.1 k hk).2 hp
      · exact absurd rfl ((hkw k hk).2 '\n' (hp.subset (by simp)))
  have hw : cmpstr (l ++ ['\n']) "wavelength = {".toList ≠ 1 := by
    refine cmpstr_ne hlz' (by decide) (fun hp => hu.2 (prefix_nl (by decide) hp)) ?_
    intro hp
    exact absurd (hp.subset (show '\n' ∈ l ++ ['\n'] by simp)) (by decide)
  have hY : ∀ a, (fgetsLines t2).head? = some a → keyOf (cstr a) ≠ [] := by
    intro a ha
    cases t2 with
    | nil => simp [fgetsLines, fgetsAux] at ha
    | cons c t =>
      obtain ⟨c1, c2⟩ := ht2 c rfl
      have := first_char ha
      cases a with
      | nil => simp at this
      | cons z r =>
        simp at this
        subst this
        unfold keyOf cstr
        simp [c1, c2]
  cases image with
  | none => rfl
  | some img =>
    unfold hmread_with_hdr
    rw [bind_ok (malloc_run _ _), bind_ok (malloc_run _ _)]
    dsimp only
    generalize hk : (fun h : Hdr => _ : Hdr → M (Option Nat)) = k
    have hki : ∀ h a, k { h with item := a } = k h := by subst hk; intro h a; rfl
    clear hk
    generalize m.grow 3 (m.junk m.next) = m0
    unfold readhdr
    rw [plain_fgets ls hls, plain_fgets ls hls, fgets_line hlc hl.2.2]
    rcases outside_prefix other ls.length ls (le_refl _) hls hout Hdr.init m0 with ⟨e, he⟩ | ⟨h', m', hh⟩
    · rw [bind_err (he _ _ (by simp)), bind_err (he _ _ (by simp))]
    · have a1 := hh ((l ++ ['\n']) :: fgetsLines t2) (ls.map (· ++ ['\n']) ++ (l ++ ['\n']) :: fgetsLines t2).length (by simp)
      have a2 := hh (fgetsLines t2) (ls.map (· ++ ['\n']) ++ fgetsLines t2).length (by simp)
      have e1 : hdrLoop other ((fgetsLines t2).length + 1) ((l ++ ['\n']) :: fgetsLines t2) h' m'
          = hdrLoop other (fgetsLines t2).length (fgetsLines t2) { h' with item := some (keyOf (l ++ ['\n'])) } m' :=
        hdrLoop_cons _ _ _ _ (plain_cstr hl) (hdrStep_skip other hkne h1 hw _ _ _)
      rw [List.length_cons, e1] at a1
      have e2 := congrFun (hdrLoop_item other k hki (fgetsLines t2).length (fgetsLines t2) hY h' (some (keyOf (l ++ ['\n'])))) m'
      have tr : ∀ {x y : M Hdr} {p q : Mem}, x p = y q → (x >>= k) p = (y >>= k) q := by
        intro x y p q hxy
        cases hy : y q with
        | error e => rw [bind_err hy, bind_err (hxy.trans hy)]
        | ok z => rw [bind_ok hy, bind_ok (hxy.trans hy)]
      exact (tr a1).trans (e2.trans (tr a2).symm)

/-- **C13** for the other keywords of the ENVI format at all these positions: whatever their values, such a line makes no difference. -/
theorem C13_standard_keywords_any_position_partial (other : Text → Option FV) (image : Option (List UInt8)) {ls : List (List Char)} {k val t2 : List Char}
    (hls : ∀ a ∈ ls, PlainLine a) (hout : OutsideBraces ls) (hk : k ∈ enviKeywords) (hnl : '\n' ∉ val) (hl0 : '\x00' ∉ val) (hlen : val.length < 9900)
    (ht2 : ∀ c, t2.head? = some c → c ≠ '=' ∧ c ≠ '\x00') (m : Mem) :
    hmread_with_hdr other image (some (textOf ls ++ (k ++ " = ".toList ++ val ++ '\n' :: t2))) m
      = hmread_with_hdr other image (some (textOf ls ++ t2)) m := by
  have hfacts : ∀ k ∈ enviKeywords, '\n' ∉ k ∧ '\x00' ∉ k ∧ '=' ∉ k ∧ k.length ≤ 24 ∧
      (∀ w ∈ hdrWords, ¬ w <+: k ++ [' '] ∧ ¬ k ++ [' '] <+: w) ∧ ¬ "wavelength = ".toList <+: k ++ " = ".toList ∧
      ¬ k ++ " = ".toList <+: "wavelength = {".toList := by
    decide +kernel
  obtain ⟨f1, f2, f3, f4, f5, f6, f7⟩ := hfacts k hk
  have e3 : " = ".toList = [' ', '=', ' '] := rfl
  refine C13_any_position_partial other image hls hout ⟨?_, ?_, ?_⟩ ⟨?_, ?_⟩ ht2 m
  · simp [e3, f1, hnl]
  · simp [e3, f2, hl0]
  · simp [e3]; omega
  · have e : (k ++ " = ".toList ++ val).takeWhile (· ≠ '=') = k ++ [' '] := by
      have : k ++ " = ".toList ++ val = (k ++ [' ']) ++ '=' :: ' ' :: val := by rw [e3]; simp
      rw [this, List.takeWhile_append_of_pos]
      · simp
      · intro c hc
        have : c ≠ '=' := by
          rintro rfl
          rw [List.mem_append] at hc
          rcases hc with hc | hc
          · exact f3 hc
          · exact absurd hc (by decide)
        simpa using this
    rw [e]
    exact f5
  · intro hp
    rcases le_total (k ++ " = ".toList).length "wavelength = {".toList.length with hle | hle
    · exact f7 (List.prefix_of_prefix_length_le (List.prefix_append _ _) hp hle)
    · have h2 := List.prefix_of_prefix_length_le hp (List.prefix_append (k ++ " = ".toList) val) hle
      exact f6 ((by decide : "wavelength = ".toList <+: "wavelength = {".toList).trans h2)

/-! ### Cases that meet the hypotheses -/

/-- the position behind the wavelengths of a header with two lines of wavelengths, and a position between the braces -/
example : OutsideBraces ["ENVI".toList, "bands = 3".toList, "wavelength = { ".toList, "500.5,".toList, "600,700}".toList] ∧
    ¬ OutsideBraces ["ENVI".toList, "bands = 3".toList, "wavelength = { ".toList, "500.5,".toList] ∧
    Unrelated "byte order = 0".toList ∧ PlainLine "byte order = 0".toList ∧ PlainLine "wavelength = { ".toList := by
  unfold OutsideBraces Unrelated PlainLine
  decide +kernel

end HyperCV
