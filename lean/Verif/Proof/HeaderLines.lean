/- Lemmas about the lines of a header that follow the wavelengths. -/
import Verif.Props.Header
import Verif.Spec.HeaderLines

namespace HyperCV
open Spec

theorem plain_cstr {l : Text} (h : PlainLine l) : cstr (l ++ ['\n']) = l ++ ['\n'] := by
  refine cstr_of ?_
  intro c hc
  rw [List.mem_append, List.mem_singleton] at hc
  rcases hc with hc | rfl
  · exact fun e => h.2.1 (e ▸ hc)
  · decide

theorem plain_fgets : ∀ (ls : List Text), (∀ l ∈ ls, PlainLine l) → ∀ t, fgetsLines (textOf ls ++ t) = ls.map (· ++ ['\n']) ++ fgetsLines t := by
  intro ls
  induction ls with
  | nil => intro _ t; rfl
  | cons l ls ih =>
    intro h t
    have hl := h l (by simp)
    have e : textOf (l :: ls) ++ t = l ++ '\n' :: (textOf ls ++ t) := by
      simp [textOf]
    rw [e, fgets_line (fun c hc e => hl.1 (e ▸ hc)) hl.2.2, ih (fun a ha => h a (by simp [ha]))]
    rfl

theorem brace_nl {l : Text} : '}' ∈ l ++ ['\n'] ↔ '}' ∈ l := by
  rw [List.mem_append]
  constructor
  · rintro (h | h)
    · exact h
    · exact absurd h (by decide)
  · exact Or.inl

theorem collectWave_closed {line : Text} (h : '}' ∈ line) (X : List Text) : collectWave line X = ([], X) := by
  cases X with
  | nil => rfl
  | cons a X => simp [collectWave, h]

/-- the wavelengths end in the lines `A` -/
theorem collect_inside : ∀ (A : List Text), (∀ l ∈ A, PlainLine l) → A.foldl insideAfter true = false → ∀ line : Text, '}' ∉ line →
    ∃ w A', (∀ X, collectWave line (A.map (· ++ ['\n']) ++ X) = (w, A'.map (· ++ ['\n']) ++ X)) ∧ A'.length ≤ A.length ∧
      (∀ l ∈ A', PlainLine l) ∧ OutsideBraces A' := by
  intro A
  induction A with
  | nil => intro _ h; simp at h
  | cons a A ih =>
    intro hA h line hline
    have ha := hA a (by simp)
    have hA' : ∀ l ∈ A, PlainLine l := fun l hl => hA l (by simp [hl])
    have e : ∀ X, collectWave line ((a :: A).map (· ++ ['\n']) ++ X) =
        (((a ++ ['\n']).filter (· ≠ '\n')) ++ (collectWave (a ++ ['\n']) (A.map (· ++ ['\n']) ++ X)).1,
          (collectWave (a ++ ['\n']) (A.map (· ++ ['\n']) ++ X)).2) := by
      intro X
      rw [List.map_cons, List.cons_append]
      show (if '}' ∈ line then _ else _) = _
      rw [if_neg hline, plain_cstr ha]
    rw [List.foldl_cons] at h
    by_cases hb : '}' ∈ a
    · refine ⟨(a ++ ['\n']).filter (· ≠ '\n'), A, ?_, by simp, hA', ?_⟩
      · intro X
        rw [e, collectWave_closed (brace_nl.2 hb), List.append_nil]
      · have : insideAfter true a = false := by simp [insideAfter, hb]
        rwa [this] at h
    · have : insideAfter true a = true := by simp [insideAfter, hb]
      rw [this] at h
      obtain ⟨w, A', h1, h2, h3, h4⟩ := ih hA' h (a ++ ['\n']) (fun hh => hb (brace_nl.1 hh))
      refine ⟨(a ++ ['\n']).filter (· ≠ '\n') ++ w, A', fun X => ?_, Nat.le_succ_of_le h2, h3, h4⟩
      rw [e, h1]

/-- the bound of the number of rounds does not matter -/
theorem hdrLoop_fuel (other : Text → Option FV) : ∀ (n : Nat) (X : List Text) (h : Hdr) (m : Mem), X.length ≤ n →
    hdrLoop other n X h m = hdrLoop other X.length X h m := by
  have len : ∀ (line : Text) (rest : List Text), (collectWave line rest).2.length ≤ rest.length := by
    intro line rest
    induction rest generalizing line with
    | nil => simp [collectWave]
    | cons a rest ih =>
      unfold collectWave
      split
      · simp
      · have := ih (cstr a)
        simp only [List.length_cons]; omega
  have stepLen : ∀ (line : Text) (rest : List Text) (h : Hdr) (m : Mem) (r : List Text × Hdr) (m' : Mem),
      hdrStep other line rest h m = .ok (r, m') → r.1.length ≤ rest.length := by
    intro line rest h m r m' hs
    by_cases hw : cmpstr line "wavelength = {".toList = 1
    · unfold hdrStep at hs
      cases hi : scanItem line h.item with
      | none =>
        rw [hi] at hs; exact absurd hs (by intro h; cases h)
      | some item =>
        rw [hi, bind_ok (show initialised (some item) m = _ from rfl)] at hs
        dsimp only at hs
        have bp : ∀ {α : Type} (x : M α) (f : α → Hdr) (R : List Text), (x >>= fun t => pure (R, f t)) m = .ok (r, m') → r.1 = R := by
          intro α x f R hx
          cases hy : x m with
          | error e => rw [bind_err hy] at hx; cases hx
          | ok y => rw [bind_ok hy] at hx; cases hx; rfl
        split at hs
        · exact (bp _ _ _ hs).symm ▸ le_refl _
        split at hs
        · exact (bp _ _ _ hs).symm ▸ le_refl _
        split at hs
        · exact (bp _ _ _ hs).symm ▸ le_refl _
        split at hs
        · exact (bp _ _ _ hs).symm ▸ le_refl _
        split at hs
        · exact (bp _ (fun h => h) _ hs).symm ▸ le_refl _
        exact (bp _ _ _ hs).symm ▸ len _ _
    · rw [hdrStep_rest other hw] at hs
      cases hy : hdrStep other line [] h m with
      | error e => rw [bind_err hy] at hs; cases hs
      | ok y => rw [bind_ok hy] at hs; cases hs; exact le_refl _
  intro n
  induction n with
  | zero =>
    intro X h m hX
    have : X = [] := List.length_eq_zero_iff.1 (by omega)
    subst this; rfl
  | succ n ih =>
    intro X h m hX
    cases X with
    | nil => rfl
    | cons l X =>
      have hX' : X.length ≤ n := by simpa using hX
      show (hdrStep other (cstr l) X h >>= fun r => hdrLoop other n r.1 r.2) m = (hdrStep other (cstr l) X h >>= fun r => hdrLoop other X.length r.1 r.2) m
      cases hs : hdrStep other (cstr l) X h m with
      | error e => rw [bind_err hs, bind_err hs]
      | ok y =>
        obtain ⟨r, m1⟩ := y
        have hl := stepLen _ _ _ _ _ _ hs
        rw [bind_ok hs, bind_ok hs, ih r.1 r.2 m1 (by omega)]
        rcases Nat.lt_or_ge n X.length with hlt | hge
        · omega
        · have key : ∀ k, r.1.length ≤ k → k ≤ n → hdrLoop other k r.1 r.2 m1 = hdrLoop other r.1.length r.1 r.2 m1 := by
            intro k h1 h2
            have mono : ∀ (k : Nat) (Y : List Text) (h : Hdr) (m : Mem), Y.length ≤ k → hdrLoop other (k + 1) Y h m = hdrLoop other k Y h m := by
              intro k
              induction k with
              | zero =>
                intro Y h m hY
                have : Y = [] := List.length_eq_zero_iff.1 (by omega)
                subst this; rfl
              | succ k ihk =>
                intro Y h m hY
                cases Y with
                | nil => rfl
                | cons a Y =>
                  have hY' : Y.length ≤ k := by simpa using hY
                  show (hdrStep other (cstr a) Y h >>= fun r => hdrLoop other (k + 1) r.1 r.2) m = (hdrStep other (cstr a) Y h >>= fun r => hdrLoop other k r.1 r.2) m
                  cases hs : hdrStep other (cstr a) Y h m with
                  | error e => rw [bind_err hs, bind_err hs]
                  | ok y =>
                    obtain ⟨r, m1⟩ := y
                    have hl := stepLen _ _ _ _ _ _ hs
                    rw [bind_ok hs, bind_ok hs]
                    exact ihk r.1 r.2 m1 (by omega)
            induction k, h1 using Nat.le_induction with
            | base => rfl
            | succ k hk ihk => rw [mono k _ _ _ hk]; exact ihk (by omega)
          rw [key X.length hl hge]

/-- the lines `A`, which end outside of the braces, are read in the same way whatever follows -/
theorem outside_prefix (other : Text → Option FV) : ∀ (N : Nat) (A : List Text), A.length ≤ N → (∀ l ∈ A, PlainLine l) → OutsideBraces A →
    ∀ (h : Hdr) (m : Mem),
      (∃ e, ∀ X n, A.length + X.length ≤ n → hdrLoop other n (A.map (· ++ ['\n']) ++ X) h m = .error e) ∨
      (∃ h' m', ∀ X n, A.length + X.length ≤ n → hdrLoop other n (A.map (· ++ ['\n']) ++ X) h m = hdrLoop other X.length X h' m') := by
  intro N
  induction N with
  | zero =>
    intro A hN _ _ h m
    have : A = [] := List.length_eq_zero_iff.1 (by omega)
    subst this
    exact Or.inr ⟨h, m, fun X n hn => hdrLoop_fuel other n X h m (by simpa using hn)⟩
  | succ N ih =>
    intro A hN hA hO h m
    cases A with
    | nil => exact Or.inr ⟨h, m, fun X n hn => hdrLoop_fuel other n X h m (by simpa using hn)⟩
    | cons a A =>
      have ha := hA a (by simp)
      have hA' : ∀ l ∈ A, PlainLine l := fun l hl => hA l (by simp [hl])
      have hlen : A.length ≤ N := by simpa using hN
      unfold OutsideBraces at hO
      rw [List.foldl_cons] at hO
      -- the step for the first line
      have step : ∀ {R : List Text}, R.length ≤ A.length → (∀ l ∈ R, PlainLine l) → OutsideBraces R →
          ((∃ e, ∀ X, hdrStep other (a ++ ['\n']) (A.map (· ++ ['\n']) ++ X) h m = .error e) ∨
            (∃ h1 m1, ∀ X, hdrStep other (a ++ ['\n']) (A.map (· ++ ['\n']) ++ X) h m = .ok ((R.map (· ++ ['\n']) ++ X, h1), m1))) →
          (∃ e, ∀ X n, (a :: A).length + X.length ≤ n → hdrLoop other n ((a :: A).map (· ++ ['\n']) ++ X) h m = .error e) ∨
          (∃ h' m', ∀ X n, (a :: A).length + X.length ≤ n → hdrLoop other n ((a :: A).map (· ++ ['\n']) ++ X) h m = hdrLoop other X.length X h' m') := by
        intro R hR hRp hRo hs
        have unf : ∀ X n, (a :: A).length + X.length ≤ n → ∃ k, n = k + 1 ∧ A.length + X.length ≤ k ∧
            hdrLoop other n ((a :: A).map (· ++ ['\n']) ++ X) h m
              = (hdrStep other (a ++ ['\n']) (A.map (· ++ ['\n']) ++ X) h >>= fun r => hdrLoop other k r.1 r.2) m := by
          intro X n hn
          rw [List.length_cons] at hn
          obtain ⟨k, rfl⟩ : ∃ k, n = k + 1 := ⟨n - 1, by omega⟩
          refine ⟨k, rfl, by omega, ?_⟩
          rw [List.map_cons, List.cons_append]
          show (hdrStep other (cstr (a ++ ['\n'])) _ h >>= _) m = _
          rw [plain_cstr ha]
        rcases hs with ⟨e, he⟩ | ⟨h1, m1, hok⟩
        · refine Or.inl ⟨e, fun X n hn => ?_⟩
          obtain ⟨k, _, _, u⟩ := unf X n hn
          rw [u, bind_err (he X)]
        · rcases ih R (by omega) hRp hRo h1 m1 with ⟨e, he⟩ | ⟨h', m', hh⟩
          · refine Or.inl ⟨e, fun X n hn => ?_⟩
            obtain ⟨k, _, hk, u⟩ := unf X n hn
            rw [u, bind_ok (hok X)]
            exact he X k (by omega)
          · refine Or.inr ⟨h', m', fun X n hn => ?_⟩
            obtain ⟨k, _, hk, u⟩ := unf X n hn
            rw [u, bind_ok (hok X)]
            exact hh X k (by omega)
      by_cases hp : "wavelength = {".toList <+: a
      · -- the wavelengths start
        have hkey : ∃ r, a = "wavelength = {".toList ++ r := by obtain ⟨r, hr⟩ := hp; exact ⟨r, hr.symm⟩
        obtain ⟨r, rfl⟩ := hkey
        have hitem : ∀ o, scanItem (("wavelength = {".toList ++ r) ++ ['\n']) o = some "wavelength ".toList := by
          intro o; rfl
        have hcmp : cmpstr (("wavelength = {".toList ++ r) ++ ['\n']) "wavelength = {".toList = 1 := by
          rw [cmpstr_iff, plain_cstr ha]
          right
          rw [show cstr "wavelength = {".toList = "wavelength = {".toList by decide, List.append_assoc]
          exact List.prefix_append _ _
        have hstep : ∀ rest, hdrStep other (("wavelength = {".toList ++ r) ++ ['\n']) rest h m =
            (readWave other h.bandtemp (collectWave (("wavelength = {".toList ++ r) ++ ['\n']) rest).1 >>= fun wave =>
              pure ((collectWave (("wavelength = {".toList ++ r) ++ ['\n']) rest).2,
                { h with item := some "wavelength ".toList, wavelength := some wave })) m := by
          intro rest
          unfold hdrStep
          rw [hitem, bind_ok (show initialised (some "wavelength ".toList) m = _ from rfl)]
          dsimp only
          rw [if_neg (by decide), if_neg (by decide), if_neg (by decide), if_neg (by decide), if_neg (by decide), if_pos hcmp]
        have fin : ∀ (w : Text) (R : List Text), (∀ X, collectWave (("wavelength = {".toList ++ r) ++ ['\n']) (A.map (· ++ ['\n']) ++ X)
              = (w, R.map (· ++ ['\n']) ++ X)) →
            ((∃ e, ∀ X, hdrStep other (("wavelength = {".toList ++ r) ++ ['\n']) (A.map (· ++ ['\n']) ++ X) h m = .error e) ∨
            (∃ h1 m1, ∀ X, hdrStep other (("wavelength = {".toList ++ r) ++ ['\n']) (A.map (· ++ ['\n']) ++ X) h m
              = .ok ((R.map (· ++ ['\n']) ++ X, h1), m1))) := by
          intro w R hc
          cases hr : readWave other h.bandtemp w m with
          | error e =>
            left
            exact ⟨e, fun X => by rw [hstep, hc]; exact bind_err hr⟩
          | ok y =>
            right
            refine ⟨{ h with item := some "wavelength ".toList, wavelength := some y.1 }, y.2, fun X => ?_⟩
            rw [hstep, hc]
            exact bind_ok hr
        by_cases hb : '}' ∈ "wavelength = {".toList ++ r
        · have e : insideAfter false ("wavelength = {".toList ++ r) = false := by
            unfold insideAfter
            rw [if_neg (by decide), decide_eq_false_iff_not]
            exact fun h => h.2 hb
          rw [e] at hO
          exact step (le_refl _) hA' hO (fin [] A (fun X => collectWave_closed (brace_nl.2 hb) _))
        · have e : insideAfter false ("wavelength = {".toList ++ r) = true := by
            unfold insideAfter
            rw [if_neg (by decide), decide_eq_true_iff]
            exact ⟨hp, hb⟩
          rw [e] at hO
          obtain ⟨w, R, c1, c2, c3, c4⟩ := collect_inside A hA' hO (("wavelength = {".toList ++ r) ++ ['\n']) (fun hh => hb (brace_nl.1 hh))
          exact step c2 c3 c4 (fin w R c1)
      · have e : insideAfter false a = false := by
          unfold insideAfter
          rw [if_neg (by decide), decide_eq_false_iff_not]
          exact fun h => hp h.1
        rw [e] at hO
        have hcmp : cmpstr (a ++ ['\n']) "wavelength = {".toList ≠ 1 := by
          refine cmpstr_ne (fun c hc e => ?_) (by decide) (fun h => hp (prefix_nl (by decide) h)) ?_
          · rw [List.mem_append, List.mem_singleton] at hc
            rcases hc with hc | hc
            · exact ha.2.1 (e ▸ hc)
            · rw [hc] at e; exact absurd e (by decide)
          · intro h
            exact absurd (h.subset (show '\n' ∈ a ++ ['\n'] by simp)) (by decide)
        refine step (le_refl _) hA' hO ?_
        cases hs : hdrStep other (a ++ ['\n']) [] h m with
        | error e =>
          left
          exact ⟨e, fun X => by rw [hdrStep_rest other hcmp]; exact bind_err hs⟩
        | ok y =>
          right
          refine ⟨y.1.2, y.2, fun X => ?_⟩
          rw [hdrStep_rest other hcmp]
          exact bind_ok hs

end HyperCV
