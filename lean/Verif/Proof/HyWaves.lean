/- Lemmas for headers that list the wavelengths with a blank behind each comma. -/
import Verif.Proof.HyHeader
import Verif.Spec.HyWaves

namespace HyperCV
open Spec HyMat

/-- the words of the list -/
def spacedWords (f : Nat → FV) : Nat → Nat → List Text
  | i, 0 => [fmtF (f i)]
  | i, c + 1 => (fmtF (f i) ++ [',']) :: spacedWords f (i + 1) c

theorem spacedWords_length (f : Nat → FV) : ∀ (c i : Nat), (spacedWords f i c).length = c + 1 := by
  intro c
  induction c with
  | zero => intro i; rfl
  | succ c ih => intro i; simp [spacedWords, ih]

theorem spacedWords_get (f : Nat → FV) : ∀ (c i j : Nat), j ≤ c →
    ∃ r, (r = [] ∨ r = [',']) ∧ (spacedWords f i c)[j]? = some (fmtF (f (i + j)) ++ r) := by
  intro c
  induction c with
  | zero =>
    intro i j hj
    obtain rfl : j = 0 := by omega
    exact ⟨[], Or.inl rfl, by simp [spacedWords]⟩
  | succ c ih =>
    intro i j hj
    cases j with
    | zero => exact ⟨[','], Or.inr rfl, by simp [spacedWords]⟩
    | succ j =>
      obtain ⟨r, h1, h2⟩ := ih (i + 1) j (by omega)
      refine ⟨r, h1, ?_⟩
      rw [spacedWords, List.getElem?_cons_succ, h2, show i + 1 + j = i + (j + 1) by omega]

theorem spacedList_char (f : Nat → FV) : ∀ (c i : Nat), (∀ j, i ≤ j → j ≤ i + c → Short (f j)) →
    ∀ d ∈ spacedList f i c, d = ' ' ∨ d = ',' ∨ d = '-' ∨ d = '.' ∨ isDigitC d = true := by
  intro c
  induction c with
  | zero => intro i h d hd; exact Or.inr (Or.inr (fmtF_char (h i (le_refl _) (by omega)) d hd))
  | succ c ih =>
    intro i h d hd
    rw [spacedList, List.mem_append, List.mem_cons, List.mem_cons] at hd
    rcases hd with hd | rfl | rfl | hd
    · exact Or.inr (Or.inr (fmtF_char (h i (le_refl _) (by omega)) d hd))
    · exact Or.inr (Or.inl rfl)
    · exact Or.inl rfl
    · exact ih (i + 1) (fun j a b => h j (by omega) (by omega)) d hd

theorem wordsAux_chars (w : Text) (hw : ∀ c ∈ w, isSpaceC c = false) : ∀ (acc s : Text), wordsAux acc (w ++ s) = wordsAux (w.reverse ++ acc) s := by
  induction w with
  | nil => intro acc s; rfl
  | cons c w ih =>
    intro acc s
    show wordsAux acc (c :: (w ++ s)) = _
    rw [wordsAux, if_neg (by rw [hw c (by simp)]; simp), ih (fun d hd => hw d (by simp [hd]))]
    simp

theorem wave_char_word {v : FV} (h : Short v) : ∀ c ∈ fmtF v, isSpaceC c = false := by
  intro c hc
  rcases fmtF_char h c hc with rfl | rfl | e
  · decide
  · decide
  · exact digit_not_space e

theorem spacedList_words (f : Nat → FV) : ∀ (c i : Nat), (∀ j, i ≤ j → j ≤ i + c → Short (f j)) →
    wordsAux [] (spacedList f i c) = spacedWords f i c := by
  intro c
  induction c with
  | zero =>
    intro i h
    have hs := h i (le_refl _) (by omega)
    have := wordsAux_chars (fmtF (f i)) (wave_char_word hs) [] []
    rw [List.append_nil, List.append_nil] at this
    rw [spacedList, spacedWords, this, wordsAux, if_neg (by simp [fmtF_ne_nil hs]), List.reverse_reverse]
  | succ c ih =>
    intro i h
    have hs := h i (le_refl _) (by omega)
    have e := wordsAux_chars (fmtF (f i) ++ [',']) (by
      intro d hd
      rcases List.mem_append.1 hd with hd | hd
      · exact wave_char_word hs d hd
      · simp at hd; rw [hd]; decide) [] (' ' :: spacedList f (i + 1) c)
    rw [List.append_nil, List.append_assoc] at e
    rw [spacedList, spacedWords]
    refine e.trans ?_
    rw [wordsAux, if_pos (by decide), if_neg (by simp), List.reverse_reverse, ih (i + 1) (fun j a b => h j (by omega) (by omega))]

/-- a body without braces, up to the closing brace -/
theorem braced_plain {body : Text} (h1 : '{' ∉ body) (h2 : '}' ∉ body) : braced (body ++ ['}']) = body := by
  have h1' : '{' ∉ body ++ ['}'] := by
    rw [List.mem_append]
    rintro (h | h)
    · exact h1 h
    · exact absurd h (by decide)
  have h3 : (body ++ ['}']).idxOf '}' = body.length := by
    rw [List.idxOf_append_of_notMem h2]; simp
  unfold braced
  dsimp only
  rw [if_neg h1', if_pos (by simp), h3]
  simp

/-- the value that is stored for one word -/
theorem atof_word (other : Text → FV) {v : FV} (hs : Short v) {r : Text} (hr : r = [] ∨ r = [',']) :
    ∃ x, (∀ m, atofBuf (fun t => some (other t)) (cstr (fmtF v ++ r) ++ ['\x00']) m = .ok (x, m)) ∧ f32.conv x = readBack v := by
  have h0 : cstr (fmtF v ++ r) = fmtF v ++ r := by
    refine cstr_of ?_
    intro c hc e
    subst e
    rcases List.mem_append.1 hc with hc | hc
    · exact fmtF_ne hs (by decide) (by decide) (by decide) _ hc rfl
    · rcases hr with rfl | rfl
      · simp at hc
      · simp at hc
  rw [h0]
  cases v with
  | nan => exact absurd hs (by simp [Short])
  | inf => exact absurd hs (by simp [Short])
  | fin s q =>
    refine ⟨_, fun m => ?_, rfl⟩
    rcases hr with rfl | rfl
    · rw [List.append_nil]
      exact atof_fixed_tail _ s (rne (|q| * 1000000)).toNat [] (by decide) (by decide) (by decide) m
    · rw [List.append_assoc]
      exact atof_fixed_tail _ s (rne (|q| * 1000000)).toNat (',' :: ['\x00'] |>.drop 1) (by decide) (by decide) (by decide) m

/-- every entry of the array is set to its wavelength -/
theorem storeWaves_spaced (other : Text → FV) {f : Nat → FV} {p c : Nat} (hs : ∀ j, j ≤ c → Short (f j)) {m : Mem} {a : Nat → Nat} :
    storeWaves other (some p) ((c + 1 : Nat) : Int) (' ' :: spacedList f 0 c) (m.putN p 4 (c + 1) a)
      = .ok ((), m.putN p 4 (c + 1) fun j => f32.encode (readBack (f j)) % 256 ^ 4) := by
  have hw : wordsAux [] (' ' :: spacedList f 0 c) = spacedWords f 0 c := by
    rw [wordsAux, if_pos (by decide), if_pos rfl]
    exact spacedList_words f c 0 (fun j _ h => hs j (by omega))
  unfold storeWaves
  rw [hw]
  set W := spacedWords f 0 c with hW
  have hlen : W.length = c + 1 := spacedWords_length f c 0
  have key := forA_run (n := c + 1) (body := fun i (st : List Text × Text) => do
      let st := match st.1 with
        | [] => st
        | w :: ws => (ws, w)
      let v ← atofBuf (fun t => some (other t)) (cstr st.2 ++ ['\x00'])
      let q ← usePtr (some p)
      storeN 4 q i (f32.encode (f32.conv v))
      pure st)
    (fun i => m.putN p 4 (c + 1) fun j => if j < i then f32.encode (readBack (f j)) % 256 ^ 4 else a j)
    (fun i => (W.drop i, if i = 0 then [] else W.getD (i - 1) [])) (by
      intro i hi
      obtain ⟨r, r1, r2⟩ := spacedWords_get f c 0 i (by omega)
      rw [Nat.zero_add, ← hW] at r2
      have hil : i < W.length := by omega
      have hg : W[i] = fmtF (f i) ++ r := by
        rw [List.getElem?_eq_getElem hil] at r2
        exact Option.some.inj r2
      obtain ⟨x, x1, x2⟩ := atof_word other (hs i (by omega)) r1
      have hd : W.drop i = (fmtF (f i) ++ r) :: W.drop (i + 1) := by
        rw [List.drop_eq_getElem_cons hil, hg]
      have hgd : W.getD i [] = fmtF (f i) ++ r := by
        rw [List.getD_eq_getElem?_getD, r2]; rfl
      simp only [hd]
      rw [bind_ok (x1 _), bind_ok (show usePtr (some p) _ = .ok (p, _) from rfl), x2, bind_ok (storeN_put hi), if_neg (by omega), Nat.add_sub_cancel, hgd]
      refine congrArg (fun y => Except.ok ((W.drop (i + 1), fmtF (f i) ++ r), y)) (putN_congr _ ?_)
      intro j hj
      by_cases h : j = i
      · rw [if_pos h, if_pos (by omega), h]
      · rw [if_neg h]
        by_cases h2 : j < i
        · rw [if_pos h2, if_pos (by omega)]
        · rw [if_neg h2, if_neg (by omega)])
  have e0 : (m.putN p 4 (c + 1) fun j => if j < 0 then f32.encode (readBack (f j)) % 256 ^ 4 else a j) = m.putN p 4 (c + 1) a :=
    putN_congr _ (fun j _ => by rw [if_neg (by omega)])
  have e1 : (m.putN p 4 (c + 1) fun j => if j < c + 1 then f32.encode (readBack (f j)) % 256 ^ 4 else a j)
      = m.putN p 4 (c + 1) fun j => f32.encode (readBack (f j)) % 256 ^ 4 := putN_congr _ (fun j hj => by rw [if_pos hj])
  rw [e0, e1, if_pos rfl, List.drop_zero] at key
  exact bind_ok key

end HyperCV
