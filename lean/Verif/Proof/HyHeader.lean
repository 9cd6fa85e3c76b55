/- Lemmas on the header files of the C++ cubes. -/
import Verif.Model.HyHeader
import Verif.Proof.HyMat
import Verif.Proof.Header

namespace HyperCV
open Spec HyMat

/-! ### Texts -/

theorem mem_dropWhile_of {α : Type} {p : α → Bool} {c : α} {l : List α} (h : c ∈ l) (hp : p c = false) : c ∈ l.dropWhile p := by
  induction l with
  | nil => exact h
  | cons a l ih =>
    rw [List.dropWhile_cons]
    by_cases ha : p a = true
    · rw [if_pos ha]
      rcases List.mem_cons.1 h with e | e
      · rw [e, ha] at hp; exact absurd hp (by simp)
      · exact ih e
    · rw [if_neg ha]; exact h

theorem mem_splitSign {l : Text} (h : '\x00' ∈ l) : '\x00' ∈ (splitSign l).2 := by
  unfold splitSign
  split
  · simpa using h
  · simpa using h
  · exact h

theorem mem_fracRest {l : Text} (h : '\x00' ∈ l) : '\x00' ∈ fracRest l := by
  unfold fracRest
  split
  · exact mem_dropWhile_of (by simpa using h) (by decide)
  · exact h

theorem mem_takeWhile_ne {c d : Char} {l : Text} (h : c ∈ l.takeWhile (· ≠ d)) : c ≠ d := by
  induction l with
  | nil => simp at h
  | cons a l ih =>
    rw [List.takeWhile_cons] at h
    by_cases ha : a ≠ d
    · rw [if_pos (by simpa using ha)] at h
      rcases List.mem_cons.1 h with e | e
      · rw [e]; exact ha
      · exact ih e
    · rw [if_neg (by simpa using ha)] at h
      simp at h

/-- `atof` on a terminated text -/
theorem atof_total (other : Text → FV) {s : Text} (h : '\x00' ∈ s) (m : Mem) :
    ∃ v, atofBuf (fun t => some (other t)) s m = .ok (v, m) := by
  have hd : ∀ {l : Text}, '\x00' ∈ l → '\x00' ∈ l.dropWhile isDigitC := fun hl => mem_dropWhile_of hl (by decide)
  have h1 : '\x00' ∈ (splitSign (s.dropWhile isSpaceC)).2 := mem_splitSign (mem_dropWhile_of h (by decide))
  have h2 := mem_fracRest (hd h1)
  unfold atofBuf
  dsimp only
  split
  · exact ⟨_, rfl⟩
  · revert h2
    generalize fracRest ((splitSign (s.dropWhile isSpaceC)).2.dropWhile isDigitC) = r2
    intro h2
    have hne : ∀ {l : Text}, '\x00' ∈ l → l ≠ [] := fun hl e => by rw [e] at hl; simp at hl
    cases r2 with
    | nil => exact absurd h2 (by simp)
    | cons c r3 =>
      dsimp only
      by_cases hc : c = 'e' ∨ c = 'E'
      · have h3 : '\x00' ∈ r3 := by
          rcases List.mem_cons.1 h2 with e | e
          · rw [← e] at hc; exact absurd hc (by decide)
          · exact e
        rw [if_pos hc]
        split
        · rw [if_neg (hne (mem_splitSign h3))]; exact ⟨_, rfl⟩
        · rw [if_neg (hne (hd (mem_splitSign h3)))]; exact ⟨_, rfl⟩
      · rw [if_neg hc, if_neg (hne h2)]; exact ⟨_, rfl⟩

/-- `atof` of a number with six decimals and a text behind it that does not continue it -/
theorem atof_fixed_tail (other : Text → Option FV) (s : Bool) (k : Nat) {c : Char} (r : Text) (hc : isDigitC c = false) (he : c ≠ 'e')
    (hE : c ≠ 'E') (m : Mem) :
    atofBuf other ((if s = true then ['-'] else []) ++ decNat (k / 1000000) ++ '.' :: dec6 (k % 1000000) ++ c :: r) m
      = .ok (f64.round s ((if s = true then -1 else 1) * ((k : ℚ) / 1000000)), m) := by
  have hh : ∀ d, (decNat (k / 1000000) ++ ('.' :: (dec6 (k % 1000000) ++ c :: r))).head? = some d → isDigitC d = true := by
    intro d hd; rw [head_append (decNat_ne _)] at hd; exact decNat_head _ d hd
  have e0 : (if s = true then ['-'] else []) ++ decNat (k / 1000000) ++ '.' :: dec6 (k % 1000000) ++ c :: r
      = (if s = true then ['-'] else []) ++ (decNat (k / 1000000) ++ ('.' :: (dec6 (k % 1000000) ++ c :: r))) := by
    simp
  have hsp : ∀ d, (c :: r).head? = some d → isDigitC d = false := by
    intro d hd
    simp at hd
    rw [← hd]; exact hc
  have hdot : ∀ d, ('.' :: (dec6 (k % 1000000) ++ c :: r)).head? = some d → isDigitC d = false := by
    intro d hd
    simp at hd
    rw [← hd]; decide
  unfold atofBuf
  rw [e0, signed_no_space s hh (by simp [decNat_ne]), splitSign_digits s hh]
  dsimp only
  rw [takeWhile_digits (decNat_digit _) hdot, dropWhile_digits (decNat_digit _) hdot]
  have f1 : fracDigits ('.' :: (dec6 (k % 1000000) ++ c :: r)) = dec6 (k % 1000000) := takeWhile_digits (dec6_digit _) hsp
  have f2 : fracRest ('.' :: (dec6 (k % 1000000) ++ c :: r)) = c :: r := dropWhile_digits (dec6_digit _) hsp
  rw [f1, f2]
  rw [if_neg (by
    rintro (h | h)
    · exact decNat_ne _ h.1
    · simp at h)]
  dsimp only
  rw [if_neg (by rintro (h | h); exacts [he h, hE h]), if_neg (by simp), digitsVal_dec6 _ _ (Nat.mod_lt _ (by norm_num))]
  have : k / 1000000 * 1000000 + k % 1000000 = k := by omega
  rw [this]
  show Except.ok _ = _
  congr 3
  rw [zpow_zero, mul_one]
  norm_num [dec6]

/-! ### Lines -/

theorem getline_line {l t : Text} (hl : ∀ c ∈ l, c ≠ '\n') : ∀ acc, getlineAux acc (l ++ '\n' :: t) = (acc.reverse ++ l) :: getlines t := by
  induction l with
  | nil => intro acc; simp [getlineAux, getlines]
  | cons c l ih =>
    intro acc
    show getlineAux acc (c :: (l ++ '\n' :: t)) = _
    rw [getlineAux, if_neg (hl c (by simp)), ih (fun d hd => hl d (by simp [hd]))]
    simp

theorem getlines_line {l t : Text} (hl : ∀ c ∈ l, c ≠ '\n') : getlines (l ++ '\n' :: t) = l :: getlines t := getline_line hl []

theorem getline_last {l : Text} (hl : ∀ c ∈ l, c ≠ '\n') : ∀ acc, acc.reverse ++ l ≠ [] → getlineAux acc l = [acc.reverse ++ l] := by
  induction l with
  | nil => intro acc h; rw [getlineAux, if_neg (by simpa using h)]; simp
  | cons c l ih =>
    intro acc _
    rw [getlineAux, if_neg (hl c (by simp)), ih (fun d hd => hl d (by simp [hd])) _ (by simp)]
    simp

theorem getlines_last {l : Text} (hl : ∀ c ∈ l, c ≠ '\n') (h : l ≠ []) : getlines l = [l] := getline_last hl [] (by simpa using h)

/-- the first line of a text that does not start with an end of line -/
theorem getlines_first {l t : Text} (hl : ∀ c ∈ l, c ≠ '\n') (h : l ≠ []) :
    ∃ rest, getlines (l ++ t) = (l ++ t.takeWhile (· ≠ '\n')) :: rest := by
  have h1 : ∀ c ∈ l ++ t.takeWhile (· ≠ '\n'), c ≠ '\n' := by
    intro c hc
    rcases List.mem_append.1 hc with hc | hc
    · exact hl c hc
    · exact mem_takeWhile_ne hc
  cases hd : t.dropWhile (· ≠ '\n') with
  | nil =>
    have e : t.takeWhile (· ≠ '\n') = t := by
      have := List.takeWhile_append_dropWhile (p := fun c : Char => decide (c ≠ '\n')) (l := t)
      rw [hd, List.append_nil] at this
      exact this
    rw [e] at h1 ⊢
    exact ⟨[], getlines_last h1 (by simp [h])⟩
  | cons c r =>
    have hc : c = '\n' := by
      have := List.head?_dropWhile_not (fun c : Char => decide (c ≠ '\n')) t
      rw [hd] at this
      simpa using this
    subst hc
    refine ⟨getlines r, ?_⟩
    have e : l ++ t = (l ++ t.takeWhile (· ≠ '\n')) ++ '\n' :: r := by
      rw [← hd, List.append_assoc, List.takeWhile_append_dropWhile]
    rw [e, getlines_line h1]

/-- a line with a number, as `getline` delivers it -/
def numRow (k : Text) (x : Int) : Text := k ++ '=' :: ' ' :: decInt x

theorem numRow_line (k : Text) (x : Int) : numLine k x = numRow k x ++ ['\n'] := by simp [numLine, numRow]

theorem numRow_cstr {k : Text} {x : Int} (hk : ∀ c ∈ k, c ≠ '\x00') : cstr (numRow k x) = numRow k x := by
  apply cstr_of
  intro c hc
  unfold numRow at hc
  simp only [List.mem_append, List.mem_cons] at hc
  rcases hc with h | rfl | rfl | h
  · exact hk c h
  · decide
  · decide
  · exact decInt_ne_char x (by decide) (by decide) c h

theorem numRow_noNl {k : Text} {x : Int} (hk : ∀ c ∈ k, c ≠ '\n') : ∀ c ∈ numRow k x, c ≠ '\n' := by
  intro c hc
  unfold numRow at hc
  simp only [List.mem_append, List.mem_cons] at hc
  rcases hc with h | rfl | rfl | h
  · exact hk c h
  · decide
  · decide
  · exact decInt_ne_char x (by decide) (by decide) c h

/-- the line with the tag, as `getline` delivers it -/
def tagRow (lay : Layout) : Text := "interleave ".toList ++ '=' :: ' ' :: lay.tag

theorem head_getlines (S L B dt : Int) (lay : Layout) (t : Text) : getlines (hdrHead S L B dt lay ++ t)
      = "ENVI".toList :: numRow "samples ".toList S :: numRow "lines ".toList L :: numRow "bands ".toList B ::
        numRow "data type ".toList dt :: tagRow lay :: getlines t := by
  have e : hdrHead S L B dt lay ++ t = "ENVI".toList ++ '\n' :: (numRow "samples ".toList S ++ '\n' :: (numRow "lines ".toList L ++
      '\n' :: (numRow "bands ".toList B ++ '\n' :: (numRow "data type ".toList dt ++ '\n' :: (tagRow lay ++ '\n' :: t))))) := by
    have e1 : "ENVI\nsamples = ".toList = "ENVI".toList ++ '\n' :: ("samples ".toList ++ '=' :: ' ' :: []) := by decide
    have e2 : "\nlines = ".toList = '\n' :: ("lines ".toList ++ '=' :: ' ' :: []) := by decide
    have e3 : "\nbands = ".toList = '\n' :: ("bands ".toList ++ '=' :: ' ' :: []) := by decide
    have e4 : "\ndata type = ".toList = '\n' :: ("data type ".toList ++ '=' :: ' ' :: []) := by decide
    have e5 : "\ninterleave = ".toList = '\n' :: ("interleave ".toList ++ '=' :: ' ' :: []) := by decide
    have e6 : "\n".toList = ['\n'] := by decide
    unfold hdrHead numRow tagRow
    rw [e1, e2, e3, e4, e5, e6]
    simp only [List.append_assoc, List.cons_append, List.nil_append]
  rw [e, getlines_line (by decide), getlines_line (numRow_noNl (by decide)), getlines_line (numRow_noNl (by decide)),
    getlines_line (numRow_noNl (by decide)), getlines_line (numRow_noNl (by decide)), getlines_line (by cases lay <;> decide)]

/-! ### Rounds -/

section
variable (other : Text → FV) (wl : Option Nat) (rest : List Text) (h : HdrVars) (m : Mem)

theorem row_item {k r : Text} (hk : ∀ c ∈ k, c ≠ '=') (h0 : ∀ c ∈ k, c ≠ '\x00') : (cstr (k ++ '=' :: r)).takeWhile (· ≠ '=') = k := by
  have e : cstr (k ++ '=' :: r) = k ++ '=' :: cstr r := by
    unfold cstr
    rw [List.takeWhile_append_of_pos (by simpa using h0), List.takeWhile_cons, if_pos (by decide)]
  rw [e, List.takeWhile_append_of_pos (by simpa using hk)]
  simp

theorem scanVar_key {k : Text} {x : Int} {o : Option Int} (hne : k ≠ []) (hk : ∀ c ∈ k, c ≠ '=') (h0 : ∀ c ∈ k, c ≠ '\x00')
    (hx : CI.InR x) : scanVar (cstr (numRow k x)) o m = .ok (some x, m) := by
  rw [numRow_cstr h0]
  unfold scanVar numRow
  rw [afterEq_key hne hk]
  have e := scanD_decInt hx (r := []) (by simp) m
  rw [List.append_nil] at e
  show (scanD (' ' :: decInt x) >>= _) m = _
  rw [bind_ok e]
  rfl

theorem round_envi : hdrRound other wl "ENVI".toList rest h m = .ok ((rest, h), m) := by
  unfold hdrRound
  rw [if_neg (by decide), if_neg (by decide), if_neg (by decide), if_neg (by decide), if_neg (by decide), if_neg (by decide),
    if_neg (by decide), if_neg (by decide)]
  rfl

theorem round_samples {x : Int} (hx : CI.InR x) : hdrRound other wl (numRow "samples ".toList x) rest h m
    = .ok ((rest, { h with samples := some x }), m) := by
  unfold hdrRound
  rw [show (cstr (numRow "samples ".toList x)).takeWhile (· ≠ '=') = "samples ".toList from row_item (by decide) (by decide),
    if_neg (by decide), if_neg (by decide), if_pos (by decide), bind_ok (scanVar_key m (by decide) (by decide) (by decide) hx)]
  rfl

theorem round_lines {x : Int} (hx : CI.InR x) : hdrRound other wl (numRow "lines ".toList x) rest h m
    = .ok ((rest, { h with lines := some x }), m) := by
  unfold hdrRound
  rw [show (cstr (numRow "lines ".toList x)).takeWhile (· ≠ '=') = "lines ".toList from row_item (by decide) (by decide),
    if_neg (by decide), if_neg (by decide), if_neg (by decide), if_pos (by decide),
    bind_ok (scanVar_key m (by decide) (by decide) (by decide) hx)]
  rfl

theorem round_bands {x : Int} (hx : CI.InR x) : hdrRound other wl (numRow "bands ".toList x) rest h m
    = .ok ((rest, { h with bands := some x }), m) := by
  unfold hdrRound
  rw [show (cstr (numRow "bands ".toList x)).takeWhile (· ≠ '=') = "bands ".toList from row_item (by decide) (by decide),
    if_neg (by decide), if_neg (by decide), if_neg (by decide), if_neg (by decide), if_pos (by decide),
    bind_ok (scanVar_key m (by decide) (by decide) (by decide) hx)]
  rfl

theorem round_dtype {x : Int} (hx : CI.InR x) : hdrRound other wl (numRow "data type ".toList x) rest h m
    = .ok ((rest, { h with dataType := some x }), m) := by
  unfold hdrRound
  rw [show (cstr (numRow "data type ".toList x)).takeWhile (· ≠ '=') = "data type ".toList from row_item (by decide) (by decide),
    if_neg (by decide), if_neg (by decide), if_neg (by decide), if_neg (by decide), if_neg (by decide), if_pos (by decide),
    bind_ok (scanVar_key m (by decide) (by decide) (by decide) hx)]
  rfl

theorem round_tag (lay : Layout) : hdrRound other wl (tagRow lay) rest h m = .ok ((rest, { h with format := lay.code }), m) := by
  have hq : (if finds "q".toList (tagRow lay) = true then (0 : Int) else if finds "p".toList (tagRow lay) = true then 2 else 1) = lay.code := by
    cases lay <;> decide
  unfold hdrRound
  rw [show (cstr (tagRow lay)).takeWhile (· ≠ '=') = "interleave ".toList from row_item (by decide) (by decide),
    if_neg (by decide), if_neg (by decide), if_neg (by decide), if_neg (by decide), if_neg (by decide), if_neg (by decide),
    if_pos (by cases lay <;> decide), hq]
  rfl

theorem round_nowave : hdrRound other wl "wavelength = unknown ".toList rest h m = .ok ((rest, h), m) := by
  unfold hdrRound
  rw [if_neg (by decide), if_neg (by decide), if_neg (by decide), if_neg (by decide), if_neg (by decide), if_neg (by decide),
    if_neg (by decide), if_neg (by decide)]
  rfl

/-- a line that starts the wavelengths -/
theorem round_wave {t : Text} (hi : ¬ "interleave".toList <:+: "wavelength = {".toList ++ t) {b : Int} (hb : h.bands = some b) :
    hdrRound other wl ("wavelength = {".toList ++ t) rest h m
      = (storeWaves other wl b (collectBraced ("wavelength = {".toList ++ t) rest).1 >>= fun _ =>
          pure ((collectBraced ("wavelength = {".toList ++ t) rest).2, h)) m := by
  unfold hdrRound
  rw [show (cstr ("wavelength = {".toList ++ t)).takeWhile (· ≠ '=') = "wavelength ".toList from
      row_item (k := "wavelength ".toList) (r := " {".toList ++ t) (by decide) (by decide),
    if_neg (by decide), if_neg (by decide), if_neg (by decide), if_neg (by decide), if_neg (by decide), if_neg (by decide),
    if_neg (by unfold finds; rw [decide_eq_true_eq]; exact hi),
    if_pos (by unfold finds; rw [decide_eq_true_eq]; exact ⟨[], t, rfl⟩), hb]
  rfl

theorem round_long {k r : Text} (hk : ∀ c ∈ k, c ≠ '=') (h0 : ∀ c ∈ k, c ≠ '\x00') (hl : 20 ≤ k.length) :
    hdrRound other wl (k ++ '=' :: r) rest h m = .error (.ub .oob) := by
  unfold hdrRound
  rw [row_item hk h0, if_neg (by intro e; rw [e] at hl; simp at hl), if_pos hl]
  rfl

theorem round_blank : hdrRound other wl [] rest h m = .error (.ub .uninit) := rfl

theorem rounds_cons {n : Nat} {l : Text} {rest' : List Text} {h' : HdrVars} {m' : Mem}
    (hs : hdrRound other wl l rest h m = .ok ((rest', h'), m')) :
    hdrRounds other wl (n + 1) (l :: rest) h m = hdrRounds other wl n rest' h' m' := by
  show (hdrRound other wl l rest h >>= fun r => hdrRounds other wl n r.1 r.2) m = _
  rw [bind_ok hs]

theorem rounds_err {n : Nat} {l : Text} {e : Err} (hs : hdrRound other wl l rest h m = .error e) :
    hdrRounds other wl (n + 1) (l :: rest) h m = .error e := by
  show (hdrRound other wl l rest h >>= fun r => hdrRounds other wl n r.1 r.2) m = _
  rw [bind_err hs]

theorem rounds_nil {n : Nat} : hdrRounds other wl n [] h m = .ok (h, m) := by cases n <;> rfl

/-- the lines before the wavelengths are understood -/
theorem head_rounds {S L B dt : Int} {lay : Layout} {t : Text} (hS : CI.InR S) (hL : CI.InR L) (hB : CI.InR B) (hdt : CI.InR dt) :
    readHdr other (some (hdrHead S L B dt lay ++ t)) h wl m
      = hdrRounds other wl (getlines t).length (getlines t) ⟨some S, some L, some B, some dt, lay.code⟩ m := by
  show hdrRounds other wl _ _ h m = _
  rw [head_getlines]
  simp only [List.length_cons]
  rw [rounds_cons _ _ _ _ _ (round_envi _ _ _ _ _), rounds_cons _ _ _ _ _ (round_samples _ _ _ _ _ hS),
    rounds_cons _ _ _ _ _ (round_lines _ _ _ _ _ hL), rounds_cons _ _ _ _ _ (round_bands _ _ _ _ _ hB),
    rounds_cons _ _ _ _ _ (round_dtype _ _ _ _ _ hdt), rounds_cons _ _ _ _ _ (round_tag _ _ _ _ _ lay)]

end

/-! ### Wavelengths -/

theorem words_word {w : Text} (hw : ∀ c ∈ w, isSpaceC c = false) : ∀ acc, acc.reverse ++ w ≠ [] → wordsAux acc w = [acc.reverse ++ w] := by
  induction w with
  | nil => intro acc h; rw [wordsAux, if_neg (by simpa using h)]; simp
  | cons c w ih =>
    intro acc _
    rw [wordsAux, if_neg (by rw [hw c (by simp)]; decide), ih (fun d hd => hw d (by simp [hd])) _ (by simp)]
    simp

theorem storeWaves_null (other : Text → FV) {B : Nat} (hB : 0 < B) (text : Text) (m : Mem) :
    storeWaves other none (B : Int) text m = .error (.ub .nullDeref) := by
  unfold storeWaves
  apply bind_err
  obtain ⟨b, rfl⟩ : ∃ b, B = b + 1 := ⟨B - 1, by omega⟩
  unfold forA
  rw [show (((b + 1 : Nat) : Int) - 0).toNat = b + 1 by omega]
  apply bind_err
  obtain ⟨v, hv⟩ := atof_total other (s := cstr (match (wordsAux [] text, ([] : Text)).1 with
      | [] => (wordsAux [] text, ([] : Text))
      | w :: ws => (ws, w)).2 ++ ['\x00']) (by simp) m
  refine (bind_ok hv).trans ?_
  rfl

/-- the text of the wavelengths -/
theorem wave_body (f : Nat → FV) : ∀ (c i : Nat), (∀ j, i ≤ j → j ≤ i + c → Short (f j)) →
    ∃ body, waveTail f i c = body ++ ['}'] ∧ (∀ d ∈ body, d = ',' ∨ d = '-' ∨ d = '.' ∨ isDigitC d = true) ∧
      ∃ rest, body = fmtF (f i) ++ rest ∧ (rest = [] ∨ ∃ r, rest = ',' :: r) := by
  have key : ∀ {v : FV}, Short v → ∀ d ∈ fmtF v, d = ',' ∨ d = '-' ∨ d = '.' ∨ isDigitC d = true :=
    fun hv d hd => Or.inr (fmtF_char hv d hd)
  intro c
  induction c with
  | zero =>
    intro i h
    exact ⟨fmtF (f i), rfl, key (h i (le_refl _) (by omega)), [], by simp, Or.inl rfl⟩
  | succ c ih =>
    intro i h
    obtain ⟨b, h1, h2, _⟩ := ih (i + 1) (fun j a b => h j (by omega) (by omega))
    refine ⟨fmtF (f i) ++ ',' :: b, by simp [waveTail, h1], ?_, ',' :: b, rfl, Or.inr ⟨b, rfl⟩⟩
    intro d hd
    rw [List.mem_append, List.mem_cons] at hd
    rcases hd with hd | rfl | hd
    · exact key (h i (le_refl _) (by omega)) d hd
    · exact Or.inl rfl
    · exact h2 d hd

theorem body_ne {body : Text} (hb : ∀ d ∈ body, d = ',' ∨ d = '-' ∨ d = '.' ∨ isDigitC d = true) {x : Char} (h1 : x ≠ ',') (h2 : x ≠ '-')
    (h3 : x ≠ '.') (h4 : isDigitC x = false) : x ∉ body := by
  intro hx
  rcases hb x hx with e | e | e | e
  · exact h1 e
  · exact h2 e
  · exact h3 e
  · rw [h4] at e; exact absurd e (by simp)

theorem braced_body {body : Text} (hb : ∀ d ∈ body, d = ',' ∨ d = '-' ∨ d = '.' ∨ isDigitC d = true) : braced (body ++ ['}']) = body := by
  have h1 : '{' ∉ body ++ ['}'] := by
    rw [List.mem_append]
    rintro (h | h)
    · exact body_ne hb (by decide) (by decide) (by decide) (by decide) h
    · exact absurd h (by decide)
  have h2 : '}' ∉ body := body_ne hb (by decide) (by decide) (by decide) (by decide)
  have h3 : (body ++ ['}']).idxOf '}' = body.length := by
    rw [List.idxOf_append_of_notMem h2]; simp
  unfold braced
  dsimp only
  rw [if_neg h1, if_pos (by simp), h3]
  simp

theorem body_words {body : Text} (hb : ∀ d ∈ body, d = ',' ∨ d = '-' ∨ d = '.' ∨ isDigitC d = true) (hne : body ≠ []) :
    wordsAux [] (' ' :: body) = [body] := by
  rw [wordsAux, if_pos (by decide), if_pos rfl]
  have := words_word (w := body) (by
    intro c hc
    rcases hb c hc with rfl | rfl | rfl | e
    · decide
    · decide
    · decide
    · exact digit_not_space e) [] (by simpa using hne)
  simpa using this

theorem fmtF_ne_nil {v : FV} (h : Short v) : fmtF v ≠ [] := by
  cases v with
  | nan => exact absurd h (by simp [Short])
  | inf => exact absurd h (by simp [Short])
  | fin s q => unfold fmtF; simp

/-- every entry of the array is set to the first wavelength -/
theorem storeWaves_first (other : Text → FV) {f : Nat → FV} {body rest : Text} {p B : Nat} (hs : Short (f 0)) (hr : body = fmtF (f 0) ++ rest)
    (hc : rest = [] ∨ ∃ r, rest = ',' :: r) (hb : ∀ d ∈ body, d = ',' ∨ d = '-' ∨ d = '.' ∨ isDigitC d = true) {m : Mem} {a : Nat → Nat} :
    storeWaves other (some p) (B : Int) (' ' :: body) (m.putN p 4 B a)
      = .ok ((), m.putN p 4 B fun _ => f32.encode (readBack (f 0)) % 256 ^ 4) := by
  have hne : body ≠ [] := by rw [hr]; simp [fmtF_ne_nil hs]
  have h0 : cstr body = body := cstr_of (fun c hc e => body_ne hb (by decide) (by decide) (by decide) (by decide) (e ▸ hc))
  obtain ⟨x, hx, hx2⟩ : ∃ x, (∀ m, atofBuf (fun t => some (other t)) (cstr body ++ ['\x00']) m = .ok (x, m)) ∧ f32.conv x = readBack (f 0) := by
    cases hv : f 0 with
    | nan => rw [hv] at hs; exact absurd hs (by simp [Short])
    | inf => rw [hv] at hs; exact absurd hs (by simp [Short])
    | fin s q =>
      refine ⟨_, fun m => ?_, rfl⟩
      rw [h0, hr, hv]
      rcases hc with rfl | ⟨r, rfl⟩
      · rw [List.append_nil]
        exact atof_fixed_tail _ s (rne (|q| * 1000000)).toNat [] (by decide) (by decide) (by decide) m
      · rw [List.append_assoc]
        exact atof_fixed_tail _ s (rne (|q| * 1000000)).toNat (r ++ ['\x00']) (by decide) (by decide) (by decide) m
  unfold storeWaves
  rw [body_words hb hne]
  have key := forA_run (n := B) (body := fun i (st : List Text × Text) => do
      let st := match st.1 with
        | [] => st
        | w :: ws => (ws, w)
      let v ← atofBuf (fun t => some (other t)) (cstr st.2 ++ ['\x00'])
      let q ← usePtr (some p)
      storeN 4 q i (f32.encode (f32.conv v))
      pure st)
    (fun i => m.putN p 4 B fun j => if j < i then f32.encode (readBack (f 0)) % 256 ^ 4 else a j)
    (fun i => if i = 0 then ([body], []) else ([], body)) (by
      intro i hi
      have hst : (match (if i = 0 then ([body], ([] : Text)) else ([], body)).1 with
          | [] => (if i = 0 then ([body], ([] : Text)) else ([], body))
          | w :: ws => (ws, w)) = (([] : List Text), body) := by
        by_cases h : i = 0
        · rw [if_pos h]
        · rw [if_neg h]
      show (fun st : List Text × Text => (atofBuf (fun t => some (other t)) (cstr st.2 ++ ['\x00']) >>= fun v => usePtr (some p) >>= fun q =>
        storeN 4 q (i : Int) (f32.encode (f32.conv v)) >>= fun _ => (pure st : M (List Text × Text))) _) (match (if i = 0 then ([body], ([] : Text)) else ([], body)).1 with
          | [] => (if i = 0 then ([body], ([] : Text)) else ([], body))
          | w :: ws => (ws, w)) = _
      rw [hst]
      show (atofBuf _ (cstr body ++ ['\x00']) >>= _) _ = _
      rw [bind_ok (hx _), bind_ok (show usePtr (some p) _ = .ok (p, _) from rfl), hx2, bind_ok (storeN_put hi), if_neg (by omega)]
      refine congrArg (fun y => Except.ok (([], body), y)) (putN_congr _ ?_)
      intro j hj
      by_cases h : j = i
      · rw [if_pos h, if_pos (by omega)]
      · rw [if_neg h]
        by_cases h2 : j < i
        · rw [if_pos h2, if_pos (by omega)]
        · rw [if_neg h2, if_neg (by omega)])
  have e0 : (m.putN p 4 B fun j => if j < 0 then f32.encode (readBack (f 0)) % 256 ^ 4 else a j) = m.putN p 4 B a :=
    putN_congr _ (fun j _ => by rw [if_neg (by omega)])
  have e1 : (m.putN p 4 B fun j => if j < B then f32.encode (readBack (f 0)) % 256 ^ 4 else a j)
      = m.putN p 4 B fun _ => f32.encode (readBack (f 0)) % 256 ^ 4 := putN_congr _ (fun j hj => by rw [if_pos hj])
  rw [e0, e1, if_pos rfl] at key
  exact bind_ok key

end HyperCV
