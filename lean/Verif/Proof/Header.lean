import Verif.Proof.TextFloat
import Verif.Proof.Typed
import Verif.Props.Cube

namespace HyperCV
open Spec

theorem junkOf_run (h : Nat) (m : Mem) : junkOf h m = .ok (m.junk h, m) := rfl

/-! ### The lines of a written header -/

theorem short_line {l : Text} (h : l.length ≤ 60) : l.length < 9999 := by omega


theorem decInt_char (x : Int) : ∀ c ∈ decInt x, c = '-' ∨ isDigitC c = true := by
  intro c hc
  unfold decInt at hc
  split at hc
  · rw [List.mem_cons] at hc
    rcases hc with h | h
    · exact Or.inl h
    · exact Or.inr (decNat_digit _ c h)
  · exact Or.inr (decNat_digit _ c hc)

theorem decInt_ne_char (x : Int) {d : Char} (h1 : d ≠ '-') (h2 : isDigitC d = false) : ∀ c ∈ decInt x, c ≠ d := by
  intro c hc
  rcases decInt_char x c hc with h | h
  · rw [h]; exact fun e => h1 e.symm
  · exact digit_ne h h2

theorem decInt_length {x : Int} (hx : CI.InR x) : (decInt x).length ≤ 11 := by
  have h : x.natAbs < 10 ^ (9 + 1) := by
    obtain ⟨h1, h2⟩ := hx
    norm_num
    omega
  have := decNat_length 9 _ h
  unfold decInt
  split
  · rw [List.length_cons]; omega
  · omega

/-- a line `key = x` of a header -/
def numLine (k : Text) (x : Int) : Text := k ++ '=' :: ' ' :: (decInt x ++ ['\n'])

/-- the state of the parser behind the five lines for the dimensions, the data type and the tag -/
def hdrState (S L B dt : Int) (lay : Layout) : Hdr :=
  ⟨some S, some L, some B, some dt, S, L, B, dt, some "interleave ".toList,
    fun i => if i < 4 then (' ' :: lay.tag)[i]? else none, lay.tag, none⟩

theorem numLine_cstr {k : Text} {x : Int} (hk : ∀ c ∈ k, c ≠ '\x00') : cstr (numLine k x) = numLine k x := by
  apply cstr_of
  intro c hc
  unfold numLine at hc
  simp only [List.mem_append, List.mem_cons, List.not_mem_nil, or_false] at hc
  rcases hc with h | rfl | rfl | h | rfl
  · exact hk c h
  · decide
  · decide
  · exact decInt_ne_char x (by decide) (by decide) c h
  · decide

theorem nl_not_digit {r : Text} : ∀ c, ('\n' :: r).head? = some c → isDigitC c = false := by
  intro c hc; simp at hc; rw [← hc]; decide

section
variable (other : Text → Option FV) (rest : List Text) (h : Hdr) (m : Mem)

theorem step_envi : hdrStep other "ENVI\n".toList rest h m = .ok ((rest, { h with item := some "ENVI\n".toList }), m) := by
  unfold hdrStep
  have e : scanItem "ENVI\n".toList h.item = some "ENVI\n".toList := by
    unfold scanItem
    have : ("ENVI\n".toList).takeWhile (· ≠ '=') = "ENVI\n".toList := by decide
    rw [this]; rfl
  rw [e]
  show (initialised (some "ENVI\n".toList) >>= _) m = _
  rw [bind_ok (show initialised (some "ENVI\n".toList) m = .ok (_, m) from rfl)]
  dsimp only
  rw [if_neg (by decide), if_neg (by decide), if_neg (by decide), if_neg (by decide), if_neg (by decide), if_neg (by decide)]
  rfl

theorem item_run {k r : Text} (hne : k ≠ []) (hk : ∀ c ∈ k, c ≠ '=') :
    initialised (scanItem (k ++ '=' :: r) h.item) m = .ok (k, m) := by
  rw [scanItem_key hne hk]; rfl

theorem step_samples {x : Int} (hx : CI.InR x) : hdrStep other (numLine "samples ".toList x) rest h m
    = .ok ((rest, { h with item := some "samples ".toList, sampletemp := x, samples := some x }), m) := by
  unfold hdrStep numLine
  rw [bind_ok (item_run h m (by decide) (by decide))]
  dsimp only
  rw [if_pos (by decide), bind_ok (scanField_key (by decide) (by decide) hx nl_not_digit m)]
  rfl

theorem step_lines {x : Int} (hx : CI.InR x) : hdrStep other (numLine "lines ".toList x) rest h m
    = .ok ((rest, { h with item := some "lines ".toList, linetemp := x, lines := some x }), m) := by
  unfold hdrStep numLine
  rw [bind_ok (item_run h m (by decide) (by decide))]
  dsimp only
  rw [if_neg (by decide), if_pos (by decide), bind_ok (scanField_key (by decide) (by decide) hx nl_not_digit m)]
  rfl

theorem step_bands {x : Int} (hx : CI.InR x) : hdrStep other (numLine "bands ".toList x) rest h m
    = .ok ((rest, { h with item := some "bands ".toList, bandtemp := x, bands := some x }), m) := by
  unfold hdrStep numLine
  rw [bind_ok (item_run h m (by decide) (by decide))]
  dsimp only
  rw [if_neg (by decide), if_neg (by decide), if_pos (by decide),
    bind_ok (scanField_key (by decide) (by decide) hx nl_not_digit m)]
  rfl

theorem step_dtype {x : Int} (hx : CI.InR x) : hdrStep other (numLine "data type ".toList x) rest h m
    = .ok ((rest, { h with item := some "data type ".toList, datatypetemp := x, data_type := some x }), m) := by
  unfold hdrStep numLine
  rw [bind_ok (item_run h m (by decide) (by decide))]
  dsimp only
  rw [if_neg (by decide), if_neg (by decide), if_neg (by decide), if_pos (by decide),
    bind_ok (scanField_key (by decide) (by decide) hx nl_not_digit m)]
  rfl

/-- the line with the tag -/
def tagLine (lay : Layout) : Text := "interleave ".toList ++ '=' :: ' ' :: (lay.tag ++ ['\n'])

theorem scanTag_run (lay : Layout) (hi : h.interleave = []) (hit : h.it = fun _ => none) : scanTag (tagLine lay) h m
    = .ok ({ h with it := (fun i => if i < 4 then (' ' :: lay.tag)[i]? else none), interleave := lay.tag }, m) := by
  unfold scanTag tagLine
  rw [afterEq_key (by decide) (by decide)]
  dsimp only
  rw [hi, hit]
  have e : (fun i => if i < (' ' :: (lay.tag ++ ['\n'])).length ∧ i < 4 then (' ' :: (lay.tag ++ ['\n']))[i]? else none)
      = (fun i => if i < 4 then (' ' :: lay.tag)[i]? else (none : Option Char)) := by
    funext i
    by_cases h4 : i < 4
    · have : i < (' ' :: (lay.tag ++ ['\n'])).length := by simp [tag_length]; omega
      rw [if_pos ⟨this, h4⟩, if_pos h4, ← List.cons_append, List.getElem?_append_left (by simp [tag_length]; omega)]
    · rw [if_neg (fun h => h4 h.2), if_neg h4]
  rw [e]
  cases lay <;> rfl

/-- the array `it` behind the line with the tag -/
def tagIt (lay : Layout) : Nat → Option Char := fun i => if i < 4 then (' ' :: lay.tag)[i]? else none

theorem step_tag (lay : Layout) (hi : h.interleave = []) (hit : h.it = fun _ => none) : hdrStep other (tagLine lay) rest h m
    = .ok ((rest, { h with item := some "interleave ".toList, it := tagIt lay, interleave := lay.tag }), m) := by
  unfold hdrStep
  rw [bind_ok (show initialised (scanItem (tagLine lay) h.item) m = .ok ("interleave ".toList, m) from
    item_run h m (by decide) (by decide))]
  dsimp only
  rw [if_neg (by decide), if_neg (by decide), if_neg (by decide), if_neg (by decide), if_pos (by decide),
    bind_ok (scanTag_run { h with item := some "interleave ".toList } m lay hi hit)]
  rfl

theorem step_nowave : hdrStep other "wavelength = unknown \n".toList rest h m
    = .ok ((rest, { h with item := some "wavelength ".toList }), m) := by
  unfold hdrStep
  rw [bind_ok (show initialised (scanItem "wavelength = unknown \n".toList h.item) m = .ok ("wavelength ".toList, m) from
    item_run (k := "wavelength ".toList) (r := " unknown \n".toList) h m (by decide) (by decide))]
  dsimp only
  rw [if_neg (by decide), if_neg (by decide), if_neg (by decide), if_neg (by decide), if_neg (by decide), if_neg (by decide)]
  rfl

theorem step_wave : hdrStep other "wavelength = { \n".toList rest h m
    = (readWave other h.bandtemp (collectWave "wavelength = { \n".toList rest).1 >>= fun wave =>
        pure ((collectWave "wavelength = { \n".toList rest).2,
          { h with item := some "wavelength ".toList, wavelength := some wave })) m := by
  unfold hdrStep
  rw [bind_ok (show initialised (scanItem "wavelength = { \n".toList h.item) m = .ok ("wavelength ".toList, m) from
    item_run (k := "wavelength ".toList) (r := " { \n".toList) h m (by decide) (by decide))]
  dsimp only
  rw [if_neg (by decide), if_neg (by decide), if_neg (by decide), if_neg (by decide), if_neg (by decide), if_pos (by decide)]

theorem hdrLoop_cons {n : Nat} {l line : Text} (hl : cstr l = line) {rest' : List Text} {h' : Hdr} {m' : Mem}
    (hs : hdrStep other line rest h m = .ok ((rest', h'), m')) :
    hdrLoop other (n + 1) (l :: rest) h m = hdrLoop other n rest' h' m' := by
  show (hdrStep other (cstr l) rest h >>= fun r => hdrLoop other n r.1 r.2) m = _
  rw [hl, bind_ok hs]

theorem hdrLoop_err {n : Nat} {l line : Text} (hl : cstr l = line) {e : Err}
    (hs : hdrStep other line rest h m = .error e) :
    hdrLoop other (n + 1) (l :: rest) h m = .error e := by
  show (hdrStep other (cstr l) rest h >>= fun r => hdrLoop other n r.1 r.2) m = _
  rw [hl, bind_err hs]

theorem hdrLoop_nil {n : Nat} : hdrLoop other n [] h m = .ok (h, m) := by
  cases n <;> rfl

end

/-- the part of a header before the wavelengths -/
def hdrHead (S L B dt : Int) (lay : Layout) : Text :=
  "ENVI\nsamples = ".toList ++ decInt S ++ "\nlines = ".toList ++ decInt L ++ "\nbands = ".toList ++ decInt B
    ++ "\ndata type = ".toList ++ decInt dt ++ "\ninterleave = ".toList ++ lay.tag ++ "\n".toList

theorem line_fgets {k : Text} {x : Int} {t : Text} (hk : ∀ c ∈ k, c ≠ '\n') (hl : k.length < 20) (hx : CI.InR x) :
    fgetsLines (numLine k x ++ t) = numLine k x :: fgetsLines t := by
  have e : numLine k x ++ t = (k ++ '=' :: ' ' :: decInt x) ++ '\n' :: t := by simp [numLine]
  have e2 : numLine k x = (k ++ '=' :: ' ' :: decInt x) ++ ['\n'] := by simp [numLine]
  rw [e, fgets_line, e2]
  · intro c hc
    simp only [List.mem_append, List.mem_cons] at hc
    rcases hc with h | rfl | rfl | h
    · exact hk c h
    · decide
    · decide
    · exact decInt_ne_char x (by decide) (by decide) c h
  · have := decInt_length hx
    simp; omega

theorem head_fgets {S L B dt : Int} {lay : Layout} {t : Text} (hS : CI.InR S) (hL : CI.InR L) (hB : CI.InR B)
    (hdt : CI.InR dt) : fgetsLines (hdrHead S L B dt lay ++ t)
      = "ENVI\n".toList :: numLine "samples ".toList S :: numLine "lines ".toList L :: numLine "bands ".toList B ::
        numLine "data type ".toList dt :: tagLine lay :: fgetsLines t := by
  have e : hdrHead S L B dt lay ++ t = "ENVI".toList ++ '\n' :: (numLine "samples ".toList S ++ (numLine "lines ".toList L ++
      (numLine "bands ".toList B ++ (numLine "data type ".toList dt ++ (("interleave = ".toList ++ lay.tag) ++ '\n' :: t))))) := by
    have e1 : "ENVI\nsamples = ".toList = "ENVI".toList ++ '\n' :: ("samples ".toList ++ '=' :: ' ' :: []) := by decide
    have e2 : "\nlines = ".toList = '\n' :: ("lines ".toList ++ '=' :: ' ' :: []) := by decide
    have e3 : "\nbands = ".toList = '\n' :: ("bands ".toList ++ '=' :: ' ' :: []) := by decide
    have e4 : "\ndata type = ".toList = '\n' :: ("data type ".toList ++ '=' :: ' ' :: []) := by decide
    have e5 : "\ninterleave = ".toList = '\n' :: "interleave = ".toList := by decide
    have e6 : "\n".toList = ['\n'] := by decide
    unfold hdrHead numLine
    rw [e1, e2, e3, e4, e5, e6]
    simp only [List.append_assoc, List.cons_append, List.nil_append]
  rw [e, fgets_line (by decide) (short_line (by decide)), line_fgets (by decide) (by decide) hS, line_fgets (by decide) (by decide) hL,
    line_fgets (by decide) (by decide) hB, line_fgets (by decide) (by decide) hdt, fgets_line]
  · have e1 : "interleave = ".toList ++ lay.tag ++ ['\n'] = tagLine lay := by cases lay <;> decide
    have e2 : "ENVI".toList ++ ['\n'] = "ENVI\n".toList := by decide
    rw [e1, e2]
  · cases lay <;> decide
  · exact short_line (by cases lay <;> decide)

theorem tagLine_cstr (lay : Layout) : cstr (tagLine lay) = tagLine lay := by
  cases lay <;> decide

/-- the lines before the wavelengths are understood -/
theorem head_run (other : Text → Option FV) {S L B dt : Int} {lay : Layout} {t : Text} (hS : CI.InR S) (hL : CI.InR L)
    (hB : CI.InR B) (hdt : CI.InR dt) (m : Mem) :
    readhdr other (hdrHead S L B dt lay ++ t) m
      = hdrLoop other (fgetsLines t).length (fgetsLines t) (hdrState S L B dt lay) m := by
  unfold readhdr
  rw [head_fgets hS hL hB hdt]
  simp only [List.length_cons]
  rw [hdrLoop_cons _ _ _ _ (by decide) (step_envi _ _ _ _),
    hdrLoop_cons _ _ _ _ (numLine_cstr (by decide)) (step_samples _ _ _ _ hS),
    hdrLoop_cons _ _ _ _ (numLine_cstr (by decide)) (step_lines _ _ _ _ hL),
    hdrLoop_cons _ _ _ _ (numLine_cstr (by decide)) (step_bands _ _ _ _ hB),
    hdrLoop_cons _ _ _ _ (numLine_cstr (by decide)) (step_dtype _ _ _ _ hdt),
    hdrLoop_cons _ _ _ _ (tagLine_cstr lay) (step_tag _ _ _ _ lay rfl rfl)]
  rfl

/-- a header without wavelengths is understood -/
theorem nowave_run (other : Text → Option FV) {S L B dt : Int} {lay : Layout} (hS : CI.InR S) (hL : CI.InR L)
    (hB : CI.InR B) (hdt : CI.InR dt) (m : Mem) :
    ∃ h, readhdr other (hdrHead S L B dt lay ++ "wavelength = unknown \n".toList) m = .ok (h, m) ∧ h.samples = some S ∧
      h.lines = some L ∧ h.bands = some B ∧ h.data_type = some dt ∧ h.interleave = lay.tag ∧ h.wavelength = none := by
  rw [head_run other hS hL hB hdt]
  have e : fgetsLines "wavelength = unknown \n".toList = ["wavelength = unknown \n".toList] := by
    have := fgets_line (l := "wavelength = unknown ".toList) (rest := []) (by decide) (short_line (by decide))
    exact this
  rw [e, List.length_singleton, hdrLoop_cons _ _ _ _ (by decide) (step_nowave _ _ _ _), hdrLoop_nil]
  exact ⟨_, rfl, rfl, rfl, rfl, rfl, rfl, rfl⟩

/-! ### The wavelengths -/

/-- the entries from number `i` on; `c` is the number of commas -/
def waveTail (f : Nat → FV) : Nat → Nat → Text
  | i, 0 => fmtF (f i) ++ ['}']
  | i, c + 1 => fmtF (f i) ++ ',' :: waveTail f (i + 1) c

/-- the entries before number `i` -/
def wavePre (f : Nat → FV) : Nat → Text
  | 0 => []
  | i + 1 => wavePre f i ++ fmtF (f i) ++ [',']

theorem wavePre_tail (f : Nat → FV) : ∀ c i, wavePre f i ++ waveTail f i c = wavePre f (i + c) ++ fmtF (f (i + c)) ++ ['}'] := by
  intro c
  induction c with
  | zero => intro i; simp [waveTail]
  | succ c ih =>
    intro i
    have := ih (i + 1)
    rw [show i + (c + 1) = i + 1 + c by omega, ← this]
    simp [waveTail, wavePre]

/-- a wavelength that is printed with at most 19 characters -/
def Short : FV → Prop
  | .fin _ q => |q| < 10000000000
  | _ => False

theorem fmtF_char {v : FV} (h : Short v) : ∀ c ∈ fmtF v, c = '-' ∨ c = '.' ∨ isDigitC c = true := by
  cases v with
  | nan => exact absurd h (by simp [Short])
  | inf => exact absurd h (by simp [Short])
  | fin s q =>
    intro c hc
    unfold fmtF at hc
    simp only [List.mem_append, List.mem_cons] at hc
    rcases hc with (hc | hc) | rfl | hc
    · cases s
      · simp at hc
      · simp at hc; exact Or.inl hc
    · exact Or.inr (Or.inr (decNat_digit _ c hc))
    · exact Or.inr (Or.inl rfl)
    · exact Or.inr (Or.inr (dec6_digit _ c hc))

theorem fmtF_ne {v : FV} (h : Short v) {d : Char} (h1 : d ≠ '-') (h2 : d ≠ '.') (h3 : isDigitC d = false) :
    ∀ c ∈ fmtF v, c ≠ d := by
  intro c hc
  rcases fmtF_char h c hc with e | e | e
  · rw [e]; exact fun x => h1 x.symm
  · rw [e]; exact fun x => h2 x.symm
  · exact digit_ne e h3

theorem fmtF_length {v : FV} (h : Short v) : (fmtF v).length ≤ 19 := by
  cases v with
  | nan => exact absurd h (by simp [Short])
  | inf => exact absurd h (by simp [Short])
  | fin s q =>
    have hq : |q| < 10000000000 := h
    have h1 : rne (|q| * 1000000) ≤ 10000000000000000 := by
      have := rne_mono (q := |q| * 1000000) (r := ((10000000000000000 : ℤ) : ℚ)) (by push_cast; linarith)
      rwa [rne_int] at this
    have h2 : (rne (|q| * 1000000)).toNat / 1000000 < 10 ^ (10 + 1) := by norm_num; omega
    have h3 := decNat_length 10 _ h2
    unfold fmtF
    dsimp only
    rw [List.length_append, List.length_append]
    have h4 : (if s = true then ['-'] else []).length ≤ 1 := by cases s <;> simp
    simp only [dec6, List.length_cons, List.length_nil]
    omega

/-- the value that is read back for a wavelength -/
def readBack : FV → FV
  | .fin s q => f32.conv (f64.round s ((if s = true then -1 else 1) * (((rne (|q| * 1000000)).toNat : ℚ) / 1000000)))
  | v => v

theorem atof_entry (other : Text → Option FV) {v : FV} (h : Short v) (m : Mem) :
    ∃ x, atofBuf other (fmtF v ++ List.replicate (20 - (fmtF v).length) ' ') m = .ok (x, m) ∧ f32.conv x = readBack v := by
  have hl := fmtF_length h
  cases v with
  | nan => exact absurd h (by simp [Short])
  | inf => exact absurd h (by simp [Short])
  | fin s q =>
    refine ⟨_, ?_, rfl⟩
    have e : 20 - (fmtF (.fin s q)).length = (19 - (fmtF (.fin s q)).length) + 1 := by omega
    rw [e]
    exact atof_fixed other s (rne (|q| * 1000000)).toNat _ m

theorem waveLoop_chars (other : Text → Option FV) (wave : Nat) (bands : Int) (e : Text) :
    ∀ (tmp s : Text) (n : Int) (m : Mem), (∀ c ∈ e, c ≠ ',' ∧ c ≠ '}') → tmp.length + e.length ≤ 20 → n ≠ bands →
      waveLoop other wave bands (e ++ s) tmp n m = waveLoop other wave bands s (tmp ++ e) n m := by
  induction e with
  | nil => intros; simp
  | cons c e ih =>
    intro tmp s n m h1 h2 h3
    rw [List.length_cons] at h2
    show waveLoop other wave bands (c :: (e ++ s)) tmp n m = _
    rw [waveLoop, if_pos (h1 c (by simp)), if_neg (by omega), if_neg h3,
      ih _ _ _ _ (fun d hd => h1 d (by simp [hd])) (by simp; omega) h3]
    simp

theorem entry_chars {v : FV} (h : Short v) : ∀ c ∈ fmtF v, c ≠ ',' ∧ c ≠ '}' := by
  intro c hc
  exact ⟨fmtF_ne h (by decide) (by decide) (by decide) c hc, fmtF_ne h (by decide) (by decide) (by decide) c hc⟩

/-- all entries are stored -/
theorem waveLoop_run (other : Text → Option FV) {wave B : Nat} {f : Nat → FV} {m : Mem} (r : Text) :
    ∀ (c i : Nat) (a : Nat → Nat), i + c + 1 = B → (∀ j, j < B → Short (f j)) →
      waveLoop other wave B (waveTail f i c ++ r) [] i (m.putN wave 4 B a)
        = .ok ((), m.putN wave 4 B (fun j => if i ≤ j then f32.encode (readBack (f j)) % 256 ^ 4 else a j)) := by
  intro c
  induction c with
  | zero =>
    intro i a hi hf
    have hs := hf i (by omega)
    obtain ⟨x, hx1, hx2⟩ := atof_entry other hs (m.putN wave 4 B a)
    show waveLoop other wave B (fmtF (f i) ++ ['}'] ++ r) [] i _ = _
    rw [List.append_assoc, waveLoop_chars other wave B _ _ _ _ _ (entry_chars hs) (by have := fmtF_length hs; simp; omega) (by omega)]
    show waveLoop other wave B ('}' :: r) (fmtF (f i)) i _ = _
    rw [waveLoop, if_neg (by decide), bind_ok hx1, hx2, bind_ok (storeN_put (by omega : i < B)), if_pos (Or.inl rfl)]
    refine congrArg (fun y => Except.ok ((), y)) (putN_congr _ ?_)
    intro j hj
    by_cases h : j = i
    · subst h; rw [if_pos rfl, if_pos (le_refl _)]
    · rw [if_neg h, if_neg (by omega)]
  | succ c ih =>
    intro i a hi hf
    have hs := hf i (by omega)
    obtain ⟨x, hx1, hx2⟩ := atof_entry other hs (m.putN wave 4 B a)
    show waveLoop other wave B (fmtF (f i) ++ ',' :: waveTail f (i + 1) c ++ r) [] i _ = _
    rw [List.append_assoc, waveLoop_chars other wave B _ _ _ _ _ (entry_chars hs) (by have := fmtF_length hs; simp; omega) (by omega)]
    show waveLoop other wave B (',' :: (waveTail f (i + 1) c ++ r)) (fmtF (f i)) i _ = _
    rw [waveLoop, if_neg (by decide), bind_ok hx1, hx2, bind_ok (storeN_put (by omega : i < B)), if_neg (by
      rintro (h | h)
      · exact absurd h (by decide)
      · omega)]
    have e : ((i : Int) + 1) = ((i + 1 : Nat) : Int) := by push_cast; rfl
    rw [e, ih (i + 1) _ (by omega) hf]
    refine congrArg (fun y => Except.ok ((), y)) (putN_congr _ ?_)
    intro j hj
    by_cases h1 : i + 1 ≤ j
    · rw [if_pos h1, if_pos (by omega)]
    · rw [if_neg h1]
      by_cases h : j = i
      · subst h; rw [if_pos rfl, if_pos (le_refl _)]
      · rw [if_neg h, if_neg (by omega)]

theorem waveTail_length (f : Nat → FV) : ∀ (c i : Nat), (∀ j, i ≤ j → j ≤ i + c → Short (f j)) →
    (waveTail f i c).length ≤ 20 * (c + 1) := by
  intro c
  induction c with
  | zero =>
    intro i h
    have := fmtF_length (h i (le_refl _) (by omega))
    simp [waveTail]; omega
  | succ c ih =>
    intro i h
    have h1 := fmtF_length (h i (le_refl _) (by omega))
    have h2 := ih (i + 1) (fun j a b => h j (by omega) (by omega))
    simp [waveTail]; omega

theorem waveTail_split (f : Nat → FV) : ∀ (c i : Nat), (∀ j, i ≤ j → j ≤ i + c → Short (f j)) →
    ∃ body, waveTail f i c = body ++ ['}'] ∧ ∀ d ∈ body, d ≠ '\n' ∧ d ≠ '\x00' ∧ d ≠ '}' := by
  have key : ∀ {v : FV}, Short v → ∀ d ∈ fmtF v, d ≠ '\n' ∧ d ≠ '\x00' ∧ d ≠ '}' := by
    intro v hv d hd
    exact ⟨fmtF_ne hv (by decide) (by decide) (by decide) d hd, fmtF_ne hv (by decide) (by decide) (by decide) d hd,
      fmtF_ne hv (by decide) (by decide) (by decide) d hd⟩
  intro c
  induction c with
  | zero =>
    intro i h
    exact ⟨_, rfl, key (h i (le_refl _) (by omega))⟩
  | succ c ih =>
    intro i h
    obtain ⟨b, h1, h2⟩ := ih (i + 1) (fun j a b => h j (by omega) (by omega))
    refine ⟨fmtF (f i) ++ ',' :: b, by simp [waveTail, h1], ?_⟩
    intro d hd
    rw [List.mem_append, List.mem_cons] at hd
    rcases hd with hd | rfl | hd
    · exact key (h i (le_refl _) (by omega)) d hd
    · decide
    · exact h2 d hd

set_option maxRecDepth 4000 in
theorem byteKey : ∀ n, n < 256 → Char.ofNat n = '\x00' → n = 0 := by decide

theorem byte_char {b : UInt8} : Char.ofNat b.toNat = '\x00' ↔ b = 0 := by
  constructor
  · intro h
    exact UInt8.toNat_inj.1 (byteKey _ b.toNat_lt h)
  · rintro rfl; rfl

theorem bufString_some {cap : Nat} {w : Text} {junk : Nat → UInt8} (hw : ∀ c ∈ w, c ≠ '\x00')
    (hz : ∃ i, w.length ≤ i ∧ i < cap ∧ junk i = 0) : ∃ r, bufString cap w junk = some (w ++ r) := by
  obtain ⟨i, h1, h2, h3⟩ := hz
  refine ⟨cstr ((tab cap fun i => Char.ofNat (junk i).toNat).drop w.length), ?_⟩
  unfold bufString
  dsimp only
  rw [if_pos, cstr_append hw]
  rw [List.mem_append]
  right
  rw [List.mem_iff_getElem?]
  refine ⟨i - w.length, ?_⟩
  rw [List.getElem?_drop, show w.length + (i - w.length) = i by omega, tab_get? _ h2, byte_char.2 h3]

theorem bufString_none {cap : Nat} {w : Text} {junk : Nat → UInt8} (hw : ∀ c ∈ w, c ≠ '\x00')
    (hz : ∀ i, w.length ≤ i → i < cap → junk i ≠ 0) : bufString cap w junk = none := by
  unfold bufString
  dsimp only
  rw [if_neg]
  intro h
  rw [List.mem_append] at h
  rcases h with h | h
  · exact hw _ h rfl
  · rw [List.mem_iff_getElem?] at h
    obtain ⟨i, hi⟩ := h
    rw [List.getElem?_drop] at hi
    by_cases hc : w.length + i < cap
    · rw [tab_get? _ hc] at hi
      exact hz _ (by omega) hc (byte_char.1 (Option.some.inj hi))
    · rw [tab_get?_none _ (by omega)] at hi
      exact absurd hi (by simp)

theorem free_blk {m : Mem} {h : Nat} {l : List UInt8} (hb : m.blk h = some l) : free h m = .ok ((), m.setBlk h none) := by
  unfold free; rw [hb]

theorem setBlk_blk_self (m : Mem) (h : Nat) (b : Option (List UInt8)) : (m.setBlk h b).blk h = b := by
  simp [Mem.setBlk]

theorem setBlk_blk_ne (m : Mem) {h q : Nat} (b : Option (List UInt8)) (hq : q ≠ h) : (m.setBlk h b).blk q = m.blk q := by
  simp [Mem.setBlk, hq]

/-- the wavelength block is read -/
theorem readWave_run (other : Text → Option FV) {B : Nat} {f : Nat → FV} (hB : 0 < B) (h20 : 20 * B ≤ 2147483647)
    (hf : ∀ j, j < B → Short (f j)) {m : Mem} (hm : m.WF)
    (hz : ∃ i, (waveTail f 0 (B - 1)).length ≤ i ∧ i < 20 * B ∧ m.junk m.next i = 0) :
    ∃ m', readWave other B (waveTail f 0 (B - 1)) m = .ok (m.next + 1, m') ∧
      Holds m' (m.next + 1) (B * 4) (encN 4 (fun j => f32.encode (readBack (f j)) % 256 ^ 4)) ∧
      Frame m m' ∧ m'.WF ∧ m'.next = m.next + 3 ∧ m'.junk = m.junk ∧ m'.addr = m.addr ∧ m'.hm = m.hm ∧ m'.sm = m.sm ∧
      m'.blk m.next = none ∧ m'.blk (m.next + 2) = none := by
  have hlen := waveTail_length f (B - 1) 0 (fun j _ h2 => hf j (by omega))
  rw [show 20 * (B - 1 + 1) = 20 * B by omega] at hlen
  obtain ⟨body, hb1, hb2⟩ := waveTail_split f (B - 1) 0 (fun j _ h2 => hf j (by omega))
  have hnul : ∀ c ∈ waveTail f 0 (B - 1), c ≠ '\x00' := by
    intro c hc
    rw [hb1, List.mem_append, List.mem_singleton] at hc
    rcases hc with hc | rfl
    · exact (hb2 c hc).2.1
    · decide
  obtain ⟨r, hr⟩ := bufString_some hnul hz
  have ecap : (CI.lit 20 * CI.lit (B : Int) : CI) = CI.lit ((20 * B : Nat) : Int) := by
    rw [CI.mul_ok]
    · push_cast; rfl
    · constructor <;> push_cast <;> omega
  unfold readWave
  rw [ev_bind ecap, if_neg (by omega), bind_ok (malloc_run _ _), if_neg (by omega), bind_ok (malloc_run _ _)]
  rw [bind_ok (junkOf_run _ _), grow_junk, grow_junk]
  rw [show ((20 * B : Nat) : Int).toNat = 20 * B by omega, show (B : Int).toNat = B by omega, hr]
  dsimp only
  rw [bind_ok (malloc_run _ _)]
  set m1 := m.grow (20 * B) (m.junk m.next) with hm1
  set m2 := m1.grow (B * 4) (m.junk m1.next) with hm2
  set m3 := m2.grow 20 (m2.junk m2.next) with hm3
  have w1 : m1.WF := grow_WF hm _ _
  have w2 : m2.WF := grow_WF w1 _ _
  have w3 : m3.WF := grow_WF w2 _ _
  have hw : Holds m3 (m.next + 1) (B * 4) (m.junk m1.next) := Holds.grow w2 (grow_holds m1 _ _)
  have hput : m3 = m3.putN (m.next + 1) 4 B (fun j => leNat (tab 4 fun t => m.junk m1.next (j * 4 + t))) := by
    have e : Holds m3 (m.next + 1) (B * 4) (encN 4 (fun j => leNat (tab 4 fun t => m.junk m1.next (j * 4 + t)))) := by
      refine hw.congr ?_
      intro p hp
      have hd := Nat.div_add_mod p 4
      have : p = p / 4 * 4 + p % 4 := by omega
      conv_rhs => rw [this]
      rw [encN_at _ (Nat.mod_lt _ (by norm_num)), leByte_leNat _ (Nat.mod_lt _ (by norm_num)), ← this]
    exact (Holds.put_self e).symm
  have hl := waveLoop_run other (wave := m.next + 1) (m := m3) r (B - 1) 0
    (fun j => leNat (tab 4 fun t => m.junk m1.next (j * 4 + t))) (by omega) hf
  rw [← hput] at hl
  rw [bind_ok (show waveLoop other m1.next (B : Int) (waveTail f 0 (B - 1) ++ r) [] 0 m3 = _ from hl)]
  set m4 := m3.putN (m.next + 1) 4 B (fun j => if 0 ≤ j then f32.encode (readBack (f j)) % 256 ^ 4
    else leNat (tab 4 fun t => m.junk m1.next (j * 4 + t))) with hm4
  have n3 : m3.next = m.next + 3 := rfl
  have w4 : m4.WF := put_WF w3 (by rw [n3]; omega)
  have h4 : Holds m4 (m.next + 1) (B * 4) (encN 4 (fun j => f32.encode (readBack (f j)) % 256 ^ 4)) := by
    have e : m4 = m3.putN (m.next + 1) 4 B (fun j => f32.encode (readBack (f j)) % 256 ^ 4) := by
      rw [hm4]; apply putN_congr; intro j _; simp
    rw [e]; exact holds_put _ _ _ _
  have b2 : m4.blk m2.next = some (tab 20 (m2.junk m2.next)) := by
    rw [hm4]
    unfold Mem.putN
    rw [put_blk_ne _ _ _ (show m2.next ≠ m.next + 1 by show m.next + 2 ≠ _; omega)]
    exact grow_holds m2 _ _
  rw [bind_ok (free_blk b2)]
  have b1 : (m4.setBlk m2.next none).blk m.next = some (tab (20 * B) (m.junk m.next)) := by
    rw [setBlk_blk_ne _ _ (show m.next ≠ m2.next by show _ ≠ m.next + 2; omega), hm4]
    unfold Mem.putN
    rw [put_blk_ne _ _ _ (show m.next ≠ m.next + 1 by omega), hm3, grow_blk_ne _ _ _ (show m.next ≠ m2.next by show _ ≠ m.next + 2; omega),
      hm2, grow_blk_ne _ _ _ (show m.next ≠ m1.next by show _ ≠ m.next + 1; omega)]
    exact grow_holds m _ _
  rw [bind_ok (free_blk b1)]
  refine ⟨_, rfl, ?_, ?_, ?_, rfl, rfl, rfl, rfl, rfl, setBlk_blk_self .., ?_⟩
  · unfold Holds
    rw [setBlk_blk_ne _ _ (by omega), setBlk_blk_ne _ _ (show m.next + 1 ≠ m2.next by show _ ≠ m.next + 2; omega)]
    exact h4
  · intro q hq
    refine ⟨?_, rfl, rfl⟩
    rw [setBlk_blk_ne _ _ (by omega), setBlk_blk_ne _ _ (show q ≠ m2.next by show _ ≠ m.next + 2; omega), hm4]
    unfold Mem.putN
    rw [put_blk_ne _ _ _ (by omega), hm3, grow_blk_ne _ _ _ (show q ≠ m2.next by show _ ≠ m.next + 2; omega),
      hm2, grow_blk_ne _ _ _ (show q ≠ m1.next by show _ ≠ m.next + 1; omega), hm1, grow_blk_ne _ _ _ (by omega)]
  · intro q hq
    have hq' : m.next + 3 ≤ q := hq
    have := w4 q (by show m.next + 3 ≤ q; exact hq')
    refine ⟨?_, this.2⟩
    rw [setBlk_blk_ne _ _ (by omega), setBlk_blk_ne _ _ (show q ≠ m2.next by show _ ≠ m.next + 2; omega)]
    exact this.1
  · rw [setBlk_blk_ne _ _ (by omega)]
    exact setBlk_blk_self ..

/-- the wavelength block is not terminated -/
theorem readWave_bad (other : Text → Option FV) {B : Nat} {f : Nat → FV} (hB : 0 < B) (h20 : 20 * B ≤ 2147483647)
    (hf : ∀ j, j < B → Short (f j)) {m : Mem}
    (hz : ∀ i, (waveTail f 0 (B - 1)).length ≤ i → i < 20 * B → m.junk m.next i ≠ 0) :
    readWave other B (waveTail f 0 (B - 1)) m = .error (.ub .oob) := by
  have hlen := waveTail_length f (B - 1) 0 (fun j _ h2 => hf j (by omega))
  rw [show 20 * (B - 1 + 1) = 20 * B by omega] at hlen
  obtain ⟨body, hb1, hb2⟩ := waveTail_split f (B - 1) 0 (fun j _ h2 => hf j (by omega))
  have hnul : ∀ c ∈ waveTail f 0 (B - 1), c ≠ '\x00' := by
    intro c hc
    rw [hb1, List.mem_append, List.mem_singleton] at hc
    rcases hc with hc | rfl
    · exact (hb2 c hc).2.1
    · decide
  have ecap : (CI.lit 20 * CI.lit (B : Int) : CI) = CI.lit ((20 * B : Nat) : Int) := by
    rw [CI.mul_ok]
    · push_cast; rfl
    · constructor <;> push_cast <;> omega
  unfold readWave
  rw [ev_bind ecap, if_neg (by omega), bind_ok (malloc_run _ _), if_neg (by omega), bind_ok (malloc_run _ _)]
  rw [bind_ok (junkOf_run _ _), grow_junk, grow_junk]
  rw [show ((20 * B : Nat) : Int).toNat = 20 * B by omega, bufString_none hnul hz]
  rfl

/-- the lines of the wavelength block -/
theorem collect_tail {f : Nat → FV} {B : Nat} (hB : 0 < B) (hf : ∀ j, j < B → Short (f j)) :
    ∃ ls, fgetsLines ("wavelength = { \n".toList ++ waveTail f 0 (B - 1)) = "wavelength = { \n".toList :: ls ∧
      collectWave "wavelength = { \n".toList ls = (waveTail f 0 (B - 1), []) := by
  obtain ⟨body, hb1, hb2⟩ := waveTail_split f (B - 1) 0 (fun j _ h2 => hf j (by omega))
  refine ⟨fgetsLines (waveTail f 0 (B - 1)), fgets_line (l := "wavelength = { ".toList) (by decide) (short_line (by decide)), ?_⟩
  have hn : ∀ c ∈ waveTail f 0 (B - 1), c ≠ '\n' := by
    intro c hc
    rw [hb1, List.mem_append, List.mem_singleton] at hc
    rcases hc with hc | rfl
    · exact (hb2 c hc).1
    · decide
  obtain ⟨h1, h2⟩ := fgets_chunks hn
  rw [hb1] at h1 ⊢
  exact collectWave_all body hb2 _ _ (by decide) h1 (fun l hl => (h2 l (by rw [hb1]; exact hl)).1)

/-! ### Writing -/

theorem writehdr_none (S L B dt : Int) (lay : Layout) (m : Mem) :
    writehdr S L B dt lay.tag none m = .ok (hdrHead S L B dt lay ++ "wavelength = unknown \n".toList, m) := by
  have e1 : (lay.tag ++ ['\x00']).take 3 = lay.tag := by cases lay <;> rfl
  have e2 : cstr lay.tag = lay.tag := cstr_of (tag_nonul lay)
  unfold writehdr
  dsimp only
  rw [e1, if_neg (by rw [tag_length]; omega), e2]
  rfl

theorem writehdr_some (S L dt : Int) (lay : Layout) {B wb N : Nat} {w : Nat → UInt8} {m : Mem} (hB : 0 < B)
    (hBr : B ≤ 2147483647) (hw : Holds m wb N w) (hN : B * 4 ≤ N) :
    writehdr S L B dt lay.tag (some wb) m = .ok (hdrHead S L B dt lay ++ ("wavelength = { \n".toList ++
      waveTail (fun k => f32.decode (leNat (tab 4 fun t => w (k * 4 + t)))) 0 (B - 1)), m) := by
  have e1 : (lay.tag ++ ['\x00']).take 3 = lay.tag := by cases lay <;> rfl
  have e2 : cstr lay.tag = lay.tag := cstr_of (tag_nonul lay)
  unfold writehdr
  dsimp only
  rw [e1, if_neg (by rw [tag_length]; omega), e2]
  have ee : (CI.lit (B : Int) - CI.lit 1 : CI) = CI.lit ((B - 1 : Nat) : Int) := by
    rw [CI.sub_ok]
    · congr 1; omega
    · constructor <;> omega
  rw [ev_bind ee]
  set f : Nat → FV := fun k => f32.decode (leNat (tab 4 fun t => w (k * 4 + t))) with hf
  have hl : ∀ i, i < B → loadN 4 wb (i : Int) m = .ok (leNat (tab 4 fun t => w (i * 4 + t)), m) :=
    fun i hi => loadN_ok hw (by omega)
  have hh : ("ENVI\nsamples = ".toList ++ decInt S ++ "\nlines = ".toList ++ decInt L ++ "\nbands = ".toList ++ decInt B
    ++ "\ndata type = ".toList ++ decInt dt ++ "\ninterleave = ".toList ++ lay.tag ++ "\n".toList) = hdrHead S L B dt lay := rfl
  rw [hh]
  have key := forA_run (n := B - 1) (body := fun i t => do
      let v ← loadN 4 wb i
      pure (t ++ fmtF (f32.decode v) ++ [','])) (fun _ => m)
    (fun i => hdrHead S L B dt lay ++ "wavelength = { \n".toList ++ wavePre f i) (by
      intro i hi
      rw [bind_ok (hl i (by omega))]
      show Except.ok _ = _
      simp [wavePre, hf])
  rw [show hdrHead S L B dt lay ++ "wavelength = { \n".toList
      = hdrHead S L B dt lay ++ "wavelength = { \n".toList ++ wavePre f 0 by simp [wavePre], bind_ok key, bind_ok (hl (B - 1) (by omega))]
  have := wavePre_tail f (B - 1) 0
  rw [Nat.zero_add] at this
  show Except.ok _ = _
  have e3 : waveTail f 0 (B - 1) = wavePre f (B - 1) ++ fmtF (f (B - 1)) ++ ['}'] := by
    rw [← this]; simp [wavePre]
  rw [e3]
  simp [hf]

/-! ### The cube that is read -/

theorem fread_run {d N : Nat} {img : List UInt8} {g : Nat → UInt8} {m : Mem} (hd : Holds m d N g) (hl : N ≤ img.length) :
    freadInto d img N m = .ok ((), m.put d N (fun i => img.getD i 0)) := by
  unfold freadInto
  rw [show min (img.length : Int) (N : Int) = ((N : Nat) : Int) by omega]
  refine Fills.total (P := fun p => ∃ i, i < N ∧ p = i) (Fills.loop fun i hi => ?_) (fun p hp => ⟨p, hp, rfl⟩) hd
  exact Fills.store hi (by simp)

theorem isCube_setBlk {m : Mem} {q h : Nat} {lay : Layout} {S L B E : Nat} {dt : Int} {v : Nat → Nat → Nat → Nat → UInt8}
    {w : Nat → UInt8} (hc : IsCube m q lay S L B dt E v w) (ho : ¬ Owns m q h) (b : Option (List UInt8)) :
    IsCube (m.setBlk h b) q lay S L B dt E v w := by
  obtain ⟨h1, h2, h3, h4, hdr, wb, f, o1, o2, o3, o4, o5, o6, o7, o8, o9, o10, o11⟩ := hc
  have n1 : hdr.data ≠ h := fun e => ho (Or.inr ⟨hdr, o1, Or.inl e.symm⟩)
  have n2 : wb ≠ h := fun e => ho (Or.inr ⟨hdr, o1, Or.inr (by rw [o7, e])⟩)
  refine ⟨h1, h2, h3, h4, hdr, wb, f, o1, o2, o3, o4, o5, o6, o7, o8, ?_, ?_, o11⟩
  · unfold Bytes at o9 ⊢; rwa [setBlk_blk_ne _ _ n1]
  · unfold Bytes at o10 ⊢; rwa [setBlk_blk_ne _ _ n2]

theorem hmread_finish {other : Text → Option FV} {img : List UInt8} {txt : Text} {m m2 : Mem} {h : Hdr} {S L B E : Nat}
    {dt : Int} {lay : Layout} {w : Nat → UInt8} (hm : m.WF)
    (hr : readhdr other txt (m.grow 3 (m.junk m.next)) = .ok (h, m2))
    (hs : h.samples = some (S : Int)) (hl : h.lines = some (L : Int)) (hb : h.bands = some (B : Int)) (hd : h.data_type = some dt)
    (hi : h.interleave = lay.tag) (hS : 0 < S) (hL : 0 < L) (hB : 0 < B) (hE : elemBytes dt = some E)
    (hN : S * L * B * E ≤ 2147483647) (hW : 4 * B ≤ 2147483647) (himg : S * L * B * E ≤ img.length)
    (hw : match h.wavelength with
      | none => ∀ i, i < 4 * B → w i = 0
      | some s => ∃ N, 4 * B ≤ N ∧ Holds m2 s N w)
    (hm2 : m2.WF) (hfr : Frame (m.grow 3 (m.junk m.next)) m2) (hnx : m.next + 1 ≤ m2.next) :
    ∃ q m', hmread_with_hdr other (some img) (some txt) m = .ok (some q, m') ∧
      IsCube m' q lay S L B dt E (fun i j k t => img.getD (lay.pos S L B i j k * E + t) 0) w ∧
      FreshCube m m' q ∧ Frame m m' ∧ m'.WF := by
  obtain ⟨e1, e2, e3⟩ := get_elemsize_eq hE
  have hSLB : S * L * B ≤ 2147483647 := le_trans (Nat.le_mul_of_pos_right _ e2) hN
  have hSL : S * L ≤ 2147483647 := le_trans (Nat.le_mul_of_pos_right _ hB) hSLB
  have eds : (CI.lit (S : Int) * CI.lit (L : Int) * CI.lit (B : Int) : CI) = CI.lit ((S * L * B : Nat) : Int) := by
    rw [CI.mul_ok, CI.mul_ok]
    · push_cast; rfl
    · have : ((S : Int) * L * B) = ((S * L * B : Nat) : Int) := by push_cast; rfl
      rw [this]; constructor <;> omega
    · have : ((S : Int) * L) = ((S * L : Nat) : Int) := by push_cast; rfl
      rw [this]; constructor <;> omega
  have eu : u32 (E : Int) = E := u32_nat (by omega)
  unfold hmread_with_hdr
  rw [bind_ok (malloc_run _ _)]
  dsimp only
  rw [bind_ok hr, hs, hl, hb, hd]
  rw [bind_ok (show initialised (some (S : Int)) m2 = .ok (_, m2) from rfl),
    bind_ok (show initialised (some (L : Int)) m2 = .ok (_, m2) from rfl),
    bind_ok (show initialised (some (B : Int)) m2 = .ok (_, m2) from rfl),
    bind_ok (show initialised (some dt) m2 = .ok (_, m2) from rfl), ev_bind eds, e1, eu]
  rw [cassert_bind (by rw [decide_eq_true_eq]; positivity), bind_ok (malloc_run _ _)]
  have en : ((S * L * B : Nat) : Int) * (E : Int) = ((S * L * B * E : Nat) : Int) := by push_cast; rfl
  rw [en, Int.toNat_natCast]
  set m3 := m2.grow (S * L * B * E) (m2.junk m2.next) with hm3
  have w3 : m3.WF := grow_WF hm2 _ _
  rw [bind_ok (fread_run (grow_holds m2 _ _) himg)]
  set m4 := m3.put m2.next (S * L * B * E) (fun i => img.getD i 0) with hm4
  have w4 : m4.WF := put_WF w3 (by show m2.next < m2.next + 1; omega)
  rw [bind_ok (junkOf_run _ _)]
  have etag : (tab 3 fun t => h.interleave.getD t (Char.ofNat (m4.junk m.next t).toNat)) = lay.tag := by
    rw [hi]; cases lay <;> rfl
  rw [etag]
  have hd4 : Holds m4 m2.next (S * L * B * E) (fun i => img.getD i 0) := holds_put _ _ _ _
  have pw : Provides m4 h.wavelength (4 * B) w := by
    cases hc : h.wavelength with
    | none => rw [hc] at hw; exact hw
    | some s =>
      rw [hc] at hw
      obtain ⟨N, n1, n2⟩ := hw
      refine ⟨N, n1, bytes_iff.2 ?_⟩
      have := n2.lt_next hm2
      exact (Holds.grow hm2 n2).put_ne (by omega)
  obtain ⟨q, m5, c1, c2, c3, c4, c5⟩ := C06_create w4 (lay := lay) hS hL hB hE hN hW (data := some m2.next) (wave := h.wavelength)
    (f := fun i => img.getD i 0) (w := w) ⟨_, le_refl _, bytes_iff.2 hd4⟩ pw
  rw [bind_ok c1]
  have n4 : m4.next = m2.next + 1 := rfl
  have bt : m5.blk m.next = some (tab 3 (m.junk m.next)) := by
    rw [(c4 m.next (by omega)).1, hm4, put_blk_ne _ _ _ (by omega), hm3, grow_blk_ne _ _ _ (by omega), (hfr m.next (by simp)).1]
    exact grow_holds m 3 _
  have n5 : m.next < m5.next := by
    by_contra hc
    have := (c5 m.next (not_lt.1 hc)).1
    rw [bt] at this
    exact absurd this (by simp)
  rw [bind_ok (free_blk bt)]
  have no : ¬ Owns m5 q m.next := by
    intro ho
    have := c3 _ ho
    omega
  refine ⟨q, _, rfl, isCube_setBlk c2 no _, ?_, ?_, ?_⟩
  · intro x hx
    have hx' : Owns m5 q x := hx
    have := c3 x hx'
    omega
  · intro x hx
    have f1 := c4 x (by omega)
    have f2 := hfr x (by simp; omega)
    refine ⟨?_, ?_, ?_⟩
    · rw [setBlk_blk_ne _ _ (by omega), f1.1, hm4, put_blk_ne _ _ _ (by omega), hm3, grow_blk_ne _ _ _ (by omega), f2.1,
        grow_blk_ne _ _ _ (by omega)]
    · show m5.hm x = _
      rw [f1.2.1]
      show m2.hm x = _
      rw [f2.2.1]; rfl
    · show m5.sm x = _
      rw [f1.2.2]
      show m2.sm x = _
      rw [f2.2.2]; rfl
  · intro x hx
    have hx' : m5.next ≤ x := hx
    have := c5 x hx'
    refine ⟨?_, this.2⟩
    rw [setBlk_blk_ne _ _ (by omega)]
    exact this.1

end HyperCV
