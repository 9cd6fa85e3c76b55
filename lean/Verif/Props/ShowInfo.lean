/- C112: the report about a cube. -/
import Verif.Model.ShowInfo
import Verif.Spec.ShowInfo
import Verif.Props.HyHeader
import Verif.Proof.HyWaves

namespace HyperCV
open Spec

/-- **C112**: the report about a cube has its samples, lines, bands, type and order and the wavelengths of all bands with six decimals; nothing is changed -/
theorem C112_report {m : Mem} {p S L B E : Nat} {dt : Int} {lay : Layout} {v : Nat → Nat → Nat → Nat → UInt8} {w : Nat → UInt8}
    (hc : IsCube m p lay S L B dt E v w) :
    hyper_mat_showinfo (some p) m = .ok (infoHead S L B dt lay ++ "mat's wavelength is\n".toList ++ commaList (waveAt w) B, m) := by
  obtain ⟨⟨hs, hl, hb, hd, hil, pad, dat, wav⟩, wb, f, h1, h2, h3, h4, h5, h6, h7, h8, h9, h10, h11⟩ := hc.obj
  simp only at h2 h3 h4 h5 h6 h7
  subst h2 h3 h4 h5 h6 h7
  rw [bytes_iff] at h10
  unfold hyper_mat_showinfo
  dsimp only
  rw [bind_ok (getH_ok h1)]
  dsimp only
  rw [if_neg (by cases lay <;> decide)]
  have ht : lay.tag.take 3 = lay.tag := by cases lay <;> rfl
  rw [ht]
  have key : ∀ t0 : Text, forA 0 (B : Int) t0 (fun i t => do
      let v ← loadN 4 wb i
      pure (t ++ fmtF (f32.decode v) ++ [','])) m = .ok (t0 ++ commaList (waveAt w) B, m) := by
    intro t0
    have k := forA_run (n := B) (body := fun i t => do
        let v ← loadN 4 wb i
        pure (t ++ fmtF (f32.decode v) ++ [','])) (fun _ => m) (fun i => t0 ++ commaList (waveAt w) i) (by
      intro i hi
      rw [bind_ok (loadN_ok h10 (by omega))]
      show Except.ok _ = _
      have e : commaList (waveAt w) (i + 1) = commaList (waveAt w) i ++ (fmtF (waveAt w i) ++ [',']) := by
        unfold commaList
        rw [List.range_succ, List.flatMap_append, List.flatMap_singleton]
      rw [e, List.append_assoc, List.append_assoc]
      rfl)
    rw [show commaList (waveAt w) 0 = [] from rfl, List.append_nil] at k
    exact k
  refine (key _).trans ?_
  have q1 : "mat's samples is ".toList = "mat's ".toList ++ "samples".toList ++ " is ".toList := by decide
  have q2 : "mat's lines is ".toList = "mat's ".toList ++ "lines".toList ++ " is ".toList := by decide
  have q3 : "mat's bands is ".toList = "mat's ".toList ++ "bands".toList ++ " is ".toList := by decide
  have q4 : "mat's data type is ".toList = "mat's ".toList ++ "data type".toList ++ " is ".toList := by decide
  have q5 : "mat's interleave is ".toList = "mat's ".toList ++ "interleave".toList ++ " is ".toList := by decide
  have q6 : "\n".toList = ['\n'] := by decide
  unfold infoHead infoLine
  rw [q1, q2, q3, q4, q5, q6]
  simp only [List.append_assoc]

/-- **C112**: there is a report about no cube, too -/
theorem C112_null (m : Mem) : hyper_mat_showinfo none m = .ok ("mat is NULL\n".toList, m) := rfl

/-- texts that agree up to a separator that does not occur in their first parts -/
theorem sep_inj {x : Char} : ∀ {a b r s : List Char}, x ∉ a → x ∉ b → a ++ x :: r = b ++ x :: s → a = b ∧ r = s := by
  intro a
  induction a with
  | nil =>
    intro b r s _ hb h
    cases b with
    | nil => simp at h; exact ⟨rfl, h⟩
    | cons y b =>
      simp at h
      exact absurd h.1 (fun e => hb (by simp [e]))
  | cons z a ih =>
    intro b r s ha hb h
    cases b with
    | nil =>
      simp at h
      exact absurd h.1 (fun e => ha (by simp [e]))
    | cons y b =>
      rw [List.cons_append, List.cons_append] at h
      injection h with h1 h2
      obtain ⟨e1, e2⟩ := ih (fun e => ha (by simp [e])) (fun e => hb (by simp [e])) h2
      exact ⟨by rw [h1, e1], e2⟩

theorem infoLine_inj {what a b r s : List Char} (ha : '\n' ∉ a) (hb : '\n' ∉ b) (h : infoLine what a ++ r = infoLine what b ++ s) : a = b ∧ r = s := by
  unfold infoLine at h
  simp only [List.append_assoc, List.append_cancel_left_eq] at h
  exact sep_inj ha hb h

theorem decInt_inj {a b : Nat} (h : decInt (a : Int) = decInt (b : Int)) : a = b := by
  unfold decInt at h
  rw [if_neg (by omega), if_neg (by omega)] at h
  have := congrArg digitsVal h
  rw [digitsVal_decNat, digitsVal_decNat] at this
  simpa using this

theorem decInt_nl (x : Int) : '\n' ∉ decInt x := fun h => decInt_ne_char x (d := '\n') (by decide) (by decide) _ h rfl

theorem elem_nat {dt : Int} {E : Nat} (h : elemBytes dt = some E) : ∃ n : Nat, dt = n := by
  unfold elemBytes at h
  split at h <;> first | exact ⟨_, rfl⟩ | exact ⟨Int.toNat _, rfl⟩ | exact absurd h (by simp)

theorem tag_inj {a b : Layout} (h : a.tag = b.tag) : a = b := by
  cases a <;> cases b <;> first | rfl | exact absurd h (by decide)

theorem fmtF_no_comma (v : FV) : ',' ∉ fmtF v := by
  cases v with
  | nan => decide
  | inf s => cases s <;> decide
  | fin s q =>
    intro h
    unfold fmtF at h
    dsimp only at h
    rw [List.mem_append, List.mem_append, List.mem_cons] at h
    rcases h with (h | h) | h | h
    · cases s <;> simp at h
    · have := decNat_digit _ _ h
      exact absurd this (by decide)
    · exact absurd h (by decide)
    · unfold dec6 at h
      have hd : ∀ k : Nat, digitChar (k % 10) ≠ ',' := by
        intro k e
        have := (digitChar_facts (k % 10) (by omega)).1
        rw [e] at this
        exact absurd this (by decide)
      simp only [List.mem_cons, List.not_mem_nil, or_false] at h
      rcases h with h | h | h | h | h | h <;> exact hd _ h.symm

theorem commaList_inj {f g : Nat → FV} : ∀ {n : Nat}, commaList f n = commaList g n → ∀ k, k < n → fmtF (f k) = fmtF (g k) := by
  intro n
  induction n generalizing f g with
  | zero => intro _ k hk; omega
  | succ n ih =>
    intro h k hk
    unfold commaList at h
    rw [List.range_succ_eq_map, List.flatMap_cons, List.flatMap_cons, List.flatMap_map, List.flatMap_map, List.append_assoc, List.append_assoc] at h
    obtain ⟨h1, h2⟩ := sep_inj (fmtF_no_comma _) (fmtF_no_comma _) h
    cases k with
    | zero => exact h1
    | succ k => exact ih (f := fun k => f (k + 1)) (g := fun k => g (k + 1)) h2 k (by omega)

/-- a printed value determines a value that has six decimals -/
theorem fmtF_inj {v u : FV} (hv : f32.Good v) (hu : f32.Good u) (h1 : SixDecimals v) (h2 : SixDecimals u) (h : fmtF v = fmtF u) : v = u := by
  obtain ⟨x, x1, x2⟩ := atof_word (fun _ => .nan) (sixDecimals_short h1) (Or.inl rfl : ([] : Text) = [] ∨ ([] : Text) = [','])
  obtain ⟨y, y1, y2⟩ := atof_word (fun _ => .nan) (sixDecimals_short h2) (Or.inl rfl : ([] : Text) = [] ∨ ([] : Text) = [','])
  have a := x1 Mem.empty
  have b := y1 Mem.empty
  rw [h] at a
  have c := a.symm.trans b
  injection c with c
  have d : x = y := congrArg Prod.fst c
  rw [d] at x2
  rw [← readBack_eq hv h1, ← readBack_eq hu h2, ← x2, ← y2]

/-- **C112**, what the report tells: cubes with equal reports have the same geometry, type and order, and their wavelengths agree in six
decimals; wavelengths that six decimals determine are equal.  Missing: other wavelengths, see `C112_refuted_wavelengths`. -/
theorem C112_tells_partial {m m' : Mem} {p p' S S' L L' B B' E E' : Nat} {dt dt' : Int} {lay lay' : Layout} {v v' : Nat → Nat → Nat → Nat → UInt8}
    {w w' : Nat → UInt8} (hc : IsCube m p lay S L B dt E v w) (hc' : IsCube m' p' lay' S' L' B' dt' E' v' w') {t : List Char} {r r' : Mem}
    (h : hyper_mat_showinfo (some p) m = .ok (t, r)) (h' : hyper_mat_showinfo (some p') m' = .ok (t, r')) :
    S = S' ∧ L = L' ∧ B = B' ∧ dt = dt' ∧ lay = lay' ∧ (∀ k, k < B → fmtF (waveAt w k) = fmtF (waveAt w' k)) ∧
      ((∀ k, k < B → SixDecimals (waveAt w k) ∧ SixDecimals (waveAt w' k)) → ∀ t, t < 4 * B → w t = w' t) := by
  rw [C112_report hc] at h
  rw [C112_report hc'] at h'
  injection h with h
  injection h' with h'
  have e := (congrArg Prod.fst h).trans (congrArg Prod.fst h').symm
  dsimp only at e
  unfold infoHead at e
  simp only [List.append_assoc] at e
  obtain ⟨e1, r1⟩ := infoLine_inj (decInt_nl _) (decInt_nl _) e
  obtain ⟨e2, r2⟩ := infoLine_inj (decInt_nl _) (decInt_nl _) r1
  obtain ⟨e3, r3⟩ := infoLine_inj (decInt_nl _) (decInt_nl _) r2
  obtain ⟨e4, r4⟩ := infoLine_inj (decInt_nl _) (decInt_nl _) r3
  obtain ⟨e5, r5⟩ := infoLine_inj (by cases lay <;> decide) (by cases lay' <;> decide) r4
  rw [List.append_cancel_left_eq] at r5
  obtain rfl := decInt_inj e1
  obtain rfl := decInt_inj e2
  obtain rfl := decInt_inj e3
  have e4' : dt = dt' := by
    obtain ⟨a, a1⟩ := elem_nat hc.size
    obtain ⟨b, b1⟩ := elem_nat hc'.size
    rw [a1, b1] at e4 ⊢
    rw [decInt_inj e4]
  refine ⟨rfl, rfl, rfl, e4', tag_inj e5, commaList_inj r5, ?_⟩
  intro hw t ht
  rw [← wave_bytes (w := w) (B := B) (fun k hk => (hw k hk).1) t (by omega), ← wave_bytes (w := w') (B := B) (fun k hk => (hw k hk).2) t (by omega)]
  have hk : t / 4 < B := by omega
  have := fmtF_inj (good_decode f32_std _) (good_decode f32_std _) (hw _ hk).1 (hw _ hk).2 (commaList_inj r5 _ hk)
  unfold encN
  dsimp only
  rw [show waveAt w (t / 4) = waveAt w' (t / 4) from this]

/-- the smallest positive `float` is printed as zero -/
theorem fmtF_tiny : fmtF (f32.decode 1) = fmtF (f32.decode 0) := by
  decide +kernel

/-- **C112 refuted**, small wavelengths: for every geometry, type and order there are two cubes with different wavelengths in all bands that have the same report -/
theorem C112_refuted_wavelengths {S L B E : Nat} {dt : Int} (lay : Layout) (hS : 0 < S) (hL : 0 < L) (hB : 0 < B) (hE : elemBytes dt = some E) :
    ∃ m m' p p' v w w' t, IsCube m p lay S L B dt E v w ∧ IsCube m' p' lay S L B dt E v w' ∧ (∀ k, k < B → waveAt w k ≠ waveAt w' k) ∧
      hyper_mat_showinfo (some p) m = .ok (t, m) ∧ hyper_mat_showinfo (some p') m' = .ok (t, m') := by
  have hw : ∀ x : UInt8, ∀ k, waveAt (fun t => if t % 4 = 0 then x else 0) k = f32.decode x.toNat := by
    intro x k
    unfold waveAt
    have e : (tab 4 fun t => if (k * 4 + t) % 4 = 0 then x else 0) = [x, 0, 0, 0] := by
      simp [tab, List.range_succ]
    rw [e]
    simp [leNat]
  have hc : ∀ x : UInt8, ∃ m p, IsCube m p lay S L B dt E (fun _ _ _ _ => 0) (fun t => if t % 4 = 0 then x else 0) := by
    intro x
    exact ⟨_, _, newCube_isCube (m := Mem.empty) lay hS hL hB hE⟩
  obtain ⟨m, p, h⟩ := hc 1
  obtain ⟨m', p', h'⟩ := hc 0
  refine ⟨m, m', p, p', _, _, _, _, h, h', ?_, C112_report h, ?_⟩
  · intro k _
    rw [hw, hw]
    decide +kernel
  · rw [C112_report h']
    have e : commaList (waveAt fun t => if t % 4 = 0 then (0 : UInt8) else 0) B = commaList (waveAt fun t => if t % 4 = 0 then (1 : UInt8) else 0) B := by
      unfold commaList
      congr 1
      funext k
      rw [hw, hw]
      exact congrArg (· ++ [',']) fmtF_tiny.symm
    rw [e]

/-- a cube whose wavelengths have six decimals, as `C112_report` and `C112_tells_partial` assume -/
example (lay : Layout) : ∃ m p, IsCube m p lay 2 3 4 2 2 demoV demoWave ∧ ∀ k, k < 4 → SixDecimals (waveAt demoWave k) :=
  ⟨_, _, newCube_isCube (m := Mem.empty) lay (by decide) (by decide) (by decide) rfl, fun k _ => demoWave_six k⟩

end HyperCV
