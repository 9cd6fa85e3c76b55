/- C109, the array of wavelengths of the C++ header reader when the wavelengths are separated by blanks. -/
import Verif.Props.HyHeader
import Verif.Proof.HyWaves

namespace HyperCV
open Spec HyMat

/-- **C109**, the array of wavelengths, the part that holds: if the header lists the wavelengths with a blank behind each comma, `readHdr`
with an array gives the geometry, and the array holds the wavelength of every band.  Missing: the headers that `save` writes, which have no
blanks, see `C109_refuted_array`. -/
theorem C109_array_partial (other : List Char → FV) {S L B E : Nat} {dt : Int} (lay : Layout) (hS : S ≤ 2147483647) (hL : L ≤ 2147483647)
    (hB : 0 < B) (hBr : B ≤ 2147483647) (hE : elemBytes dt = some E) {w : Nat → UInt8} (hw : ∀ k, k < B → SixDecimals (waveAt w k))
    {ls : List (List Char)} (hls : ∀ l ∈ ls, Harmless l) (before : HdrVars) (m : Mem) (p : Nat) (old : Nat → UInt8) (hp : Bytes m p (B * 4) old) :
    ∃ m', readHdr other (some (enviHeader S L B dt lay ++ textOf ls ++ spacedWaves (waveAt w) B)) before (some p) m
        = .ok (⟨some (S : Int), some (L : Int), some (B : Int), some dt, lay.code⟩, m') ∧
      Bytes m' p (B * 4) w ∧ OnlyBlock m m' p := by
  rw [bytes_iff] at hp
  have hf : ∀ j, j < B → Short (waveAt w j) := fun j hj => sixDecimals_short (hw j hj)
  obtain ⟨c, rfl⟩ : ∃ c, B = c + 1 := ⟨B - 1, by omega⟩
  have hch := spacedList_char (waveAt w) c 0 (fun j _ h => hf j (by omega))
  set body := spacedList (waveAt w) 0 c with hbody
  have hno : ∀ x : Char, x ≠ ' ' → x ≠ ',' → x ≠ '-' → x ≠ '.' → isDigitC x = false → x ∉ body := by
    intro x h1 h2 h3 h4 h5 hx
    rcases hch x hx with e | e | e | e | e
    · exact h1 e
    · exact h2 e
    · exact h3 e
    · exact h4 e
    · rw [h5] at e; exact absurd e (by simp)
  have hput : m = m.putN p 4 (c + 1) (fun j => leNat (tab 4 fun t => old (j * 4 + t))) := by
    have e : Holds m p ((c + 1) * 4) (encN 4 (fun j => leNat (tab 4 fun t => old (j * 4 + t)))) := by
      refine hp.congr ?_
      intro q hq
      have : q = q / 4 * 4 + q % 4 := by omega
      conv_rhs => rw [this]
      rw [encN_at _ (Nat.mod_lt _ (by norm_num)), leByte_leNat _ (Nat.mod_lt _ (by norm_num)), ← this]
    exact (Holds.put_self e).symm
  have hl : getlines (spacedWaves (waveAt w) (c + 1)) = ["wavelength = {".toList ++ " ".toList, body ++ ['}']] := by
    have e : spacedWaves (waveAt w) (c + 1) = ("wavelength = {".toList ++ " ".toList) ++ '\n' :: (body ++ ['}']) := by
      unfold spacedWaves
      rw [show "wavelength = { \n".toList = ("wavelength = {".toList ++ " ".toList) ++ ['\n'] by decide, List.append_assoc, List.append_assoc, Nat.add_sub_cancel]
      rfl
    rw [e, getlines_line (by decide), getlines_last _ (by simp)]
    intro d hd
    rcases List.mem_append.1 hd with hd | hd
    · intro e; exact hno '\n' (by decide) (by decide) (by decide) (by decide) (by decide) (e ▸ hd)
    · simp at hd; rw [hd]; decide
  have hcol : collectBraced ("wavelength = {".toList ++ " ".toList) [body ++ ['}']] = (' ' :: body, []) := by
    have e : braced ("wavelength = {".toList ++ " ".toList) = " ".toList := by decide
    unfold collectBraced
    rw [if_neg (by decide), e]
    unfold collectBraced
    dsimp only
    rw [braced_plain (hno '{' (by decide) (by decide) (by decide) (by decide) (by decide)) (hno '}' (by decide) (by decide) (by decide) (by decide) (by decide))]
    rfl
  have hread := head_read other (some p) lay hS hL hBr (elem_InR hE) hls (spacedWaves (waveAt w) (c + 1)) before m
  refine ⟨m.putN p 4 (c + 1) fun j => f32.encode (readBack (waveAt w j)) % 256 ^ 4, ?_, ?_, ?_⟩
  · rw [hread, hl]
    simp only [List.length_cons, List.length_nil]
    have hst := storeWaves_spaced other (f := waveAt w) (p := p) (c := c) (fun j hj => hf j (by omega)) (m := m)
      (a := fun j => leNat (tab 4 fun t => old (j * 4 + t)))
    rw [← hput] at hst
    have hround : hdrRound other (some p) ("wavelength = {".toList ++ " ".toList) [body ++ ['}']]
        ⟨some (S : Int), some (L : Int), some ((c + 1 : Nat) : Int), some dt, lay.code⟩ m
        = .ok (([], ⟨some (S : Int), some (L : Int), some ((c + 1 : Nat) : Int), some dt, lay.code⟩),
          m.putN p 4 (c + 1) fun j => f32.encode (readBack (waveAt w j)) % 256 ^ 4) := by
      rw [round_wave _ _ _ _ _ (by decide) rfl, hcol]
      exact bind_ok hst
    rw [rounds_cons _ _ _ _ _ hround, rounds_nil]
  · rw [bytes_iff]
    have h := (holdsN_putN m (h := p) (w := 4) (n := c + 1) (a := fun j => f32.encode (readBack (waveAt w j)) % 256 ^ 4)
      (fun _ _ => Nat.mod_lt _ (by norm_num))).1
    refine Holds.congr h ?_
    intro q hq
    have hb := wave_bytes (w := w) (B := c + 1) hw q hq
    rw [← hb]
  · exact ⟨rfl, rfl, rfl, fun x hx => put_blk_ne _ _ _ hx⟩

/-- the hypotheses of `C109_array_partial` are met: four wavelengths, a line without meaning and an array of 16 bytes -/
example : (∀ k, k < 4 → SixDecimals (waveAt demoWave k)) ∧ Harmless "byte order = 0".toList ∧
    ∃ m p old, Bytes m p (4 * 4) old :=
  ⟨fun k _ => demoWave_six k, harmless_lines.2.2.2, Mem.empty.grow 16 (fun _ => 0), _, _, bytes_iff.2 (grow_holds Mem.empty _ _)⟩

end HyperCV
