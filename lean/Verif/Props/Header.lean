/- Headers and files of cubes: C12, C13, C14. -/
import Verif.Proof.Header
import Verif.Proof.FloatBits
import Verif.Proof.HeaderSkip

namespace HyperCV
namespace Spec

/-- the wavelength of band `k`: the `float` in the bytes `4 k ... 4 k + 3` -/
def waveAt (w : Nat → UInt8) (k : Nat) : FV := f32.decode (leNat (tab 4 fun t => w (k * 4 + t)))

/-- a wavelength that six decimals determine: a finite number below 10¹⁰ that is a multiple of 10⁻⁶, or not smaller than 16 (the
neighbours of such a `float` are further away than the error of the sixth decimal) -/
def SixDecimals : FV → Prop
  | .fin _ q => |q| < 10000000000 ∧ ((∃ z : ℤ, q * 1000000 = z) ∨ 16 ≤ |q|)
  | _ => False

/-- number of characters behind the last end of line of a text -/
def lastLine (t : List Char) : Nat := (t.reverse.takeWhile (· ≠ '\n')).length

/-- in the memory `m`, the reader of a header for `B` bands whose last line has `n` characters finds a zero byte behind the
wavelengths: the reader copies them to the second block that it allocates (of `20 B` bytes, not initialised, not terminated) and
takes the length of the string in it -/
def ZeroBehind (m : Mem) (B n : Nat) : Prop := ∃ i, n ≤ i ∧ i < 20 * B ∧ m.junk (m.next + 1) i = 0

/-- reading the image `img` with the header `txt` in the memory `m` gives a new cube, and nothing that existed changes -/
def ReadsAs (other : List Char → Option FV) (img : List UInt8) (txt : List Char) (m : Mem) (lay : Layout) (S L B : Nat) (dt : Int) (E : Nat)
    (v : Nat → Nat → Nat → Nat → UInt8) (w : Nat → UInt8) : Prop :=
  ∃ q m', hmread_with_hdr other (some img) (some txt) m = .ok (some q, m') ∧ IsCube m' q lay S L B dt E v w ∧
    FreshCube m m' q ∧ Frame m m' ∧ m'.WF

end Spec
open Spec

/-! ### Auxiliary facts -/

theorem lastLine_eq {a b : Text} (hb : ∀ c ∈ b, c ≠ '\n') : lastLine (a ++ '\n' :: b) = b.length := by
  unfold lastLine
  rw [List.reverse_append, List.reverse_cons, List.append_assoc, List.takeWhile_append_of_pos]
  · simp
  · intro c hc
    simpa using hb c (List.mem_reverse.1 hc)

theorem sixDecimals_short {v : FV} (h : SixDecimals v) : Short v := by
  cases v with
  | nan => exact h
  | inf => exact h
  | fin s q => exact h.1

theorem readBack_eq {v : FV} (hg : f32.Good v) (h : SixDecimals v) : readBack v = v := by
  cases v with
  | nan => exact absurd h (by simp [SixDecimals])
  | inf => exact absurd h (by simp [SixDecimals])
  | fin s q => exact wave_back hg h.1 h.2

theorem wave_bytes {w : Nat → UInt8} {B : Nat} (hw : ∀ k, k < B → SixDecimals (waveAt w k)) :
    ∀ p, p < B * 4 → encN 4 (fun j => f32.encode (readBack (waveAt w j)) % 256 ^ 4) p = w p := by
  intro p hp
  have hk : p / 4 < B := by omega
  unfold encN
  rw [leByte_mod (Nat.mod_lt _ (by norm_num)), readBack_eq (v := waveAt w (p / 4)) (good_decode f32_std _) (hw _ hk)]
  have hs := hw _ hk
  have hb : leNat (tab 4 fun t => w (p / 4 * 4 + t)) < 2 ^ (f32.t + f32.w + 1) := by
    have := leNat_lt (tab 4 fun t => w (p / 4 * 4 + t))
    rw [tab_length] at this
    exact this
  have he : f32.encode (waveAt w (p / 4)) = leNat (tab 4 fun t => w (p / 4 * 4 + t)) := by
    cases hc : waveAt w (p / 4) with
    | nan => rw [hc] at hs; exact absurd hs (by simp [SixDecimals])
    | inf => rw [hc] at hs; exact absurd hs (by simp [SixDecimals])
    | fin s q => exact encode_decode hb hc
  rw [he, leByte_leNat _ (Nat.mod_lt _ (by norm_num))]
  congr 1; omega

theorem tail_noNl {f : Nat → FV} {B : Nat} (hB : 0 < B) (hf : ∀ j, j < B → Short (f j)) :
    ∀ c ∈ waveTail f 0 (B - 1), c ≠ '\n' := by
  obtain ⟨body, hb1, hb2⟩ := waveTail_split f (B - 1) 0 (fun j _ h2 => hf j (by omega))
  intro c hc
  rw [hb1, List.mem_append, List.mem_singleton] at hc
  rcases hc with hc | rfl
  · exact (hb2 c hc).1
  · decide

theorem lastLine_hdr {S L B dt : Int} {lay : Layout} {t : Text} (ht : ∀ c ∈ t, c ≠ '\n') :
    lastLine (hdrHead S L B dt lay ++ ("wavelength = { \n".toList ++ t)) = t.length := by
  have : hdrHead S L B dt lay ++ ("wavelength = { \n".toList ++ t) = (hdrHead S L B dt lay ++ "wavelength = { ".toList) ++ '\n' :: t := by
    have e : "wavelength = { \n".toList = "wavelength = { ".toList ++ ['\n'] := by decide
    rw [e]; simp only [List.append_assoc, List.cons_append, List.nil_append]
  rw [this, lastLine_eq ht]

theorem natInR {n : Nat} (h : n ≤ 2147483647) : CI.InR (n : Int) := ⟨by omega, by omega⟩

theorem elem_InR {dt : Int} {E : Nat} (h : elemBytes dt = some E) : CI.InR dt := by
  unfold elemBytes at h
  split at h <;> first | decide | exact absurd h (by simp)

/-- reading a header with wavelengths -/
theorem read_waves {other : Text → Option FV} {S L B E : Nat} {dt : Int} {lay : Layout} {w : Nat → UInt8} {img : List UInt8} {m : Mem}
    (hm : m.WF) (hS : 0 < S) (hL : 0 < L) (hB : 0 < B) (hE : elemBytes dt = some E) (hN : S * L * B * E ≤ 2147483647)
    (hSr : S ≤ 2147483647) (hLr : L ≤ 2147483647)
    (h20 : 20 * B ≤ 2147483647) (himg : S * L * B * E ≤ img.length) (hw : ∀ k, k < B → SixDecimals (waveAt w k))
    (hz : ZeroBehind m B (waveTail (waveAt w) 0 (B - 1)).length) :
    ReadsAs other img (hdrHead S L B dt lay ++ ("wavelength = { \n".toList ++ waveTail (waveAt w) 0 (B - 1))) m lay S L B dt E
      (fun i j k t => img.getD (lay.pos S L B i j k * E + t) 0) w := by
  have hf : ∀ j, j < B → Short (waveAt w j) := fun j hj => sixDecimals_short (hw j hj)
  obtain ⟨ls, l1, l2⟩ := collect_tail hB hf
  have hm1 : (m.grow 3 (m.junk m.next)).WF := grow_WF hm _ _
  obtain ⟨m2, r1, r2, r3, r4, r5, r6⟩ := readWave_run other hB h20 hf hm1 (by
    obtain ⟨i, z1, z2, z3⟩ := hz
    exact ⟨i, z1, z2, z3⟩)
  have hr : readhdr other (hdrHead S L B dt lay ++ ("wavelength = { \n".toList ++ waveTail (waveAt w) 0 (B - 1)))
      (m.grow 3 (m.junk m.next)) = .ok ({ hdrState S L B dt lay with item := some "wavelength ".toList, wavelength := some (m.next + 2) }, m2) := by
    rw [head_run other (natInR hSr) (natInR hLr) (natInR (by omega)) (elem_InR hE), l1, List.length_cons]
    have hst : hdrStep other "wavelength = { \n".toList ls (hdrState S L B dt lay) (m.grow 3 (m.junk m.next))
        = .ok (([], { hdrState S L B dt lay with item := some "wavelength ".toList, wavelength := some (m.next + 2) }), m2) := by
      rw [step_wave, l2]
      dsimp only
      rw [bind_ok (show readWave other (hdrState S L B dt lay).bandtemp _ _ = _ from r1)]
      rfl
    rw [hdrLoop_cons _ _ _ _ (by decide) hst, hdrLoop_nil]
  refine hmread_finish hm hr rfl rfl rfl rfl rfl hS hL hB hE hN (by omega) himg ?_ r4 r3 (by rw [r5, grow_next]; omega)
  refine ⟨B * 4, by omega, ?_⟩
  exact r2.congr (wave_bytes hw)

/-! ### C12 -/

/-- **C12**, the fields of the header: whatever `int` values and tag are written, the reader of the header finds the same values. -/
theorem C12_fields {samples lines bands data_type : Int} (lay : Layout) (other : Text → Option FV) (m m2 : Mem)
    (h1 : CI.InR samples) (h2 : CI.InR lines) (h3 : CI.InR bands) (h4 : CI.InR data_type) :
    ∃ txt h, writehdr samples lines bands data_type lay.tag none m = .ok (txt, m) ∧ readhdr other txt m2 = .ok (h, m2) ∧
      h.samples = some samples ∧ h.lines = some lines ∧ h.bands = some bands ∧ h.data_type = some data_type ∧
      h.interleave = lay.tag ∧ h.wavelength = none := by
  obtain ⟨h, r1, r2⟩ := nowave_run other (lay := lay) h1 h2 h3 h4 m2
  exact ⟨_, h, writehdr_none _ _ _ _ lay m, r1, r2⟩

/-- **C12** without wavelengths: a header that is written for an image file is read back, by any later call, as a cube of the same
geometry, type and order with the bytes of the image file; the wavelengths are zero. -/
theorem C12_without_wavelengths {S L B E : Nat} {dt : Int} (lay : Layout) (other : Text → Option FV) (img : List UInt8) (m m2 : Mem)
    (hm2 : m2.WF) (hS : 0 < S) (hL : 0 < L) (hB : 0 < B) (hE : elemBytes dt = some E) (hN : S * L * B * E ≤ 2147483647)
    (hSr : S ≤ 2147483647) (hLr : L ≤ 2147483647)
    (hW : 4 * B ≤ 2147483647) (himg : S * L * B * E ≤ img.length) :
    ∃ txt, writehdr S L B dt lay.tag none m = .ok (txt, m) ∧
      ReadsAs other img txt m2 lay S L B dt E (fun i j k t => img.getD (lay.pos S L B i j k * E + t) 0) (fun _ => 0) := by
  obtain ⟨h, r1, r2, r3, r4, r5, r6, r7⟩ := nowave_run other (lay := lay) (natInR hSr) (natInR hLr)
    (natInR (show B ≤ 2147483647 by omega)) (elem_InR hE) (m2.grow 3 (m2.junk m2.next))
  refine ⟨_, writehdr_none _ _ _ _ lay m, ?_⟩
  refine hmread_finish hm2 r1 r2 r3 r4 r5 r6 hS hL hB hE hN hW himg ?_ (grow_WF hm2 _ _) (fun _ _ => ⟨rfl, rfl, rfl⟩) (by simp)
  rw [r7]
  exact fun _ _ => rfl

/-- **C12, partial**: with wavelengths that six decimals determine, they are read back bit by bit, if the reader happens to find a
zero byte behind them.  Missing: the other case, which is `C12_refuted`. -/
theorem C12_wavelengths_partial {S L B E N wb : Nat} {dt : Int} (lay : Layout) (other : Text → Option FV) (img : List UInt8) {w : Nat → UInt8}
    (m m2 : Mem) (hw : Bytes m wb N w) (hwN : B * 4 ≤ N) (hwd : ∀ k, k < B → SixDecimals (waveAt w k))
    (hm2 : m2.WF) (hS : 0 < S) (hL : 0 < L) (hB : 0 < B) (hE : elemBytes dt = some E) (hN : S * L * B * E ≤ 2147483647)
    (hSr : S ≤ 2147483647) (hLr : L ≤ 2147483647)
    (h20 : 20 * B ≤ 2147483647) (himg : S * L * B * E ≤ img.length) :
    ∃ txt, writehdr S L B dt lay.tag (some wb) m = .ok (txt, m) ∧ (ZeroBehind m2 B (lastLine txt) →
      ReadsAs other img txt m2 lay S L B dt E (fun i j k t => img.getD (lay.pos S L B i j k * E + t) 0) w) := by
  refine ⟨_, writehdr_some S L dt lay hB (by omega) (bytes_iff.1 hw) hwN, ?_⟩
  intro hz
  change ZeroBehind m2 B (lastLine (_ ++ (_ ++ waveTail (waveAt w) 0 (B - 1)))) at hz
  rw [lastLine_hdr (tail_noNl hB fun j hj => sixDecimals_short (hwd j hj))] at hz
  exact read_waves hm2 hS hL hB hE hN hSr hLr h20 himg hwd hz

/-- reading fails without a zero byte behind the wavelengths -/
theorem read_bad {other : Text → Option FV} {S L B : Nat} {dt : Int} {lay : Layout} {w : Nat → UInt8} {img : List UInt8} {m : Mem}
    (hB : 0 < B) (hdt : CI.InR dt) (hSr : S ≤ 2147483647) (hLr : L ≤ 2147483647)
    (h20 : 20 * B ≤ 2147483647) (hw : ∀ k, k < B → SixDecimals (waveAt w k))
    (hz : ¬ ZeroBehind m B (waveTail (waveAt w) 0 (B - 1)).length) :
    hmread_with_hdr other (some img) (some (hdrHead S L B dt lay ++ ("wavelength = { \n".toList ++ waveTail (waveAt w) 0 (B - 1)))) m
      = .error (.ub .oob) := by
  have hf : ∀ j, j < B → Short (waveAt w j) := fun j hj => sixDecimals_short (hw j hj)
  obtain ⟨ls, l1, l2⟩ := collect_tail hB hf
  unfold hmread_with_hdr
  rw [bind_ok (malloc_run _ _)]
  dsimp only
  apply bind_err
  rw [head_run other (natInR hSr) (natInR hLr) (natInR (by omega)) hdt, l1, List.length_cons]
  refine hdrLoop_err (line := "wavelength = { \n".toList) _ _ _ _ (by decide) ?_
  rw [step_wave, l2]
  apply bind_err
  exact readWave_bad other hB h20 hf (fun i i1 i2 i3 => hz ⟨i, i1, i2, i3⟩)

/-- **C12 refuted**: if there is no zero byte behind the wavelengths, reading the header that has just been written runs over the end
of a buffer. -/
theorem C12_refuted {S L B N wb : Nat} {dt : Int} (lay : Layout) (other : Text → Option FV) (img : List UInt8) {w : Nat → UInt8}
    (m m2 : Mem) (hw : Bytes m wb N w) (hwN : B * 4 ≤ N) (hwd : ∀ k, k < B → SixDecimals (waveAt w k))
    (hB : 0 < B) (hdt : CI.InR dt) (hSr : S ≤ 2147483647) (hLr : L ≤ 2147483647) (h20 : 20 * B ≤ 2147483647) :
    ∃ txt, writehdr S L B dt lay.tag (some wb) m = .ok (txt, m) ∧ (¬ ZeroBehind m2 B (lastLine txt) →
      hmread_with_hdr other (some img) (some txt) m2 = .error (.ub .oob)) := by
  refine ⟨_, writehdr_some S L dt lay hB (by omega) (bytes_iff.1 hw) hwN, ?_⟩
  intro hz
  change ¬ ZeroBehind m2 B (lastLine (_ ++ (_ ++ waveTail (waveAt w) 0 (B - 1)))) at hz
  rw [lastLine_hdr (tail_noNl hB fun j hj => sixDecimals_short (hwd j hj))] at hz
  exact read_bad hB hdt hSr hLr h20 hwd hz

/-- both cases occur: memory that is full of zeros, and memory that is full of ones -/
example : ZeroBehind Mem.empty 4 40 ∧ ¬ ZeroBehind { Mem.empty with junk := fun _ _ => 1 } 4 40 := by
  refine ⟨⟨40, by norm_num, by norm_num, rfl⟩, ?_⟩
  rintro ⟨i, _, _, h⟩
  exact absurd (show (1 : UInt8) = 0 from h) (by decide)

/-- the wavelengths 500 and 656.3 (as a `float`), and a wavelength that six decimals do not determine: 2⁻²⁰ -/
example : SixDecimals (f32.decode 0x43FA0000) ∧ SixDecimals (f32.decode 0x44241333) ∧ ¬ SixDecimals (f32.decode 0x35800000) := by
  have e1 : f32.decode 0x43FA0000 = .fin false 500 := by
    norm_num [Fmt.decode, f32, Fmt.emin]
  have e2 : f32.decode 0x44241333 = .fin false (10752819 / 16384) := by
    norm_num [Fmt.decode, f32, Fmt.emin]
  have e3 : f32.decode 0x35800000 = .fin false (1 / 1048576) := by
    norm_num [Fmt.decode, f32, Fmt.emin]
  rw [e1, e2, e3]
  refine ⟨⟨by norm_num, Or.inr (by norm_num)⟩, ⟨by norm_num, Or.inr (by norm_num)⟩, ?_⟩
  rintro ⟨_, ⟨z, hz⟩ | h⟩
  · have h1 : (z : ℚ) < 1 := by rw [← hz]; norm_num
    have h2 : (0 : ℚ) < z := by rw [← hz]; norm_num
    have h3 : z < 1 := by exact_mod_cast h1
    have h4 : 0 < z := by exact_mod_cast h2
    omega
  · norm_num at h

/-! ### C14 -/

/-- saving a cube -/
theorem save_run {m : Mem} {p S L B E : Nat} {dt : Int} {lay : Layout} {v : Nat → Nat → Nat → Nat → UInt8} {w : Nat → UInt8}
    (hc : IsCube m p lay S L B dt E v w) (hN : S * L * B * E ≤ 2147483647) (hBr : B ≤ 2147483647) :
    ∃ img, hmsave (some p) m = .ok ((img, hdrHead S L B dt lay ++ ("wavelength = { \n".toList ++ waveTail (waveAt w) 0 (B - 1))), m) ∧
      img.length = S * L * B * E ∧
      ∀ i j k t, i < L → j < S → k < B → t < E → img.getD (lay.pos S L B i j k * E + t) 0 = v i j k t := by
  obtain ⟨h1, h2, h3, h4, hdr, wb, f, o1, o2, o3, o4, o5, o6, o7, o8, o9, o10, o11⟩ := hc
  obtain ⟨e1, e2, e3⟩ := get_elemsize_eq h1
  have hSLB : S * L * B ≤ 2147483647 := le_trans (Nat.le_mul_of_pos_right _ e2) hN
  have hSL : S * L ≤ 2147483647 := le_trans (Nat.le_mul_of_pos_right _ h4) hSLB
  have eds : (CI.lit (S : Int) * CI.lit (L : Int) * CI.lit (B : Int) : CI) = CI.lit ((S * L * B : Nat) : Int) := by
    rw [CI.mul_ok, CI.mul_ok]
    · push_cast; rfl
    · have : ((S : Int) * L * B) = ((S * L * B : Nat) : Int) := by push_cast; rfl
      rw [this]; constructor <;> omega
    · have : ((S : Int) * L) = ((S * L : Nat) : Int) := by push_cast; rfl
      rw [this]; constructor <;> omega
  refine ⟨tab (S * L * B * E) f, ?_, by simp, ?_⟩
  · unfold hmsave
    rw [nonNull_some, bind_ok (getH_ok o1)]
    rw [o2, o3, o4, o5, o6, o7, ev_bind eds, e1, if_neg (by omega)]
    have en : ((E : Int) * ((S * L * B : Nat) : Int)).toNat = S * L * B * E := by
      rw [← Nat.cast_mul, Int.toNat_natCast, Nat.mul_comm]
    have hlb := loadBytes_ok (bytes_iff.1 o9) (S * L * B * E) 0 (by omega)
    simp only [Nat.zero_add] at hlb
    rw [en, bind_ok (show loadBytes hdr.data (S * L * B * E) 0 m = _ from hlb)]
    rw [bind_ok (writehdr_some S L dt lay h4 hBr (bytes_iff.1 o10) (by omega))]
    rfl
  · intro i j k t hi hj hk ht
    rw [← o11 i j k t hi hj hk ht]
    have hb : lay.pos S L B i j k * E + t < S * L * B * E := by
      obtain ⟨l, b1, b2, b3⟩ := o9
      have := byte_lt lay (E := E) hi hj hk; omega
    rw [List.getD_eq_getElem?_getD, tab_get? _ hb]
    rfl

/-- **C14, partial**: a cube that is saved and read again, in any later state, is the same cube: same header, same elements, same
wavelengths, if six decimals determine these and the reader finds a zero byte behind them.  Missing: the other cases; see
`C14_refuted`. -/
theorem C14_save_load_partial {m : Mem} {p S L B E : Nat} {dt : Int} {lay : Layout} {v : Nat → Nat → Nat → Nat → UInt8} {w : Nat → UInt8}
    (hc : IsCube m p lay S L B dt E v w) (hN : S * L * B * E ≤ 2147483647) (h20 : 20 * B ≤ 2147483647)
    (hwd : ∀ k, k < B → SixDecimals (waveAt w k)) :
    ∃ img txt, hmsave (some p) m = .ok ((img, txt), m) ∧ ∀ (other : Text → Option FV) (m2 : Mem), m2.WF →
      ZeroBehind m2 B (lastLine txt) → ReadsAs other img txt m2 lay S L B dt E v w := by
  obtain ⟨img, s1, s2, s3⟩ := save_run hc hN (by omega)
  refine ⟨img, _, s1, ?_⟩
  intro other m2 hm2 hz
  rw [lastLine_hdr (tail_noNl hc.posB fun j hj => sixDecimals_short (hwd j hj))] at hz
  have hE := get_elemsize_eq hc.size
  have hSLB : S * L * B ≤ 2147483647 := le_trans (Nat.le_mul_of_pos_right _ hE.2.1) hN
  have hSL : S * L ≤ 2147483647 := le_trans (Nat.le_mul_of_pos_right _ hc.posB) hSLB
  have hSr : S ≤ 2147483647 := le_trans (Nat.le_mul_of_pos_right _ hc.posL) hSL
  have hLr : L ≤ 2147483647 := le_trans (Nat.le_mul_of_pos_left _ hc.posS) hSL
  obtain ⟨q, m', r1, r2, r3⟩ := read_waves (other := other) (lay := lay) (img := img) hm2 hc.posS hc.posL hc.posB hc.size hN hSr hLr h20
    (by omega) hwd hz
  refine ⟨q, m', r1, ?_, r3⟩
  obtain ⟨h1, h2, h3, h4, hdr, wb, f, o1, o2, o3, o4, o5, o6, o7, o8, o9, o10, o11⟩ := r2
  refine ⟨h1, h2, h3, h4, hdr, wb, f, o1, o2, o3, o4, o5, o6, o7, o8, o9, o10, ?_⟩
  intro i j k t hi hj hk ht
  rw [o11 i j k t hi hj hk ht, s3 i j k t hi hj hk ht]

/-- **C14 refuted**: every such cube, if the memory that the reader gets contains no zero byte behind the wavelengths, is saved and
cannot be read again: the reader runs over the end of a buffer. -/
theorem C14_refuted {m : Mem} {p S L B E : Nat} {dt : Int} {lay : Layout} {v : Nat → Nat → Nat → Nat → UInt8} {w : Nat → UInt8}
    (hc : IsCube m p lay S L B dt E v w) (hN : S * L * B * E ≤ 2147483647) (h20 : 20 * B ≤ 2147483647)
    (hwd : ∀ k, k < B → SixDecimals (waveAt w k)) :
    ∃ img txt, hmsave (some p) m = .ok ((img, txt), m) ∧ ∀ (other : Text → Option FV) (m2 : Mem),
      ¬ ZeroBehind m2 B (lastLine txt) → hmread_with_hdr other (some img) (some txt) m2 = .error (.ub .oob) := by
  obtain ⟨img, s1, s2, s3⟩ := save_run hc hN (by omega)
  refine ⟨img, _, s1, ?_⟩
  intro other m2 hz
  rw [lastLine_hdr (tail_noNl hc.posB fun j hj => sixDecimals_short (hwd j hj))] at hz
  have hE := get_elemsize_eq hc.size
  have hSLB : S * L * B ≤ 2147483647 := le_trans (Nat.le_mul_of_pos_right _ hE.2.1) hN
  have hSL : S * L ≤ 2147483647 := le_trans (Nat.le_mul_of_pos_right _ hc.posB) hSLB
  exact read_bad hc.posB (elem_InR hc.size) (le_trans (Nat.le_mul_of_pos_right _ hc.posL) hSL)
    (le_trans (Nat.le_mul_of_pos_left _ hc.posS) hSL) h20 hwd hz

/-- wavelengths of four bands: 500 (0x43FA0000) each -/
def demoWave (t : Nat) : UInt8 := if t % 4 = 3 then 0x43 else if t % 4 = 2 then 0xFA else 0

theorem demoWave_six (k : Nat) : SixDecimals (waveAt demoWave k) := by
  have e : (tab 4 fun t => demoWave (k * 4 + t)) = [0, 0, 0xFA, 0x43] := by
    have h : ∀ t, (k * 4 + t) % 4 = t % 4 := by intro t; omega
    simp [tab, demoWave, h, List.range_succ]
  have e1 : f32.decode (leNat [0, 0, 0xFA, 0x43]) = .fin false 500 := by
    have e2 : leNat [0, 0, 0xFA, 0x43] = 0x43FA0000 := by decide
    rw [e2]
    norm_num [Fmt.decode, f32, Fmt.emin]
  unfold waveAt
  rw [e, e1]
  exact ⟨by norm_num, Or.inr (by norm_num)⟩

/-- a cube with these wavelengths satisfies the hypotheses of `C12_wavelengths_partial`, `C14_save_load_partial` and
`C14_refuted` -/
example (lay : Layout) : ∃ m p, IsCube m p lay 2 3 4 2 2 demoV demoWave ∧ 2 * 3 * 4 * 2 ≤ 2147483647 ∧ 20 * 4 ≤ 2147483647 ∧
    ∀ k, k < 4 → SixDecimals (waveAt demoWave k) :=
  ⟨_, _, newCube_isCube (m := Mem.empty) lay (by decide) (by decide) (by decide) rfl, by decide, by decide,
    fun k _ => demoWave_six k⟩

/-! ### C13 -/

/-- the words by which the reader recognises the entries that it needs -/
def Spec.hdrWords : List (List Char) := ["samples".toList, "lines".toList, "bands".toList, "data".toList, "interleave".toList]

/-- the line `l` of a header is unrelated to the cube: what is in front of its first `=` neither begins with one of the five words
nor is the beginning of one, and the line does not start the wavelengths -/
def Spec.Unrelated (l : List Char) : Prop :=
  (∀ k ∈ Spec.hdrWords, ¬ k <+: l.takeWhile (· ≠ '=') ∧ ¬ l.takeWhile (· ≠ '=') <+: k) ∧ ¬ "wavelength = {".toList <+: l

theorem cmpstr_ne {a b : Text} (ha : ∀ c ∈ a, c ≠ '\x00') (hb : ∀ c ∈ b, c ≠ '\x00') (h1 : ¬ b <+: a) (h2 : ¬ a <+: b) :
    cmpstr a b ≠ 1 := by
  intro h
  rw [cmpstr_iff, cstr_of ha, cstr_of hb] at h
  rcases h with h | h
  · exact h2 h
  · exact h1 h

theorem takeWhile_sub {l : Text} {p : Char → Bool} : ∀ c ∈ l.takeWhile p, c ∈ l :=
  fun _ hc => (List.takeWhile_prefix p).subset hc

/-- the end of line belongs to the keyword if there is no `=` -/
theorem key_nl (l : Text) : keyOf (l ++ ['\n']) = l.takeWhile (· ≠ '=') ∨ keyOf (l ++ ['\n']) = l.takeWhile (· ≠ '=') ++ ['\n'] := by
  unfold keyOf
  induction l with
  | nil => right; rfl
  | cons c l ih =>
    rw [List.cons_append]
    by_cases hc : c = '='
    · left; subst hc; simp
    · have e : ∀ r : Text, (c :: r).takeWhile (fun x => decide (x ≠ '=')) = c :: r.takeWhile (fun x => decide (x ≠ '=')) := by
        intro r; simp [hc]
      rw [e, e]
      rcases ih with h | h
      · left; rw [h]
      · right; rw [h]; rfl

/-- a word without an end of line is the beginning of a line if and only if it is the beginning without the end of line -/
theorem prefix_nl {k l : Text} (hk : ∀ c ∈ k, c ≠ '\n') (h : k <+: l ++ ['\n']) : k <+: l := by
  obtain ⟨r, hr⟩ := h
  rcases List.eq_nil_or_concat r with rfl | ⟨r', x, rfl⟩
  · exfalso
    rw [List.append_nil] at hr
    exact hk '\n' (by rw [hr]; simp) rfl
  · rw [List.concat_eq_append, ← List.append_assoc] at hr
    exact ⟨r', (List.append_inj' hr rfl).1⟩

/-- **C13, partial**: a line that is unrelated to the cube may be put into a header, or removed from it, anywhere before the
wavelengths: every call that reads the header has the same result and the same effect.  `t1` are the lines before it and `t2` is
what follows.  Missing: lines whose keyword begins with one of the five words (see `C13_refuted`); for
positions behind the wavelengths see `C13_any_position_partial`. -/
theorem C13_ignored_line_partial (other : Text → Option FV) (image : Option (List UInt8)) {t1 l t2 : List Char}
    (ht1 : t1 = [] ∨ ∃ s, t1 = s ++ ['\n']) (h0 : '\x00' ∉ t1) (hw1 : ¬ "wavelength = {".toList <:+: t1)
    (hnl : '\n' ∉ l) (hl0 : '\x00' ∉ l) (hlen : l.length < 9999) (hu : Unrelated l)
    (ht2 : ∀ c, t2.head? = some c → c ≠ '=' ∧ c ≠ '\x00') (m : Mem) :
    hmread_with_hdr other image (some (t1 ++ (l ++ '\n' :: t2))) m = hmread_with_hdr other image (some (t1 ++ t2)) m := by
  have hlc : ∀ c ∈ l, c ≠ '\n' := fun c hc e => hnl (e ▸ hc)
  have hlz : ∀ c ∈ l, c ≠ '\x00' := fun c hc e => hl0 (e ▸ hc)
  have hlz' : ∀ c ∈ l ++ ['\n'], c ≠ '\x00' := by
    intro c hc
    rw [List.mem_append, List.mem_singleton] at hc
    rcases hc with hc | rfl
    · exact hlz c hc
    · decide
  have hkw : ∀ k ∈ hdrWords, (∀ c ∈ k, c ≠ '\x00') ∧ ∀ c ∈ k, c ≠ '\n' := by decide
  have hne : l.takeWhile (· ≠ '=') ≠ [] := by
    intro e
    exact (hu.1 "samples".toList (by decide)).2 (by rw [e]; exact List.nil_prefix)
  have hkne : keyOf (l ++ ['\n']) ≠ [] := by
    rcases key_nl l with h | h <;> rw [h]
    · exact hne
    · simp
  cases image with
  | none => rfl
  | some img =>
    unfold hmread_with_hdr
    rw [bind_ok (malloc_run _ _), bind_ok (malloc_run _ _)]
    dsimp only
    refine readhdr_skip other _ (fun h a => rfl) ht1 ?_ hlc hlen hlz hkne ?_ ?_ ?_ _
    · intro a ha
      have h0' : ∀ c ∈ a, c ≠ '\x00' := by
        rcases ht1 with rfl | ⟨s, rfl⟩
        · simp [fgetsLines, fgetsAux] at ha
        · have := (fgetsAux_full s 9999 [] (by simp) (by norm_num) a ha).2
          intro c hc e
          exact h0 (e ▸ (by simpa using this.subset hc))
      rw [cstr_of h0']
      rcases ht1 with rfl | ⟨s, rfl⟩
      · simp [fgetsLines, fgetsAux] at ha
      · obtain ⟨f1, f2⟩ := fgetsAux_full s 9999 [] (by simp) (by norm_num) a ha
        refine cmpstr_ne h0' (by decide) ?_ ?_
        · intro hp
          exact hw1 ((hp.isInfix).trans (by simpa using f2))
        · intro hp
          rcases f1 with f1 | f1
          · exact absurd (hp.subset f1) (by decide)
          · have := hp.length_le
            have e : "wavelength = {".toList.length = 14 := rfl
            omega
    · intro k hk
      refine cmpstr_ne (fun c hc => hlz' c (takeWhile_sub c hc)) (hkw k hk).1 ?_ ?_
      · intro hp
        rcases key_nl l with h | h <;> rw [h] at hp
        · exact (hu.1 k hk).1 hp
        · exact (hu.1 k hk).1 (prefix_nl (hkw k hk).2 hp)
      · intro hp
        rcases key_nl l with h | h <;> rw [h] at hp
        · exact (hu.1 k hk).2 hp
        · exact absurd rfl ((hkw k hk).2 '\n' (hp.subset (by simp)))
    · refine cmpstr_ne hlz' (by decide) ?_ ?_
      · intro hp
        exact hu.2 (prefix_nl (by decide) hp)
      · intro hp
        exact absurd (hp.subset (show '\n' ∈ l ++ ['\n'] by simp)) (by decide)
    · intro a ha
      cases t2 with
      | nil => simp [fgetsLines, fgetsAux] at ha
      | cons c t =>
        obtain ⟨c1, c2⟩ := ht2 c rfl
        obtain ⟨r, hr⟩ : ∃ r, a = c :: r := by
          have hd : ∀ (s acc : Text) (room : Nat) (x : Char), acc.getLast? = some x → ∀ a, (fgetsAux room acc s).head? = some a →
              a.head? = some x := by
            intro s
            induction s with
            | nil =>
              intro acc room x hx a ha
              simp only [fgetsAux] at ha
              split at ha
              · rename_i hn; subst hn; simp at hx
              · simp at ha; subst ha; simpa using hx
            | cons y s ih =>
              intro acc room x hx a ha
              have hx' : (y :: acc).getLast? = some x := by
                rw [List.getLast?_cons, hx]; rfl
              simp only [fgetsAux] at ha
              split at ha
              · simp only [List.head?_cons, Option.some.injEq] at ha
                subst ha
                rw [List.head?_reverse]; exact hx'
              · exact ih _ _ x hx' a ha
          have : a.head? = some c := by
            unfold fgetsLines at ha
            simp only [fgetsAux] at ha
            split at ha
            · simp at ha; subst ha; rfl
            · exact hd t [c] _ c rfl a ha
          cases a with
          | nil => simp at this
          | cons z r => simp at this; exact ⟨r, by rw [this]⟩
        subst hr
        unfold keyOf cstr
        simp [c1, c2]

/-- keywords of the ENVI format -/
def Spec.enviKeywords : List (List Char) :=
  ["acquisition time".toList, "band names".toList, "bbl".toList, "byte order".toList, "class lookup".toList, "class names".toList,
   "classes".toList, "cloud cover".toList, "complex function".toList, "coordinate system string".toList, "default bands".toList,
   "default stretch".toList, "dem band".toList, "dem file".toList, "description".toList, "file type".toList, "fwhm".toList,
   "geo points".toList, "header offset".toList, "major frame offsets".toList, "map info".toList, "minor frame offsets".toList,
   "pixel size".toList, "product type".toList, "projection info".toList, "read procedures".toList,
   "reflectance scale factor".toList, "rpc info".toList, "security tag".toList, "sensor type".toList, "solar irradiance".toList,
   "spectra names".toList, "sun azimuth".toList, "sun elevation".toList, "timestamp".toList, "wavelength units".toList,
   "x start".toList, "y start".toList, "z plot average".toList, "z plot range".toList, "z plot titles".toList]

/-- **C13** for the other keywords of the ENVI format: whatever their values, such a line makes no difference. -/
theorem C13_standard_keywords_partial (other : Text → Option FV) (image : Option (List UInt8)) {t1 k val t2 : List Char}
    (hk : k ∈ enviKeywords)
    (ht1 : t1 = [] ∨ ∃ s, t1 = s ++ ['\n']) (h0 : '\x00' ∉ t1) (hw1 : ¬ "wavelength = {".toList <:+: t1)
    (hnl : '\n' ∉ val) (hl0 : '\x00' ∉ val) (hlen : val.length < 9900)
    (ht2 : ∀ c, t2.head? = some c → c ≠ '=' ∧ c ≠ '\x00') (m : Mem) :
    hmread_with_hdr other image (some (t1 ++ (k ++ " = ".toList ++ val ++ '\n' :: t2))) m
      = hmread_with_hdr other image (some (t1 ++ t2)) m := by
  have hfacts : ∀ k ∈ enviKeywords, '\n' ∉ k ∧ '\x00' ∉ k ∧ '=' ∉ k ∧ k.length ≤ 24 ∧
      (∀ w ∈ hdrWords, ¬ w <+: k ++ [' '] ∧ ¬ k ++ [' '] <+: w) ∧ ¬ "wavelength = ".toList <+: k ++ " = ".toList ∧
      ¬ k ++ " = ".toList <+: "wavelength = {".toList := by
    decide +kernel
  obtain ⟨f1, f2, f3, f4, f5, f6, f7⟩ := hfacts k hk
  have e3 : " = ".toList = [' ', '=', ' '] := rfl
  refine C13_ignored_line_partial other image ht1 h0 hw1 ?_ ?_ ?_ ⟨?_, ?_⟩ ht2 m
  · simp [e3, f1, hnl]
  · simp [e3, f2, hl0]
  · simp [e3]; omega
  · have e : (k ++ " = ".toList ++ val).takeWhile (· ≠ '=') = k ++ [' '] := by
      have : k ++ " = ".toList ++ val = (k ++ [' ']) ++ '=' :: ' ' :: val := by rw [e3]; simp
      rw [this, List.takeWhile_append_of_pos]
      · simp
      · intro c hc
        have : c ≠ '=' := by
          rintro rfl
          rw [List.mem_append] at hc
          rcases hc with hc | hc
          · exact f3 hc
          · exact absurd hc (by decide)
        simpa using this
    rw [e]
    exact f5
  · intro hp
    rcases le_total (k ++ " = ".toList).length "wavelength = {".toList.length with hle | hle
    · exact f7 (List.prefix_of_prefix_length_le (List.prefix_append _ _) hp hle)
    · have h2 := List.prefix_of_prefix_length_le hp (List.prefix_append (k ++ " = ".toList) val) hle
      exact f6 ((by decide : "wavelength = ".toList <+: "wavelength = {".toList).trans h2)

/-- **C13 refuted**: an image of any type whose header says which value marks missing data is read as an image of another type: the
value is taken for the type. -/
theorem C13_refuted {S L B E : Nat} {dt x : Int} (lay : Layout) (other : Text → Option FV) (img : List UInt8) (m : Mem)
    (hm : m.WF) (hS : 0 < S) (hL : 0 < L) (hB : 0 < B) (hdt : CI.InR dt) (hE : elemBytes x = some E) (hN : S * L * B * E ≤ 2147483647)
    (hSr : S ≤ 2147483647) (hLr : L ≤ 2147483647)
    (hW : 4 * B ≤ 2147483647) (himg : S * L * B * E ≤ img.length) :
    ∃ head, writehdr S L B dt lay.tag none m = .ok (head ++ "wavelength = unknown \n".toList, m) ∧
      ReadsAs other img (head ++ ("data ignore value = ".toList ++ decInt x ++ ['\n']) ++ "wavelength = unknown \n".toList) m lay S L B x E
        (fun i j k t => img.getD (lay.pos S L B i j k * E + t) 0) (fun _ => 0) := by
  refine ⟨_, writehdr_none _ _ _ _ lay m, ?_⟩
  have hx : CI.InR x := elem_InR hE
  have e0 : ("data ignore value = ".toList ++ decInt x ++ ['\n']) = numLine "data ignore value ".toList x := rfl
  have hstep : ∀ rest h m, hdrStep other (numLine "data ignore value ".toList x) rest h m
      = .ok ((rest, { h with item := some "data ignore value ".toList, datatypetemp := x, data_type := some x }), m) := by
    intro rest h m
    unfold hdrStep numLine
    rw [bind_ok (item_run h m (by decide) (by decide))]
    dsimp only
    rw [if_neg (by decide), if_neg (by decide), if_neg (by decide), if_pos (by decide),
      bind_ok (scanField_key (by decide) (by decide) hx nl_not_digit m)]
    rfl
  have hr : ∀ m, readhdr other (hdrHead S L B dt lay ++ ("data ignore value = ".toList ++ decInt x ++ ['\n']) ++
      "wavelength = unknown \n".toList) m = .ok ({ hdrState S L B dt lay with
        item := some "wavelength ".toList, datatypetemp := x, data_type := some x }, m) := by
    intro m
    rw [List.append_assoc, head_run other (natInR hSr) (natInR hLr) (natInR (show B ≤ 2147483647 by omega)) hdt]
    have e : fgetsLines (("data ignore value = ".toList ++ decInt x ++ ['\n']) ++ "wavelength = unknown \n".toList)
        = [numLine "data ignore value ".toList x, "wavelength = unknown \n".toList] := by
      have e1 : fgetsLines "wavelength = unknown \n".toList = ["wavelength = unknown \n".toList] :=
        fgets_line (l := "wavelength = unknown ".toList) (rest := []) (by decide) (short_line (by decide))
      rw [e0, line_fgets (by decide) (by decide) hx, e1]
    rw [e]
    show hdrLoop other (1 + 1) _ _ _ = _
    rw [hdrLoop_cons _ _ _ _ (numLine_cstr (by decide)) (hstep _ _ _), hdrLoop_cons _ _ _ _ (by decide) (step_nowave _ _ _ _), hdrLoop_nil]
  exact hmread_finish hm (hr _) rfl rfl rfl rfl rfl hS hL hB hE hN hW himg (fun _ _ => rfl) (grow_WF hm _ _) (fun _ _ => ⟨rfl, rfl, rfl⟩) (by simp)

/-- a line that satisfies the hypotheses of `C13_ignored_line_partial`, and two that do not -/
example : Unrelated "byte order = 0".toList ∧ Unrelated "  two lines of text}".toList ∧ ¬ Unrelated "data ignore value = 4".toList ∧
    ¬ Unrelated "wavelength = {".toList := by
  unfold Unrelated
  decide +kernel

/-- the values of `C13_refuted` for a byte image and the value 4 (the type `float`) -/
example : elemBytes 1 = some 1 ∧ elemBytes 4 = some 4 ∧ decInt 4 = "4".toList := by
  refine ⟨rfl, rfl, by simp [decInt, decNat]; decide⟩

/-! ### C67 -/

theorem fread_short {d N : Nat} {img : List UInt8} {g : Nat → UInt8} {m : Mem} (hd : Holds m d N g) :
    freadInto d img N m = .ok ((), m.put d N (fun i => if i < img.length then img.getD i 0 else g i)) := by
  unfold freadInto
  rw [show min (img.length : Int) (N : Int) = ((min img.length N : Nat) : Int) by omega]
  have hF : Fills (forI 0 ((min img.length N : Nat) : Int) fun i => store d i (img.getD i.toNat 0)) m d N (fun i => img.getD i 0)
      (fun p => ∃ i, i < min img.length N ∧ p = i) :=
    Fills.loop fun i hi => Fills.store (by omega) (by simp)
  classical
  rw [hF.run hd]
  refine congrArg (fun x => Except.ok ((), x)) (put_congr _ _ _ ?_)
  intro p hp
  by_cases h : p < img.length
  · rw [if_pos ⟨p, by omega, rfl⟩, if_pos h]
  · rw [if_neg (by rintro ⟨i, h1, h2⟩; omega), if_neg h]

/-- **C67, partial**: a cube that is read with given sizes has the given geometry, type and order and contains the bytes of the
file.  What the file does not provide is not zero: the elements behind the end of the file, and all wavelengths, are what the new
blocks happened to contain. -/
theorem C67_read_with_size_partial {S L B E : Nat} {dt : Int} (lay : Layout) (img : List UInt8) (m : Mem)
    (hm : m.WF) (hS : 0 < S) (hL : 0 < L) (hB : 0 < B) (hE : elemBytes dt = some E) (hN : S * L * B * E ≤ 2147483647)
    (hW : 4 * B ≤ 2147483647) :
    ∃ q m', hmread_with_size (some img) S L B dt lay.tag m = .ok (some q, m') ∧
      IsCube m' q lay S L B dt E
        (fun i j k t => if lay.pos S L B i j k * E + t < img.length then img.getD (lay.pos S L B i j k * E + t) 0
          else m.junk m.next (lay.pos S L B i j k * E + t)) (m.junk (m.next + 1)) ∧
      FreshCube m m' q ∧ Frame m m' ∧ m'.WF := by
  obtain ⟨e1, e2, e3⟩ := get_elemsize_eq hE
  have hSLB : S * L * B ≤ 2147483647 := le_trans (Nat.le_mul_of_pos_right _ e2) hN
  have hSL : S * L ≤ 2147483647 := le_trans (Nat.le_mul_of_pos_right _ hB) hSLB
  have eds : (CI.lit (S : Int) * CI.lit (L : Int) * CI.lit (B : Int) : CI) = CI.lit ((S * L * B : Nat) : Int) := by
    rw [CI.mul_ok, CI.mul_ok]
    · push_cast; rfl
    · have : ((S : Int) * L * B) = ((S * L * B : Nat) : Int) := by push_cast; rfl
      rw [this]; constructor <;> omega
    · have : ((S : Int) * L) = ((S * L : Nat) : Int) := by push_cast; rfl
      rw [this]; constructor <;> omega
  have en : ((S * L * B : Nat) : Int) * (E : Int) = ((S * L * B * E : Nat) : Int) := by push_cast; rfl
  unfold hmread_with_size
  rw [cassert_bind (by rw [decide_eq_true_eq]; omega)]
  dsimp only
  rw [ev_bind eds, e1, if_neg (by omega), bind_ok (malloc_run _ _), en, Int.toNat_natCast, Int.toNat_natCast]
  set m3 := m.grow (S * L * B * E) (m.junk m.next) with hm3
  have w3 : m3.WF := grow_WF hm _ _
  rw [bind_ok (fread_short (grow_holds m _ _))]
  set m4 := m3.put m.next (S * L * B * E) (fun i => if i < img.length then img.getD i 0 else m.junk m.next i) with hm4
  have w4 : m4.WF := put_WF w3 (by show m.next < m.next + 1; omega)
  rw [bind_ok (malloc_run _ _)]
  have n4 : m4.next = m.next + 1 := rfl
  set m5 := m4.grow (B * 4) (m4.junk m4.next) with hm5
  have w5 : m5.WF := grow_WF w4 _ _
  have hd5 : Holds m5 m.next (S * L * B * E) (fun i => if i < img.length then img.getD i 0 else m.junk m.next i) :=
    Holds.grow w4 (holds_put _ _ _ _)
  have hw5 : Holds m5 m4.next (B * 4) (m.junk (m.next + 1)) := grow_holds m4 _ _
  obtain ⟨q, m6, c1, c2, c3, c4, c5⟩ := C06_create w5 (lay := lay) hS hL hB hE hN hW (data := some m.next) (wave := some m4.next)
    (f := fun i => if i < img.length then img.getD i 0 else m.junk m.next i) (w := m.junk (m.next + 1))
    ⟨_, le_refl _, bytes_iff.2 hd5⟩ ⟨B * 4, by omega, bytes_iff.2 hw5⟩
  have hf5 : Frame m m5 := by
    intro h hh
    have h1 : h ≠ m.next := by omega
    refine ⟨?_, rfl, rfl⟩
    rw [hm5, grow_blk_ne _ _ _ (by omega), hm4, put_blk_ne _ _ _ h1, hm3, grow_blk_ne _ _ _ h1]
  have n5 : m5.next = m.next + 2 := rfl
  refine ⟨q, m6, c1, c2, ?_, ?_, c5⟩
  · intro h ho
    have := c3 h ho
    omega
  · intro h hh
    obtain ⟨a1, a2, a3⟩ := hf5 h hh
    obtain ⟨b1, b2, b3⟩ := c4 h (by omega)
    exact ⟨b1.trans a1, b2.trans a2, b3.trans a3⟩

/-- **C67 refuted**: the wavelengths of the result depend on what the memory contained before: there are two calls with the same
arguments, differing only in uninitialised memory, whose results have different wavelengths. -/
theorem C67_refuted (lay : Layout) :
    ∃ (m1 m2 : Mem) (img : List UInt8) (q1 q2 : Nat) (r1 r2 : Mem) (v1 v2 : Nat → Nat → Nat → Nat → UInt8),
      m1.WF ∧ m2.WF ∧ m1.blk = m2.blk ∧ m1.next = m2.next ∧
      hmread_with_size (some img) 1 1 1 1 lay.tag m1 = .ok (some q1, r1) ∧ hmread_with_size (some img) 1 1 1 1 lay.tag m2 = .ok (some q2, r2) ∧
      IsCube r1 q1 lay 1 1 1 1 1 v1 (fun _ => 0) ∧ IsCube r2 q2 lay 1 1 1 1 1 v2 (fun _ => 1) := by
  have w1 : Mem.empty.WF := by intro h _; exact ⟨rfl, rfl, rfl⟩
  have w2 : ({ Mem.empty with junk := fun _ _ => 1 } : Mem).WF := by intro h _; exact ⟨rfl, rfl, rfl⟩
  obtain ⟨q1, r1, a1, a2, _⟩ := C67_read_with_size_partial (S := 1) (L := 1) (B := 1) (dt := 1) (E := 1) lay [7] Mem.empty w1 (by decide)
    (by decide) (by decide) rfl (by decide) (by decide)
  obtain ⟨q2, r2, b1, b2, _⟩ := C67_read_with_size_partial (S := 1) (L := 1) (B := 1) (dt := 1) (E := 1) lay [7]
    { Mem.empty with junk := fun _ _ => 1 } w2 (by decide) (by decide) (by decide) rfl (by decide) (by decide)
  exact ⟨_, _, _, _, _, _, _, _, _, w1, w2, rfl, rfl, a1, b1, a2, b2⟩

/-- the hypotheses of `C67_read_with_size_partial` are met by a cube of 16-bit elements whose file is too short -/
example : elemBytes 2 = some 2 ∧ 2 * 3 * 4 * 2 ≤ 2147483647 ∧ Mem.empty.WF := ⟨rfl, by decide, by intro h _; exact ⟨rfl, rfl, rfl⟩⟩

end HyperCV
