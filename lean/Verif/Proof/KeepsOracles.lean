import Verif.Model.Geometric
import Verif.Model.Threshold
import Verif.Model.ImageProcess
import Verif.Model.Gradient

namespace HyperCV

/-- a computation changes neither the addresses of what is allocated nor the contents of fresh storage -/
def KeepsOracles {α : Type} (x : M α) : Prop := ∀ m a m', x m = .ok (a, m') → m'.addr = m.addr ∧ m'.junk = m.junk

namespace KeepsOracles
variable {α β : Type}

theorem pure (a : α) : KeepsOracles (Pure.pure a : M α) := by
  rintro m b m' h
  cases h
  exact ⟨rfl, rfl⟩

theorem fail (e : Err) : KeepsOracles (HyperCV.fail e : M α) := by
  rintro m b m' h
  cases h

theorem bind {x : M α} {f : α → M β} (hx : KeepsOracles x) (hf : ∀ a, KeepsOracles (f a)) : KeepsOracles (x >>= f) := by
  intro m b m' h
  have h : (match x m with
    | .error e => Except.error e
    | .ok (a, m1) => f a m1) = .ok (b, m') := h
  cases hm : x m with
  | error e => rw [hm] at h; cases h
  | ok r =>
    obtain ⟨a, m1⟩ := r
    rw [hm] at h
    obtain ⟨h1, h2⟩ := hf a m1 b m' h
    obtain ⟨h3, h4⟩ := hx m a m1 hm
    exact ⟨h1.trans h3, h2.trans h4⟩

theorem ite {p : Prop} [Decidable p] {x y : M α} (hx : KeepsOracles x) (hy : KeepsOracles y) : KeepsOracles (if p then x else y) := by
  split
  · exact hx
  · exact hy

theorem cassert (c : Bool) : KeepsOracles (cassert c) := by
  unfold HyperCV.cassert
  exact ite (pure _) (fail _)

theorem ev (x : CI) : KeepsOracles (ev x) := by
  intro m a m' h
  unfold HyperCV.ev at h
  split at h <;> cases h
  exact ⟨rfl, rfl⟩

theorem load (d : Nat) (i : Int) : KeepsOracles (load d i) := by
  intro m a m' h
  unfold HyperCV.load at h
  repeat' split at h
  all_goals cases h
  all_goals exact ⟨rfl, rfl⟩

theorem store (d : Nat) (i : Int) (v : UInt8) : KeepsOracles (store d i v) := by
  intro m a m' h
  unfold HyperCV.store at h
  repeat' split at h
  all_goals cases h
  all_goals exact ⟨rfl, rfl⟩

theorem getS (p : Nat) : KeepsOracles (getS p) := by
  intro m a m' h
  unfold HyperCV.getS at h
  split at h <;> cases h
  exact ⟨rfl, rfl⟩

theorem getH (p : Nat) : KeepsOracles (getH p) := by
  intro m a m' h
  unfold HyperCV.getH at h
  split at h <;> cases h
  exact ⟨rfl, rfl⟩

theorem setS (p : Nat) (s : SimpleMat) : KeepsOracles (setS p s) := by
  intro m a m' h
  unfold HyperCV.setS at h
  split at h <;> cases h
  exact ⟨rfl, rfl⟩

theorem derefS (p : Option Nat) : KeepsOracles (derefS p) := by
  cases p
  · exact fail _
  · exact getS _

theorem derefH (p : Option Nat) : KeepsOracles (derefH p) := by
  cases p
  · exact fail _
  · exact getH _

theorem nonNull (p : Option Nat) : KeepsOracles (nonNull p) := by
  cases p
  · exact fail _
  · exact pure _

theorem forLoop {σ : Type} {body : Int → σ → M σ} (h : ∀ i s, KeepsOracles (body i s)) :
    ∀ n i s, KeepsOracles (forLoop body n i s) := by
  intro n
  induction n with
  | zero => intro i s; exact pure s
  | succ n ih => intro i s; exact bind (h i s) (fun s' => ih (i+1) s')

theorem forI {lo hi : Int} {body : Int → M Unit} (h : ∀ i, KeepsOracles (body i)) : KeepsOracles (forI lo hi body) :=
  forLoop (fun i _ => h i) _ _ _

theorem memcpy (dst : Nat) (doff : Int) (src : Nat) (soff n : Int) : KeepsOracles (memcpy dst doff src soff n) := by
  unfold HyperCV.memcpy
  exact ite (fail _) (ite (fail _) (forI fun t => bind (load _ _) (fun v => store _ _ _)))

theorem forA {σ : Type} {lo hi : Int} {s : σ} {body : Int → σ → M σ} (h : ∀ i s, KeepsOracles (body i s)) : KeepsOracles (forA lo hi s body) :=
  forLoop h _ _ _

theorem loadBytes (h : Nat) : ∀ (n : Nat) (i : Int), KeepsOracles (loadBytes h n i)
  | 0, _ => pure _
  | n+1, i => bind (load _ _) fun _ => bind (loadBytes h n (i+1)) fun _ => pure _

theorem loadN (w h : Nat) (i : Int) : KeepsOracles (loadN w h i) := bind (loadBytes _ _ _) fun _ => pure _

theorem storeBytes (h : Nat) : ∀ (n v : Nat) (i : Int), KeepsOracles (storeBytes h v n i)
  | 0, _, _ => pure _
  | n+1, v, i => bind (store _ _ _) fun _ => storeBytes h n (v / 256) (i+1)

theorem storeN (w h : Nat) (i : Int) (v : Nat) : KeepsOracles (storeN w h i v) := storeBytes _ _ _ _

theorem malloc (n : Nat) : KeepsOracles (malloc n) := by
  rintro m a m' h
  cases h
  exact ⟨rfl, rfl⟩

theorem newS (s : SimpleMat) : KeepsOracles (newS s) := by
  rintro m a m' h
  cases h
  exact ⟨rfl, rfl⟩

theorem free (p : Nat) : KeepsOracles (free p) := by
  intro m a m' h
  unfold HyperCV.free at h
  split at h <;> cases h
  exact ⟨rfl, rfl⟩

theorem freeImage (p : Nat) (s : SimpleMat) : KeepsOracles (freeImage p s) := by
  rintro m a m' h
  cases h
  exact ⟨rfl, rfl⟩

theorem memset (d : Nat) (o : Int) (v : UInt8) (n : Int) : KeepsOracles (memset d o v n) := by
  unfold HyperCV.memset
  exact ite (fail _) (forI fun t => store _ _ _)

theorem borderM (p len b : Int) : KeepsOracles (borderM p len b) := by
  intro m a m' h
  unfold HyperCV.borderM at h
  split at h <;> cases h
  exact ⟨rfl, rfl⟩

theorem delete (p : Option Nat) : KeepsOracles (delete_simple_mat p) := by
  cases p with
  | none => exact pure _
  | some p =>
    intro m a m' h
    unfold delete_simple_mat at h
    dsimp only at h
    split at h
    · cases h
    · split at h
      · exact freeImage _ _ m a m' h
      · split at h
        · cases h
        · exact bind (free _) (fun _ => freeImage _ _) m a m' h

end KeepsOracles

/-- decompose a computation -/
macro "keeps_oracles" : tactic => `(tactic|
  repeat' first
    | exact KeepsOracles.pure _ | exact KeepsOracles.fail _ | exact KeepsOracles.cassert _ | exact KeepsOracles.ev _ | exact KeepsOracles.load _ _
    | exact KeepsOracles.store _ _ _ | exact KeepsOracles.getS _ | exact KeepsOracles.getH _ | exact KeepsOracles.setS _ _ | exact KeepsOracles.derefS _
    | exact KeepsOracles.derefH _ | exact KeepsOracles.nonNull _ | exact KeepsOracles.memcpy _ _ _ _ _ | exact KeepsOracles.memset _ _ _ _ | exact KeepsOracles.malloc _ | exact KeepsOracles.newS _
    | exact KeepsOracles.loadN _ _ _ | exact KeepsOracles.storeN _ _ _ _ | exact KeepsOracles.borderM _ _ _ | exact KeepsOracles.delete _
    | apply KeepsOracles.bind | apply KeepsOracles.forI | apply KeepsOracles.forA | apply KeepsOracles.ite | intro _)

theorem transport_oracles (r s : Option Nat) : KeepsOracles (simple_mat_transport r s) := by
  unfold simple_mat_transport
  keeps_oracles

theorem flipH_oracles (r s : Option Nat) : KeepsOracles (simple_mat_flip_horizontal r s) := by
  unfold simple_mat_flip_horizontal
  keeps_oracles

theorem flipV_oracles (r s : Option Nat) : KeepsOracles (simple_mat_flip_vertical r s) := by
  unfold simple_mat_flip_vertical
  keeps_oracles

theorem create_oracles (R C dt ch : Int) : KeepsOracles (create_simple_mat R C dt ch) := by
  unfold create_simple_mat create_simple_mat_with_data
  dsimp only
  keeps_oracles

theorem copy_oracles (p : Option Nat) : KeepsOracles (simple_mat_copy p) := by
  unfold simple_mat_copy
  refine .bind (.derefS _) fun _ => .bind (create_oracles _ _ _ _) fun _ => ?_
  keeps_oracles

theorem flip_oracles (r s : Option Nat) (code : Int) : KeepsOracles (simple_mat_flip r s code) := by
  unfold simple_mat_flip
  refine .bind (.nonNull _) fun _ => .bind (.nonNull _) fun _ => .bind (.getS _) fun _ => .bind (.getS _) fun _ => .bind (.cassert _) fun _ => ?_
  exact .ite (flipH_oracles r s) (.ite (flipV_oracles r s) (.ite (.bind (copy_oracles _) fun _ => .bind (flipH_oracles _ _) fun _ =>
    .bind (flipV_oracles _ _) fun _ => .delete _) (flipH_oracles r s)))

theorem thresholdLoop_oracles (f : Int → Int) (r s : Option Nat) : KeepsOracles (thresholdLoop f r s) := by
  unfold thresholdLoop
  keeps_oracles

theorem otsuIndex_oracles (t : FV) : KeepsOracles (otsuIndex t) := by
  unfold otsuIndex
  split
  · exact .fail _
  · exact .ite (.pure _) (.fail _)

theorem otsu_oracles (r s : Option Nat) : KeepsOracles (hypercv_threshold_otsu r s) := by
  unfold hypercv_threshold_otsu
  refine .bind (.nonNull _) fun _ => .bind (.nonNull _) fun _ => .bind (.getS _) fun _ => .bind (.getS _) fun _ => .bind (.cassert _) fun _ =>
    .bind (.cassert _) fun _ => .bind (.cassert _) fun _ => .bind ?_ fun _ => .bind (.ev _) fun _ => .forI fun _ => .bind (.load _ _) fun _ => .store _ _ _
  unfold otsuThreshold
  refine .bind (.derefS _) fun _ => .bind (.ev _) fun _ => .bind ?_ fun _ => .pure _
  unfold otsuHist
  exact .bind (.ev _) fun _ => .forA fun _ _ => .forA fun _ _ => .bind (.ev _) fun _ => .bind (.load _ _) fun _ => .bind (.ev _) fun _ =>
    .bind (.load _ _) fun _ => .bind (.ev _) fun _ => .bind (.load _ _) fun _ => .bind (otsuIndex_oracles _) fun _ => .pure _

theorem threshold_oracles (r s : Option Nat) (t x mode : Int) : KeepsOracles (hypercv_threshold r s t x mode) := by
  unfold hypercv_threshold
  refine .bind (.nonNull _) fun _ => .bind (.nonNull _) fun _ => .bind (.cassert _) fun _ => ?_
  exact .ite (thresholdLoop_oracles _ _ _) (.ite (thresholdLoop_oracles _ _ _) (.ite (thresholdLoop_oracles _ _ _) (.ite (thresholdLoop_oracles _ _ _)
    (.ite (thresholdLoop_oracles _ _ _) (.ite (.pure _) (.ite (otsu_oracles _ _) (.pure _)))))))

theorem extract_oracles (r s : Option Nat) (b : Int) : KeepsOracles (hyper_mat_2_simple_mat r s b) := by
  unfold hyper_mat_2_simple_mat
  keeps_oracles

theorem addition_oracles (a b d : Option Nat) : KeepsOracles (simple_mat_addition_uchar a b d) := by
  unfold simple_mat_addition_uchar
  keeps_oracles

theorem tapIndex_oracles (p len b : Int) : KeepsOracles (tapIndex p len b) := by
  unfold tapIndex
  keeps_oracles

theorem sobel_oracles (a b : Option Nat) (t e : Int) : KeepsOracles (hypercv_sobel a b t e) := by
  unfold hypercv_sobel sobelPixel sobelTap
  repeat' first | exact tapIndex_oracles _ _ _ | keeps_oracles

theorem laplacian_oracles (a b : Option Nat) (k e : Int) : KeepsOracles (hypercv_laplacian a b k e) := by
  unfold hypercv_laplacian lapPixel lapTap
  repeat' first | exact tapIndex_oracles _ _ _ | keeps_oracles

end HyperCV
