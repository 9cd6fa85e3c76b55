/- C51, C69: orbits of satellites (exact arithmetic). -/
import Verif.Model.Satellite
import Verif.Base.Lemmas
import Mathlib.Tactic.Ring
import Mathlib.Tactic.Linarith
import Mathlib.Tactic.NormNum
import Mathlib.Tactic.LinearCombination
import Mathlib.Tactic.FieldSimp

namespace HyperCV
open Satellite

/-! ### C51 -/

/-- **C51**: the position lies on the sphere whose radius is the radius of the orbit, for all angles and radii. -/
theorem C51_norm (orb : Orbit) :
    (get_satellite_position_ecef orb).ecefx ^ 2 + (get_satellite_position_ecef orb).ecefy ^ 2 + (get_satellite_position_ecef orb).ecefz ^ 2
      = orb.r ^ 2 := by
  have h1 := Real.sin_sq_add_cos_sq orb.uk
  have h2 := Real.sin_sq_add_cos_sq orb.omegak
  have h3 := Real.sin_sq_add_cos_sq orb.ik
  simp only [get_satellite_position_ecef]
  linear_combination (orb.r ^ 2 * (Real.cos orb.uk ^ 2 + Real.sin orb.uk ^ 2 * Real.cos orb.ik ^ 2)) * h2
    + orb.r ^ 2 * Real.sin orb.uk ^ 2 * h3 + orb.r ^ 2 * h1

/-- **C51**, with a square root: the Euclidean norm is the radius. -/
theorem C51_distance (orb : Orbit) (h : 0 ≤ orb.r) :
    Real.sqrt ((get_satellite_position_ecef orb).ecefx ^ 2 + (get_satellite_position_ecef orb).ecefy ^ 2
      + (get_satellite_position_ecef orb).ecefz ^ 2) = orb.r := by
  rw [C51_norm, Real.sqrt_sq h]

/-- **C51**, plane: the position lies in the plane through the centre with the inclination `ik` and the node `omegak`, and its angle from
the node in this plane is `uk`. -/
theorem C51_plane (orb : Orbit) :
    let p := get_satellite_position_ecef orb
    p.ecefx * (Real.sin orb.omegak * Real.sin orb.ik) - p.ecefy * (Real.cos orb.omegak * Real.sin orb.ik) + p.ecefz * Real.cos orb.ik = 0 ∧
    p.ecefx * Real.cos orb.omegak + p.ecefy * Real.sin orb.omegak = orb.r * Real.cos orb.uk := by
  have h2 := Real.sin_sq_add_cos_sq orb.omegak
  simp only [get_satellite_position_ecef]
  constructor
  · linear_combination (-(orb.r * Real.sin orb.uk * Real.sin orb.ik * Real.cos orb.ik)) * h2
  · linear_combination (orb.r * Real.cos orb.uk) * h2

/-! ### C69 -/

/-- **C69 refuted**: creating an orbit has undefined behaviour for all parameters (its pointer is never set). -/
theorem C69_refuted (p : Params) (m : Mem) : hypercv_create_orbit p m = .error (.ub .uninit) := rfl

theorem keplerLoop_Mk (k : Nat) : ∀ orb, (keplerLoop k orb).Mk = orb.Mk ∧ (keplerLoop k orb).es = orb.es ∧
    (keplerLoop k orb).tk = orb.tk ∧ (keplerLoop k orb).as = orb.as := by
  induction k with
  | zero => intro orb; exact ⟨rfl, rfl, rfl, rfl⟩
  | succ k ih => intro orb; exact ih (keplerStep orb)

/-- every step of the iteration brings the eccentric anomaly nearer to the solution by the factor of the eccentricity -/
theorem kepler_error {X : ℝ} (k : Nat) : ∀ orb : Orbit, 0 ≤ orb.es → X = orb.Mk + orb.es * Real.sin X →
    |(keplerLoop k orb).E - X| ≤ orb.es ^ k * |orb.E - X| := by
  induction k with
  | zero => intro orb _ _; simp [keplerLoop]
  | succ k ih =>
      intro orb h0 hX
      have h := ih (keplerStep orb) h0 hX
      have h1 : |(keplerStep orb).E - X| ≤ orb.es * |orb.E - X| := by
        have e : (keplerStep orb).E - X = orb.es * (Real.sin orb.E - Real.sin X) := by
          have : (keplerStep orb).E = orb.Mk + orb.es * Real.sin orb.E := rfl
          rw [this]
          linarith
        rw [e, abs_mul, abs_of_nonneg h0]
        exact mul_le_mul_of_nonneg_left (Real.abs_sin_sub_sin_le _ _) h0
      have he : (keplerStep orb).es = orb.es := rfl
      rw [he] at h
      calc |(keplerLoop (k + 1) orb).E - X| = |(keplerLoop k (keplerStep orb)).E - X| := rfl
        _ ≤ orb.es ^ k * |(keplerStep orb).E - X| := h
        _ ≤ orb.es ^ k * (orb.es * |orb.E - X|) := mul_le_mul_of_nonneg_left h1 (pow_nonneg h0 k)
        _ = orb.es ^ (k + 1) * |orb.E - X| := by rw [pow_succ]; ring

theorem fill_parts (raw : Orbit) (p : Params) :
    (fillOrbit raw p).Mk = p.M0 + (Real.sqrt (bGM84 / (p.as * p.as * p.as)) + p.delta_n) * raw.tk ∧
    (fillOrbit raw p).E = (keplerLoop 10 (setMean (setParams raw p))).E ∧ (fillOrbit raw p).es = p.es := by
  have h := keplerLoop_Mk 10 (setMean (setParams raw p))
  exact ⟨h.1, rfl, h.2.1⟩

/-- **C69, partial**, eccentric anomaly: suppose the pointer designated an object, with contents `raw`.  The eccentric anomaly then differs
from each solution of Kepler's equation by at most the tenth power of the eccentricity times the error of the value that happened to
be there. -/
theorem C69_kepler_partial (raw : Orbit) (p : Params) (he : 0 ≤ p.es) {X : ℝ}
    (hX : X - p.es * Real.sin X = (fillOrbit raw p).Mk) : |(fillOrbit raw p).E - X| ≤ p.es ^ 10 * |raw.E - X| := by
  obtain ⟨h1, h2, h3⟩ := fill_parts raw p
  rw [h2]
  have hM : (setMean (setParams raw p)).Mk = (fillOrbit raw p).Mk := h1.symm
  exact kepler_error 10 (setMean (setParams raw p)) he (by rw [hM, ← hX]; show X = X - p.es * Real.sin X + p.es * Real.sin X; ring)

/-- **C69, partial**, radius: without corrections the radius lies between the perigee and the apogee. -/
theorem C69_radius_partial (raw : Orbit) (p : Params) (ha : 0 ≤ p.as) (he : 0 ≤ p.es) (h1 : p.crs = 0) (h2 : p.crc = 0) :
    p.as * (1 - p.es) ≤ (fillOrbit raw p).r ∧ (fillOrbit raw p).r ≤ p.as * (1 + p.es) := by
  have h : (fillOrbit raw p).r = p.as * (1 - p.es * Real.cos (fillOrbit raw p).E) := by
    have e : (fillOrbit raw p).r = p.as * (1 - p.es * Real.cos (fillOrbit raw p).E)
      + (p.crs * Real.sin (2 * (fillOrbit raw p).phik) + p.crc * Real.cos (2 * (fillOrbit raw p).phik)) := rfl
    rw [e, h1, h2]; ring
  rw [h]
  have c1 := Real.cos_le_one (fillOrbit raw p).E
  have c2 := Real.neg_one_le_cos (fillOrbit raw p).E
  constructor
  · apply mul_le_mul_of_nonneg_left _ ha
    nlinarith
  · apply mul_le_mul_of_nonneg_left _ ha
    nlinarith

/-- **C69 refuted**, time: the reduced time is never computed.  Two objects that differ in it before the call differ afterwards, and then
they have different mean anomalies whatever the parameters are (if the mean motion is not 0). -/
theorem C69_refuted_time (raw : Orbit) (s : ℝ) (p : Params) (hn : Real.sqrt (bGM84 / (p.as * p.as * p.as)) + p.delta_n ≠ 0) (h : s ≠ raw.tk) :
    (fillOrbit { raw with tk := s } p).Mk ≠ (fillOrbit raw p).Mk := by
  rw [(fill_parts _ p).1, (fill_parts _ p).1]
  intro e
  exact h (mul_left_cancel₀ hn (add_left_cancel e))

/-- **C69 refuted**, true anomaly: on a circular orbit (eccentricity 0) the true and the eccentric anomaly are the same angle.  They are
not for an object in which the eccentric anomaly is an eighth of a turn: the code halves the tangent and not the angle. -/
theorem C69_refuted_anomaly (orb : Orbit) (he : orb.es = 0) (hE : orb.E = Real.pi / 4) : (setPosition orb).f ≠ orb.E := by
  intro h
  have e : (setPosition orb).f = 2 * Real.arctan (Real.sqrt ((1 + orb.es) / (1 - orb.es)) * Real.tan orb.E / 2) := rfl
  rw [e, he, hE, Real.tan_pi_div_four] at h
  have h2 := congrArg Real.tan h
  rw [Real.tan_two_mul, Real.tan_arctan, Real.tan_pi_div_four] at h2
  norm_num at h2

/-- the object reached by the code on a circular orbit with the given time and mean anomaly is such an object -/
example (raw : Orbit) (h : raw.tk = 0) :
    let p : Params := ⟨7000000, 0, 0, 0, Real.pi / 4, 1, 0, 0, 0, 0, 0, 0, 0, 0, 0, 0, 0⟩
    (fillOrbit raw p).f ≠ (fillOrbit raw p).E := by
  intro p
  refine C69_refuted_anomaly _ (fill_parts raw p).2.2 ?_
  obtain ⟨h1, h2, h3⟩ := fill_parts raw p
  show (keplerLoop 1 (keplerLoop 9 (setMean (setParams raw p)))).E = _
  have h4 := keplerLoop_Mk 9 (setMean (setParams raw p))
  show (keplerLoop 9 (setMean (setParams raw p))).Mk + (keplerLoop 9 (setMean (setParams raw p))).es * _ = _
  rw [h4.1, h4.2.1]
  show p.M0 + (Real.sqrt (bGM84 / (p.as * p.as * p.as)) + p.delta_n) * raw.tk + p.es * _ = _
  rw [h]
  simp [p]

/-- hypotheses of the partial theorems: an orbit of eccentricity 1/10 at the perigee -/
example (raw : Orbit) (h : raw.tk = 0) :
    let p : Params := ⟨7000000, 1 / 10, 0, 0, 0, 1, 0, 0, 0, 0, 0, 0, 0, 0, 0, 0, 0⟩
    (0 : ℝ) ≤ p.es ∧ 0 ≤ p.as ∧ (0 : ℝ) - p.es * Real.sin 0 = (fillOrbit raw p).Mk := by
  intro p
  refine ⟨by norm_num [p], by norm_num [p], ?_⟩
  rw [(fill_parts raw p).1, h]
  simp [p]

end HyperCV
