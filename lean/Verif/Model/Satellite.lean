/- Model of modules/satellite/src/satellite_orbit.c.

Simplifications: numbers are real numbers (no rounding of long double or double), so square roots, sines and the like are those of
mathematics.  A quotient by zero and a square root of a negative number, which are NaN or infinite in C, are 0 in Lean; the theorems
have hypotheses that exclude them. -/
import Verif.Base.Sem
import Mathlib.Analysis.SpecialFunctions.Trigonometric.Arctan
import Mathlib.Analysis.SpecialFunctions.Trigonometric.Bounds

namespace HyperCV.Satellite

/-- struct SATELLITE_ORBIT, satellite_orbit.h 32-70 -/
structure Orbit where
  as : ℝ
  es : ℝ
  omega : ℝ
  ws : ℝ
  M0 : ℝ
  i0 : ℝ
  idot : ℝ
  delta_n : ℝ
  toe : ℝ
  t : ℝ
  cus : ℝ
  cuc : ℝ
  crs : ℝ
  crc : ℝ
  cis : ℝ
  cic : ℝ
  omegadot : ℝ
  f : ℝ
  r : ℝ
  n0 : ℝ
  tk : ℝ
  n : ℝ
  Mk : ℝ
  E : ℝ
  phik : ℝ
  corr_u : ℝ
  corr_r : ℝ
  corr_i : ℝ
  uk : ℝ
  ik : ℝ
  omegak : ℝ

/-- struct ECEF, satellite_orbit.h 25-30 -/
structure ECEF where
  ecefx : ℝ
  ecefy : ℝ
  ecefz : ℝ

/-- the parameters of hypercv_create_orbit, satellite_orbit.c 28-44 -/
structure Params where
  as : ℝ
  es : ℝ
  omega : ℝ
  ws : ℝ
  M0 : ℝ
  i0 : ℝ
  idot : ℝ
  delta_n : ℝ
  toe : ℝ
  t : ℝ
  cus : ℝ
  cuc : ℝ
  crs : ℝ
  crc : ℝ
  cis : ℝ
  cic : ℝ
  omegadot : ℝ

/-- bGM84, satellite_orbit.h 11-13 -/
noncomputable def bGM84 : ℝ := 3.986005e14

/-- bOMEGAE84, satellite_orbit.h 15-17 -/
noncomputable def bOMEGAE84 : ℝ := 7.2921151467e-5

/-- satellite_orbit.c 47-63: the parameters are copied into the object -/
def setParams (orb : Orbit) (p : Params) : Orbit :=
  { orb with
    as := p.as, es := p.es, omega := p.omega, ws := p.ws, M0 := p.M0, i0 := p.i0, idot := p.idot, delta_n := p.delta_n,
    toe := p.toe, t := p.t, cus := p.cus, cuc := p.cuc, crs := p.crs, crc := p.crc, cis := p.cis, cic := p.cic,
    omegadot := p.omegadot }

/-- satellite_orbit.c 65-68: mean motion and mean anomaly; `tk` is read and never written -/
noncomputable def setMean (orb : Orbit) : Orbit :=
  let orb := { orb with n0 := Real.sqrt (bGM84 / (orb.as * orb.as * orb.as)) }
  let orb := { orb with n := orb.n0 + orb.delta_n }
  { orb with Mk := orb.M0 + orb.n * orb.tk }

/-- satellite_orbit.c 71: one step of the iteration for the eccentric anomaly -/
noncomputable def keplerStep (orb : Orbit) : Orbit := { orb with E := orb.Mk + orb.es * Real.sin orb.E }

/-- satellite_orbit.c 70-71: `k` steps of the iteration -/
noncomputable def keplerLoop : Nat → Orbit → Orbit
  | 0, orb => orb
  | k + 1, orb => keplerLoop k (keplerStep orb)

/-- satellite_orbit.c 73-86: true anomaly, corrections, radius, inclination and longitude of the node -/
noncomputable def setPosition (orb : Orbit) : Orbit :=
  let orb := { orb with f := 2 * Real.arctan (Real.sqrt ((1 + orb.es) / (1 - orb.es)) * Real.tan orb.E / 2) }
  let orb := { orb with phik := orb.f + orb.ws }
  let orb := { orb with corr_u := orb.cus * Real.sin (2 * orb.phik) + orb.cuc * Real.cos (2 * orb.phik) }
  let orb := { orb with corr_r := orb.crs * Real.sin (2 * orb.phik) + orb.crc * Real.cos (2 * orb.phik) }
  let orb := { orb with corr_i := orb.cis * Real.sin (2 * orb.phik) + orb.cic * Real.cos (2 * orb.phik) }
  let orb := { orb with uk := orb.phik + orb.corr_u }
  let orb := { orb with r := orb.as * (1 - orb.es * Real.cos orb.E) + orb.corr_r }
  let orb := { orb with ik := orb.i0 + orb.idot * orb.tk + orb.corr_i }
  { orb with omegak := orb.omega + (orb.omegadot - bOMEGAE84) * orb.tk - bOMEGAE84 * orb.toe }

/-- satellite_orbit.c 47-86: what the statements of hypercv_create_orbit do with the object `raw` their pointer designates; `raw` is
its contents before -/
noncomputable def fillOrbit (raw : Orbit) (p : Params) : Orbit := setPosition (keplerLoop 10 (setMean (setParams raw p)))

/-- a local pointer (`none`: never assigned, so reading it is undefined) -/
def readLocal {α : Type} : Option α → M α
  | none => fail (.ub .uninit)
  | some a => pure a

/-- hypercv_create_orbit, satellite_orbit.c 28-89.  The local pointer `orb` is declared in 46 and never assigned; 47 reads it. -/
noncomputable def hypercv_create_orbit (p : Params) : M Orbit := do
  let orb : Option Orbit := none
  let raw ← readLocal orb
  pure (fillOrbit raw p)

/-- get_satellite_position_ecef, satellite_orbit.c 91-102 -/
noncomputable def get_satellite_position_ecef (orb : Orbit) : ECEF :=
  { ecefx := orb.r * Real.cos orb.uk * Real.cos orb.omegak - orb.r * Real.sin orb.uk * Real.sin orb.omegak * Real.cos orb.ik
    ecefy := orb.r * Real.cos orb.uk * Real.sin orb.omegak + orb.r * Real.sin orb.uk * Real.cos orb.omegak * Real.cos orb.ik
    ecefz := orb.r * Real.sin orb.uk * Real.sin orb.ik }

end HyperCV.Satellite
