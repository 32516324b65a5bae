/-
Specification of the speed-density fuel equation and of dwell, in rational arithmetic.
-/
import Mathlib.Data.Rat.Defs
import Mathlib.Algebra.Order.Ring.Rat
import Mathlib.Algebra.Order.Field.Rat

namespace Verif

/-- The quantities that enter the injector pulse width. -/
structure FuelTerms where
  /-- volumetric efficiency, percent -/
  ve : ℚ
  /-- manifold pressure, kPa -/
  map : ℚ
  /-- intake air temperature, °C -/
  iat : ℚ
  /-- fuel temperature, °C -/
  frt : ℚ
  /-- commanded lambda -/
  lambda : ℚ
  /-- acceleration enrichment, mm³ -/
  tipin : ℚ
  /-- temperature or cranking enrichment, factor -/
  ete : ℚ
  /-- pulse width correction, ms -/
  pwc : ℚ
  /-- injector dead time, ms -/
  dead : ℚ
  /-- cylinder volume, cc -/
  cyl : ℚ
  /-- air density at 0 °C, g/cc -/
  rho : ℚ
  /-- stoichiometric ratio -/
  stoich : ℚ
  /-- fuel density at 15 °C, g/cc -/
  dens : ℚ
  /-- injector flow, cc per minute -/
  cc : ℚ
  /-- injections per cycle -/
  n : ℚ

namespace FuelTerms
variable (f : FuelTerms)

/-- Air mass in a cylinder, grams: volume times pressure ratio times density at intake temperature. -/
def airMass : ℚ := f.ve / 100 * (f.map / 100) * f.cyl * (f.rho * (27315 / 100 / (f.iat + 27315 / 100)))

/-- Fuel density at fuel temperature. -/
def fuelDensity : ℚ := f.dens - (f.frt - 15) * 950 / 1000000

/-- Fuel volume, cc. -/
def fuelVol : ℚ := f.airMass / f.stoich / f.fuelDensity / f.lambda

/-- Microseconds of injector flow per injection. -/
def rawUs : ℚ := (f.fuelVol + f.tipin / 1000) / f.cc * 60000000 / f.n

/-- The commanded pulse width in microseconds. -/
def pulseUs : ℚ := f.rawUs * f.ete + f.pwc * 1000 + f.dead * 1000

end FuelTerms

end Verif
