import Mathlib.Tactic.FieldSimp
import Mathlib.Tactic.NormNum
import Mathlib.Tactic.Positivity
import Mathlib.Tactic.Linarith
import Verif.Spec.Constants
import Verif.Model.Problems

/-!
# C95: units and constants
-/

namespace Heracles

open BaseUnits

local macro "dims" : tactic => `(tactic| (
  intro b hk hm hs ht
  simp only [kg2, m2, m3, s2, K4, density, velocity, acc, pressure, joule, newton, watt, evol, eint, kb, mp, c, G,
    hplanck, eV, MeV, amu, ua, Msun, Rsun, Lsun, minute, hour, day, year, Myrs, Gyrs, pc, kpc, Mpc, pascal,
    zpow_neg, zpow_ofNat, zpow_one, zpow_zero]
  have := hk.ne'; have := hm.ne'; have := hs.ne'; have := ht.ne'
  field_simp
  try norm_num))

/-- C95: the units of mechanics and the constants of physics and astronomy of the SI are the numbers of the quantities they name
in any base units: each has the value and the dimension of its name. The Boltzmann and Planck constants, the speed of light and
the electronvolt are the exact values of the SI of 2019. -/
theorem C95_si :
    IsQuantity density { mass := 1, length := -3 } 1 ∧ IsQuantity velocity { length := 1, time := -1 } 1 ∧
    IsQuantity acc { length := 1, time := -2 } 1 ∧ IsQuantity pressure { mass := 1, length := -1, time := -2 } 1 ∧
    IsQuantity joule { mass := 1, length := 2, time := -2 } 1 ∧ IsQuantity newton { mass := 1, length := 1, time := -2 } 1 ∧
    IsQuantity watt { mass := 1, length := 2, time := -3 } 1 ∧ IsQuantity evol { mass := 1, length := -1, time := -2 } 1 ∧
    IsQuantity eint { length := 2, time := -2 } 1 ∧ IsQuantity pascal { mass := 1, length := -1, time := -2 } 1 ∧
    IsQuantity kb { mass := 1, length := 2, time := -2, temp := -1 } 1.380649e-23 ∧
    IsQuantity c { length := 1, time := -1 } 299792458 ∧
    IsQuantity G { mass := -1, length := 3, time := -2 } 6.6743015e-11 ∧
    IsQuantity hplanck { mass := 1, length := 2, time := -1 } 6.62607015e-34 ∧
    IsQuantity eV { mass := 1, length := 2, time := -2 } 1.602176634e-19 ∧
    IsQuantity MeV { mass := 1, length := 2, time := -2 } 1.602176634e-13 ∧
    IsQuantity amu { mass := 1 } 1.66053906660e-27 ∧ IsQuantity mp { mass := 1 } 1.672649e-27 := by
  refine ⟨?_, ?_, ?_, ?_, ?_, ?_, ?_, ?_, ?_, ?_, ?_, ?_, ?_, ?_, ?_, ?_, ?_, ?_⟩ <;> dims

/-- C95: the units of time and of astronomy: a day has 86400 seconds, a year 365.25 days, the multiples of the year and of the parsec
are what their prefixes say. -/
theorem C95_astronomy :
    IsQuantity minute { time := 1 } 60 ∧ IsQuantity hour { time := 1 } 3600 ∧ IsQuantity day { time := 1 } 86400 ∧
    IsQuantity year { time := 1 } (365.25 * 86400) ∧ IsQuantity Myrs { time := 1 } (1000000 * (365.25 * 86400)) ∧
    IsQuantity Gyrs { time := 1 } (1000000000 * (365.25 * 86400)) ∧
    IsQuantity pc { length := 1 } 3.085677581e16 ∧ IsQuantity kpc { length := 1 } (1000 * 3.085677581e16) ∧
    IsQuantity Mpc { length := 1 } (1000000 * 3.085677581e16) ∧ IsQuantity ua { length := 1 } 1.49597870e11 ∧
    IsQuantity Msun { mass := 1 } 1.9885e30 ∧ IsQuantity Rsun { length := 1 } 6.96342e8 ∧
    IsQuantity Lsun { mass := 1, length := 2, time := -3 } 3.8268e26 := by
  refine ⟨?_, ?_, ?_, ?_, ?_, ?_, ?_, ?_, ?_, ?_, ?_, ?_, ?_⟩ <;> dims

/-- C95: the quantities of the cgs system and the Hubble constant are right in the base units of the code, kilogram, metre and second. -/
theorem C95_cgs_shipped :
    gram shippedUnits = 1 / 1000 ∧ cm shippedUnits = 1 / 100 ∧ densCgs shippedUnits = 1000 ∧ cmS shippedUnits = 1 / 100 ∧
    accCgs shippedUnits = 1 / 100 ∧ pressCgs shippedUnits = 1 / 10 ∧ erg shippedUnits = 1 / 10 ^ 7 ∧
    dyne shippedUnits = 1 / 10 ^ 5 ∧ evolCgs shippedUnits = 1 / 10 ∧ eintCgs shippedUnits = 1 / 10 ^ 4 ∧
    H0 shippedUnits = 72000 / (1000000 * 3.085677581e16) := by
  simp only [gram, cm, cm2, cm3, densCgs, cmS, accCgs, pressCgs, erg, dyne, evolCgs, eintCgs, H0, Mpc, kpc, pc, s2, shippedUnits]
  norm_num

/-- Nothing is the number of a quantity whose numbers in the base units `b` and in those of the code are not in the ratio its dimension gives. -/
theorem not_isQuantity {q : BaseUnits → ℝ} {D : Dim} (b : BaseUnits) (hk : 0 < b.kg) (hm : 0 < b.m) (hs : 0 < b.s) (ht : 0 < b.kelvin)
    (h : q b ≠ q shippedUnits * b.kg ^ D.mass * b.m ^ D.length * b.s ^ D.time * b.kelvin ^ D.temp) (v : ℝ) :
    ¬ IsQuantity q D v := by
  intro hq
  apply h
  have h1 := hq shippedUnits (by norm_num [shippedUnits]) (by norm_num [shippedUnits]) (by norm_num [shippedUnits])
    (by norm_num [shippedUnits])
  simp only [shippedUnits, one_zpow, mul_one] at h1
  rw [hq b hk hm hs ht, ← h1]
  rfl

/-- Base units of half a kilogram and a third of a metre: a kilogram is 2 and a metre is 3. -/
def smallUnits : BaseUnits := { kg := 2, m := 3, s := 1, kelvin := 1 }

local macro "nodims" : tactic => `(tactic| (
  intro v
  refine not_isQuantity smallUnits ?_ ?_ ?_ ?_ ?_ v <;>
  · simp only [gram, cm, cm2, cm3, densCgs, cmS, accCgs, pressCgs, erg, dyne, evolCgs, eintCgs, s2, smallUnits, shippedUnits]
    norm_num))

/-- C95 violated: lines 44-45 divide the gram and the centimetre by the size of the kilogram and of the metre instead of multiplying
by it. In other base units none of the quantities of the cgs system has the dimension of its name. -/
theorem C95_cgs_violated (v : ℝ) :
    ¬ IsQuantity gram { mass := 1 } v ∧ ¬ IsQuantity cm { length := 1 } v ∧
    ¬ IsQuantity densCgs { mass := 1, length := -3 } v ∧ ¬ IsQuantity cmS { length := 1, time := -1 } v ∧
    ¬ IsQuantity accCgs { length := 1, time := -2 } v ∧ ¬ IsQuantity erg { mass := 1, length := 2, time := -2 } v ∧
    ¬ IsQuantity dyne { mass := 1, length := 1, time := -2 } v ∧ ¬ IsQuantity eintCgs { length := 2, time := -2 } v ∧
    ¬ IsQuantity pressCgs { mass := 1, length := -1, time := -2 } v ∧ ¬ IsQuantity evolCgs { mass := 1, length := -1, time := -2 } v := by
  refine ⟨?_, ?_, ?_, ?_, ?_, ?_, ?_, ?_, ?_, ?_⟩ <;> revert v <;> nodims

/-- Base units of half a second and half a kelvin. -/
def fastUnits : BaseUnits := { kg := 1, m := 1, s := 2, kelvin := 2 }

/-- C95 violated: line 94 has no time in the Hubble constant, which has the dimension 1 / time. -/
theorem C95_hubble_violated (v : ℝ) : ¬ IsQuantity H0 { time := -1 } v := by
  refine not_isQuantity fastUnits ?_ ?_ ?_ ?_ ?_ v <;>
  · simp only [H0, Mpc, kpc, pc, fastUnits, shippedUnits]
    norm_num

/-- The value of the radiative constant in SI units. -/
theorem ar_shipped : ar shippedUnits = aR := by
  simp only [ar, aR, pi5, kb4, hplanck3, c3, c2, kb, hplanck, c, velocity, joule, m2, m3, s2, K4, kB, hPlanck, cLight, shippedUnits]
  norm_num
  ring

/-- C95: the radiative constant of the code is the one of physics, `7.5657e-16 J / (m³ K⁴)`, in the base units of the code. -/
theorem C95_radiative_shipped : |ar shippedUnits - 7.5657e-16| < 1e-20 := by
  have h1 := Real.pi_gt_d20
  have h2 := Real.pi_lt_d20
  have h5 : (3.14159265358979323846 : ℝ) ^ 5 < Real.pi ^ 5 := pow_lt_pow_left₀ h1 (by norm_num) (by norm_num)
  have h6 : Real.pi ^ 5 < (3.14159265358979323847 : ℝ) ^ 5 := pow_lt_pow_left₀ h2 Real.pi_pos.le (by norm_num)
  rw [ar_shipped, aR, abs_lt]
  simp only [kB, hPlanck, cLight]
  constructor
  · rw [lt_sub_iff_add_lt, lt_div_iff₀ (by norm_num)]
    nlinarith
  · rw [sub_lt_iff_lt_add, div_lt_iff₀ (by norm_num)]
    nlinarith

/-- C95 violated: the Boltzmann and Planck constants and the speed of light carry their units already, so that the factor
`Joule / (m3 * K4)` of line 75 counts those of the radiative constant twice. -/
theorem C95_radiative_violated (v : ℝ) : ¬ IsQuantity ar { mass := 1, length := -1, time := -2, temp := -4 } v := by
  refine not_isQuantity fastUnits ?_ ?_ ?_ ?_ ?_ v
  · norm_num [fastUnits]
  · norm_num [fastUnits]
  · norm_num [fastUnits]
  · norm_num [fastUnits]
  · have hp : aR ≠ 0 := by
      rw [aR]
      simp only [kB, hPlanck, cLight]
      have := Real.pi_pos
      positivity
    have e : ar fastUnits = aR / 4096 := by
      simp only [ar, aR, pi5, kb4, hplanck3, c3, c2, kb, hplanck, c, velocity, joule, m2, m3, s2, K4, kB, hPlanck, cLight, fastUnits]
      norm_num
      ring
    rw [ar_shipped, e]
    intro h
    apply hp
    norm_num [fastUnits] at h
    linarith

/-- C95: the pressure of the perfect gas is the same pressure in all base units. -/
theorem C95_perfect_gas (g : Gas) (hg : 0 < g.mmw) (rho T : ℝ) :
    IsQuantity (fun b => perfectPressure b g (rho * density b) (T * b.kelvin)) { mass := 1, length := -1, time := -2 }
      (PerfectGas.presFromTemp g rho T) := by
  intro b hk hm hs ht
  simp only [perfectPressure, PerfectGas.presFromTemp, density, kb, mp, kB, mP, joule, m2, m3, s2, zpow_neg, zpow_ofNat, zpow_one, zpow_zero]
  have := hk.ne'; have := hm.ne'; have := hs.ne'; have := ht.ne'; have := hg.ne'
  field_simp

/-- C95 violated: the pressure of the radiative gas is not, for any positive temperature, since its radiative constant is not. -/
theorem C95_radiative_gas_violated (g : Gas) (hg : 0 < g.mmw) (rho T : ℝ) (hT : 0 < T) (v : ℝ) :
    ¬ IsQuantity (fun b => radiativePressure b g (rho * density b) (T * b.kelvin)) { mass := 1, length := -1, time := -2 } v := by
  intro hq
  refine C95_radiative_violated (aR) fun b hk hm hs ht => ?_
  have hp := C95_perfect_gas g hg rho T b hk hm hs ht
  have h0 := hq b hk hm hs ht
  have h1 := hq shippedUnits (by norm_num [shippedUnits]) (by norm_num [shippedUnits]) (by norm_num [shippedUnits])
    (by norm_num [shippedUnits])
  have hp1 := C95_perfect_gas g hg rho T shippedUnits (by norm_num [shippedUnits]) (by norm_num [shippedUnits]) (by norm_num [shippedUnits])
    (by norm_num [shippedUnits])
  have ha := ar_shipped
  simp only [radiativePressure, perfectPressure] at h0 h1 hp hp1
  rw [hp] at h0
  rw [hp1] at h1
  generalize PerfectGas.presFromTemp g rho T = P at *
  rw [ha] at h1
  simp only [shippedUnits, zpow_neg, zpow_ofNat, zpow_one, zpow_zero, mul_one, one_pow, inv_one] at h1
  subst h1
  simp only [zpow_neg, zpow_ofNat, zpow_one, zpow_zero, mul_one] at h0 ⊢
  have := hk.ne'; have := hm.ne'; have := hs.ne'; have := ht.ne'; have hT' := hT.ne'
  have h2 : ar b * (T * b.kelvin * (T * b.kelvin) * (T * b.kelvin) * (T * b.kelvin)) / 3
      = aR * (T * T * T * T) / 3 * b.kg * (b.m)⁻¹ * (b.s ^ 2)⁻¹ := by linear_combination h0
  have h3 : ar b * (T ^ 4 * b.kelvin ^ 4 / 3) = (aR * b.kg * (b.m)⁻¹ * (b.s ^ 2)⁻¹ * (b.kelvin ^ 4)⁻¹) * (T ^ 4 * b.kelvin ^ 4 / 3) := by
    rw [show ar b * (T ^ 4 * b.kelvin ^ 4 / 3) = ar b * (T * b.kelvin * (T * b.kelvin) * (T * b.kelvin) * (T * b.kelvin)) / 3 by ring, h2]
    field_simp
  have hne : T ^ 4 * b.kelvin ^ 4 / 3 ≠ 0 := by positivity
  have h4 := mul_right_cancel₀ hne h3
  rw [h4]
  simp only [pow_one]

/-- C95 violated: the proton mass of line 61 is not the one of CODATA 2018, `1.67262192369e-27 kg` (nor of any set of constants since 1986):
it is too large by 16 millionths, where the atomic mass unit of line 67 is given to eleven digits. Temperatures of both gases carry this factor. -/
theorem C95_proton_mass_violated :
    1.6e-5 < (mp shippedUnits - 1.67262192369e-27) / 1.67262192369e-27 ∧ amu shippedUnits = 1.66053906660e-27 ∧
    ∀ (g : Gas) (rho P : ℝ), PerfectGas.tempFromPres g rho P
      = mp shippedUnits / 1.67262192369e-27 * (P * g.mmw * 1.67262192369e-27 / (rho * kb shippedUnits)) := by
  refine ⟨?_, ?_, fun g rho P => ?_⟩
  · simp only [mp, shippedUnits]; norm_num
  · simp only [amu, shippedUnits]; norm_num
  · simp only [PerfectGas.tempFromPres, mp, mP, kb, kB, joule, m2, s2, shippedUnits, mul_one, div_one]
    rw [div_mul_eq_mul_div, eq_div_iff (by norm_num : (1.67262192369e-27 : ℝ) ≠ 0)]
    ring

/-- The constants used by the other models are those of the code in its own base units. -/
theorem C95_shipped : kb shippedUnits = kB ∧ mp shippedUnits = mP ∧ c shippedUnits = cLight ∧ hplanck shippedUnits = hPlanck ∧
    ar shippedUnits = aR ∧ G shippedUnits = gravG ∧ amu shippedUnits = unitAmu := by
  refine ⟨?_, ?_, ?_, ?_, ar_shipped, ?_, ?_⟩ <;>
  simp only [kb, mp, c, hplanck, G, amu, velocity, joule, newton, kg2, m2, s2, kB, mP, cLight, hPlanck, gravG, unitAmu, shippedUnits] <;> norm_num

/-- A case: in cgs base units (a kilogram is 1000, a metre is 100) a joule is `10^7` and the gravitational constant `6.6743015e-8`. -/
example : joule { kg := 1000, m := 100, s := 1, kelvin := 1 } = 10 ^ 7 ∧
    G { kg := 1000, m := 100, s := 1, kelvin := 1 } = 6.6743015e-8 := by
  have h := C95_si
  constructor
  · rw [h.2.2.2.2.1 _ (by norm_num) (by norm_num) (by norm_num) (by norm_num)]; norm_num
  · rw [h.2.2.2.2.2.2.2.2.2.2.2.2.1 _ (by norm_num) (by norm_num) (by norm_num) (by norm_num)]; norm_num

/-- A case of `C95_perfect_gas` and `C95_radiative_gas_violated`: hydrogen. -/
example : ∃ g : Gas, 0 < g.mmw ∧ Gas.mk? (.fin (5 / 3)) (.fin 1) = .ok g := by
  refine ⟨{ gamma := 5 / 3, gammaM1 := 5 / 3 - 1, mmw := 1 }, by norm_num, ?_⟩
  unfold Gas.mk?
  rw [if_neg (by simp [Dbl.isFinite, Dbl.leConst]; norm_num), if_neg (by simp [Dbl.isFinite, Dbl.leConst])]
  rfl

end Heracles
