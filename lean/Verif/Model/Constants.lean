import Verif.Model.Thermo

/-!
# Units and constants

Model of `src/units/units.hpp`, line by line, with the four base units left open: in the code they are the
constants 1.0 of lines 22-25 (`shippedUnits`). `double` is `ℝ`.
-/

namespace Heracles

/-- src/units/units.hpp 22-25: the sizes of a kilogram, a metre, a second and a kelvin in the numbers of the program. -/
structure BaseUnits where
  kg : ℝ
  m : ℝ
  s : ℝ
  kelvin : ℝ

/-- src/units/units.hpp 22-25: the values in the code. -/
def shippedUnits : BaseUnits := { kg := 1, m := 1, s := 1, kelvin := 1 }

namespace BaseUnits

variable (b : BaseUnits)

/-- src/units/units.hpp 27. -/
noncomputable def kg2 : ℝ := b.kg * b.kg
/-- src/units/units.hpp 28. -/
noncomputable def m2 : ℝ := b.m * b.m
/-- src/units/units.hpp 29. -/
noncomputable def m3 : ℝ := b.m2 * b.m
/-- src/units/units.hpp 30. -/
noncomputable def s2 : ℝ := b.s * b.s
/-- src/units/units.hpp 31. -/
noncomputable def K4 : ℝ := b.kelvin * b.kelvin * b.kelvin * b.kelvin

/-- src/units/units.hpp 33. -/
noncomputable def density : ℝ := b.kg / b.m3
/-- src/units/units.hpp 34. -/
noncomputable def velocity : ℝ := b.m / b.s
/-- src/units/units.hpp 35. -/
noncomputable def acc : ℝ := b.m / b.s2
/-- src/units/units.hpp 36. -/
noncomputable def pressure : ℝ := b.kg / (b.m * b.s2)
/-- src/units/units.hpp 37. -/
noncomputable def joule : ℝ := b.kg * b.m2 / b.s2
/-- src/units/units.hpp 38. -/
noncomputable def newton : ℝ := b.kg * b.m / b.s2
/-- src/units/units.hpp 39. -/
noncomputable def watt : ℝ := b.joule / b.s
/-- src/units/units.hpp 40. -/
noncomputable def evol : ℝ := b.joule / b.m3
/-- src/units/units.hpp 41. -/
noncomputable def eint : ℝ := b.joule / b.kg

/-- src/units/units.hpp 44: the gram. -/
noncomputable def gram : ℝ := 1.0e-3 / b.kg
/-- src/units/units.hpp 45: the centimetre. -/
noncomputable def cm : ℝ := 1.0e-2 / b.m
/-- src/units/units.hpp 47. -/
noncomputable def cm2 : ℝ := b.cm * b.cm
/-- src/units/units.hpp 48. -/
noncomputable def cm3 : ℝ := b.cm2 * b.cm
/-- src/units/units.hpp 50. -/
noncomputable def densCgs : ℝ := b.gram / b.cm3
/-- src/units/units.hpp 51. -/
noncomputable def cmS : ℝ := b.cm / b.s
/-- src/units/units.hpp 52. -/
noncomputable def accCgs : ℝ := b.cm / b.s2
/-- src/units/units.hpp 53. -/
noncomputable def pressCgs : ℝ := b.gram / (b.cm * b.s2)
/-- src/units/units.hpp 54. -/
noncomputable def erg : ℝ := b.gram * b.cm2 / b.s2
/-- src/units/units.hpp 55. -/
noncomputable def dyne : ℝ := b.gram * b.cm / b.s2
/-- src/units/units.hpp 56. -/
noncomputable def evolCgs : ℝ := b.erg / b.cm3
/-- src/units/units.hpp 57. -/
noncomputable def eintCgs : ℝ := b.erg / b.gram

/-- src/units/units.hpp 60: Boltzmann constant. -/
noncomputable def kb : ℝ := 1.380649e-23 * b.joule / b.kelvin
/-- src/units/units.hpp 61: proton mass. -/
noncomputable def mp : ℝ := 1.672649e-27 * b.kg
/-- src/units/units.hpp 62: speed of light. -/
noncomputable def c : ℝ := 2.99792458e8 * b.velocity
/-- src/units/units.hpp 63: gravitational constant. -/
noncomputable def G : ℝ := 6.6743015e-11 * b.newton * b.m2 / b.kg2
/-- src/units/units.hpp 64: Planck constant. -/
noncomputable def hplanck : ℝ := 6.62607015e-34 * b.joule * b.s
/-- src/units/units.hpp 65: electronvolt. -/
noncomputable def eV : ℝ := 1.602176634e-19 * b.joule
/-- src/units/units.hpp 66. -/
noncomputable def MeV : ℝ := b.eV * 1e6
/-- src/units/units.hpp 67: atomic mass unit. -/
noncomputable def amu : ℝ := 1.66053906660e-27 * b.kg

/-- src/units/units.hpp 69-70. -/
noncomputable def pi5 : ℝ := Real.pi * Real.pi * Real.pi * Real.pi * Real.pi
/-- src/units/units.hpp 71. -/
noncomputable def kb4 : ℝ := b.kb * b.kb * b.kb * b.kb
/-- src/units/units.hpp 72. -/
noncomputable def hplanck3 : ℝ := b.hplanck * b.hplanck * b.hplanck
/-- src/units/units.hpp 73. -/
noncomputable def c2 : ℝ := b.c * b.c
/-- src/units/units.hpp 74. -/
noncomputable def c3 : ℝ := b.c2 * b.c
/-- src/units/units.hpp 75: radiative constant. -/
noncomputable def ar : ℝ := (8 * pi5 * b.kb4) / (15 * b.hplanck3 * b.c3) * b.joule / (b.m3 * b.K4)

/-- src/units/units.hpp 77: astronomical unit. -/
noncomputable def ua : ℝ := 1.49597870e11 * b.m
/-- src/units/units.hpp 79. -/
noncomputable def Msun : ℝ := 1.9885e30 * b.kg
/-- src/units/units.hpp 80. -/
noncomputable def Rsun : ℝ := 6.96342e8 * b.m
/-- src/units/units.hpp 81. -/
noncomputable def Lsun : ℝ := 3.8268e26 * b.watt
/-- src/units/units.hpp 84. -/
noncomputable def minute : ℝ := 60 * b.s
/-- src/units/units.hpp 85. -/
noncomputable def hour : ℝ := 60 * b.minute
/-- src/units/units.hpp 86. -/
noncomputable def day : ℝ := 24 * b.hour
/-- src/units/units.hpp 87. -/
noncomputable def year : ℝ := 3.155760e7 * b.s
/-- src/units/units.hpp 88. -/
noncomputable def Myrs : ℝ := 3.155760e13 * b.s
/-- src/units/units.hpp 89. -/
noncomputable def Gyrs : ℝ := 3.155760e16 * b.s
/-- src/units/units.hpp 90: parsec. -/
noncomputable def pc : ℝ := 3.085677581e16 * b.m
/-- src/units/units.hpp 91. -/
noncomputable def kpc : ℝ := b.pc * 1e3
/-- src/units/units.hpp 92. -/
noncomputable def Mpc : ℝ := b.kpc * 1e3
/-- src/units/units.hpp 93. -/
noncomputable def pascal : ℝ := b.kg / (b.m * b.s2)
/-- src/units/units.hpp 94: Hubble constant. -/
noncomputable def H0 : ℝ := 7.2e1 * b.m * 1e3 / b.Mpc

/-- src/thermodynamics/perfect_gas.hpp 64-67, with the constants in the base units `b`. -/
noncomputable def perfectPressure (g : Gas) (rho T : ℝ) : ℝ := rho * b.kb * T / (g.mmw * b.mp)

/-- src/thermodynamics/rad_gas.hpp 64-70, with the constants in the base units `b`. -/
noncomputable def radiativePressure (g : Gas) (rho T : ℝ) : ℝ :=
  rho * b.kb * T / (g.mmw * b.mp) + b.ar * (T * T * T * T) / 3

end BaseUnits

end Heracles
