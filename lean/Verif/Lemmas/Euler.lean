import Verif.Model.Euler
import Verif.Lemmas.Thermo
import Verif.Lemmas.Kokkos

namespace Heracles

variable {d : ℕ} {K : Type}

/-- The perfect gas satisfies the laws assumed by the hydrodynamics theorems. -/
theorem PerfectGas.lawful {g : Gas} (hg : g.Physical) : (PerfectGas.toEoS g).Lawful := by
  have h1 := kB_pos; have h2 := mP_pos; have h3 := hg.mmw
  have h4 := hg.gammaM1_pos
  refine ⟨?_, ?_, ?_, ?_⟩
  · intro rho P hrho
    simp only [PerfectGas.toEoS, PerfectGas.evolFromPres, PerfectGas.evolFromTemp, PerfectGas.tempFromPres,
      PerfectGas.presFromEvol, PerfectGas.presFromTemp, PerfectGas.tempFromEvol]
    field_simp
  · intro rho e hrho
    simp only [PerfectGas.toEoS, PerfectGas.evolFromPres, PerfectGas.evolFromTemp, PerfectGas.tempFromPres,
      PerfectGas.presFromEvol, PerfectGas.presFromTemp, PerfectGas.tempFromEvol]
    field_simp
  · intro rho P hrho hP
    have : 0 < g.gamma := by linarith [hg.gamma]
    exact Real.sqrt_pos.2 (by positivity)
  · intro rho P hrho hP
    have hga : 0 < g.gamma := by linarith [hg.gamma]
    have : (PerfectGas.toEoS g).sound rho P ^ 2 = g.gamma * P / rho := Real.sq_sqrt (by positivity)
    rw [this]
    have e : rho * (g.gamma * P / rho) = g.gamma * P := by field_simp
    rw [e]
    nlinarith [hg.gamma]

section
variable [Field K] [LinearOrder K] [IsStrictOrderedRing K]

theorem toPrim_toCons {eos : EoS K} (he : eos.Lawful) {p : Prim d K} (hr : 0 < p.rho) :
    toPrim eos (toCons eos p) = p := by
  have hr' := hr.ne'
  have hek : (toCons eos p).ek = p.ek := by
    simp only [Cons.ek, Prim.ek, toCons]
    have : ∀ i, p.rho * p.u i * (p.rho * p.u i) = p.rho * p.rho * (p.u i * p.u i) := fun i => by ring
    simp only [this, ← Finset.mul_sum]
    field_simp
  apply Prim.ext
  · rfl
  · funext i
    simp only [toPrim, toCons]
    field_simp
  · simp only [toPrim, Cons.evol, hek]
    have : (toCons eos p).E - p.ek = eos.evolFromPres p.rho p.P := by simp [toCons]
    rw [this]
    exact he.pres_evol _ _ hr

theorem ek_toPrim {eos : EoS K} {c : Cons d K} (hr : 0 < c.rho) : (toPrim eos c).ek = c.ek := by
  have hr' := hr.ne'
  simp only [Cons.ek, Prim.ek, toPrim]
  have : ∀ i, c.rhou i / c.rho * (c.rhou i / c.rho) = (c.rho * c.rho)⁻¹ * (c.rhou i * c.rhou i) := fun i => by
    field_simp
  simp only [this, ← Finset.mul_sum]
  field_simp

theorem toCons_toPrim {eos : EoS K} (he : eos.Lawful) {c : Cons d K} (hr : 0 < c.rho) :
    toCons eos (toPrim eos c) = c := by
  have hr' := hr.ne'
  apply Cons.ext
  · rfl
  · funext i
    simp only [toPrim, toCons]
    field_simp
  · have h1 : (toCons eos (toPrim eos c)).E = eos.evolFromPres c.rho (eos.presFromEvol c.rho c.evol) + (toPrim eos c).ek := rfl
    rw [h1, he.evol_pres _ _ hr, ek_toPrim hr, Cons.evol]
    ring

end

end Heracles
