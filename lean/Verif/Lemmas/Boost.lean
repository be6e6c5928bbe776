import Mathlib.Tactic.LinearCombination
import Verif.Spec.Boost
import Verif.Lemmas.Ramp
import Verif.Lemmas.Slab
import Verif.Lemmas.Riemann
import Verif.Props.KernelRun

/-!
# Kernels on flows that are the same all along an axis, with a velocity added along it
-/

namespace Heracles

variable {d n : ℕ} {K : Type}

section States
variable [Field K]

def Cons.boost (b : Fin d) (w : K) (c : Cons d K) : Cons d K :=
  ⟨c.rho, fun i => c.rhou i + if i = b then w * c.rho else 0, c.E + w * c.rhou b + w ^ 2 / 2 * c.rho⟩
def Flux.boost (b : Fin d) (w : K) (c : Flux d K) : Flux d K :=
  ⟨c.rho, fun i => c.rhou i + if i = b then w * c.rho else 0, c.E + w * c.rhou b + w ^ 2 / 2 * c.rho⟩
def Prim.boost (b : Fin d) (w : K) (c : Prim d K) : Prim d K := ⟨c.rho, fun i => c.u i + if i = b then w else 0, c.P⟩
def VelPres.boost (b : Fin d) (w : K) (c : VelPres d K) : VelPres d K := ⟨fun i => c.u i + if i = b then w else 0, c.P⟩

theorem Fields.boost_zero (b : Fin d) (f : Fields d n K) : f.boost b 0 = f := by
  refine Fields.ext rfl ?_ ?_ rfl
  · funext i
    simp [Fields.boost]
  · simp [Fields.boost]

theorem Fields.boost_inj {b : Fin d} {w : K} {f g : Fields d n K} (h : f.boost b w = g.boost b w) : f = g := by
  have h1 : (f.boost b w).rho = (g.boost b w).rho := by rw [h]
  replace h1 : f.rho = g.rho := h1
  have h2 : f.rhou = g.rhou := by
    funext i
    have := congrFun (congrArg Fields.rhou h) i
    simp only [Fields.boost, h1] at this
    exact add_right_cancel this
  have h3 := congrArg Fields.E h
  have h4 : (f.boost b w).fx = (g.boost b w).fx := by rw [h]
  refine Fields.ext h1 h2 ?_ h4
  simp only [Fields.boost, h1, h2] at h3
  exact add_right_cancel (add_right_cancel h3)

theorem sum_boost (b : Fin d) (u : Fin d → K) (x : K) :
    ∑ i, (u i + if i = b then x else 0) * (u i + if i = b then x else 0) = ∑ i, u i * u i + (2 * x * u b + x * x) := by
  have : ∀ i, (u i + if i = b then x else 0) * (u i + if i = b then x else 0) = u i * u i + if i = b then 2 * x * u b + x * x else 0 := fun i => by
    split_ifs with h
    · subst h; ring
    · ring
  simp only [this, Finset.sum_add_distrib, Finset.sum_ite_eq', Finset.mem_univ, if_true]

variable [NeZero (2 : K)]

theorem toPrim_boost (eos : EoS K) (b : Fin d) (w : K) {c : Cons d K} (h : c.rho ≠ 0) : toPrim eos (c.boost b w) = (toPrim eos c).boost b w := by
  have h2 : (2 : K) ≠ 0 := NeZero.ne 2
  have he : (c.boost b w).evol = c.evol := by
    unfold Cons.evol Cons.ek Cons.boost
    dsimp only
    rw [sum_boost]
    field_simp
    ring_nf
  unfold toPrim
  rw [he]
  refine Prim.ext rfl (funext fun i => ?_) rfl
  show (c.rhou i + if i = b then w * c.rho else 0) / c.rho = c.rhou i / c.rho + if i = b then w else 0
  split_ifs
  · field_simp
  · simp

theorem toCons_boost (eos : EoS K) (b : Fin d) (w : K) (c : Prim d K) : toCons eos (c.boost b w) = (toCons eos c).boost b w := by
  have h2 : (2 : K) ≠ 0 := NeZero.ne 2
  refine Cons.ext rfl (funext fun i => ?_) ?_
  · show c.rho * (c.u i + if i = b then w else 0) = c.rho * c.u i + if i = b then w * c.rho else 0
    split_ifs <;> ring
  · show eos.evolFromPres c.rho c.P + (c.boost b w).ek = eos.evolFromPres c.rho c.P + c.ek + w * (c.rho * c.u b) + w ^ 2 / 2 * c.rho
    unfold Prim.ek Prim.boost
    dsimp only
    rw [sum_boost]
    field_simp
    ring

theorem fluxPrim_boost (eos : EoS K) {a b : Fin d} (hab : a ≠ b) (w : K) (p : Prim d K) : fluxPrim eos (p.boost b w) a = (fluxPrim eos p a).boost b w := by
  have h2 : (2 : K) ≠ 0 := NeZero.ne 2
  have hu : (p.boost b w).u a = p.u a := by simp [Prim.boost, hab]
  have hk : (p.boost b w).ek = p.ek + p.rho * (w * p.u b + w ^ 2 / 2) := by
    unfold Prim.ek Prim.boost
    dsimp only
    rw [sum_boost]
    field_simp
  unfold fluxPrim
  simp only [hu, hk]
  refine Flux.ext rfl (funext fun i => ?_) ?_
  · simp only [Flux.boost, Prim.boost]
    by_cases hi : i = a
    · subst hi
      simp [hab]
    · rw [Function.update_of_ne hi, Function.update_of_ne hi]
      split_ifs <;> ring
  · simp only [Flux.boost, Prim.boost, Function.update_of_ne hab.symm]
    ring

end States

section Solver
variable [Field K] [LinearOrder K] [IsStrictOrderedRing K]

/-- The contact of HLLC moves neither with the left nor with the right wave. -/
theorem hllcUstar_between {eos : EoS K} (he : eos.Lawful) {cL cR : Cons d K} (hL : cL.Adm eos) (hR : cR.Adm eos) (a : Fin d) :
    waveL eos (toPrim eos cL) (toPrim eos cR) a <
        hllcUstar (toPrim eos cL) (toPrim eos cR) a (waveL eos (toPrim eos cL) (toPrim eos cR) a) (waveR eos (toPrim eos cL) (toPrim eos cR) a) ∧
      hllcUstar (toPrim eos cL) (toPrim eos cR) a (waveL eos (toPrim eos cL) (toPrim eos cR) a) (waveR eos (toPrim eos cL) (toPrim eos cR) a) <
        waveR eos (toPrim eos cL) (toPrim eos cR) a := by
  obtain ⟨sL1, sL2⟩ := hL.sound he
  obtain ⟨sR1, sR2⟩ := hR.sound he
  obtain ⟨e1, e2⟩ := wave_eq eos cL cR a
  generalize hwL : waveL eos (toPrim eos cL) (toPrim eos cR) a = wL at *
  generalize hwR : waveR eos (toPrim eos cL) (toPrim eos cR) a = wR at *
  have h := hllc_scalar hL.1 hR.1 hL.2 hR.2 sL1 sR1 sL2 sR2 (e1 ▸ min_le_left _ _) (e1 ▸ min_le_right _ _) (e2 ▸ le_max_left _ _) (e2 ▸ le_max_right _ _)
    (us := hllcUstar (toPrim eos cL) (toPrim eos cR) a wL wR) (by rw [hllcUstar]; simp only [toPrim_eq]) rfl
  exact ⟨h.2.1, h.2.2.1⟩

theorem hllcStar_boost {a b : Fin d} (hab : a ≠ b) (w : K) {c : Cons d K} (hr : c.rho ≠ 0) (eos : EoS K) {S us : K} (hS : S ≠ us) (ps : K) :
    hllcStar (c.boost b w) ((toPrim eos c).boost b w) ((fluxPrim eos (toPrim eos c) a).boost b w) a S us ps =
      (hllcStar c (toPrim eos c) (fluxPrim eos (toPrim eos c) a) a S us ps).boost b w := by
  have hu : ((toPrim eos c).boost b w).u a = (toPrim eos c).u a := by simp [Prim.boost, hab]
  have hS' : S - us ≠ 0 := sub_ne_zero.2 hS
  have hm : ∀ i, (toPrim eos c).u i = c.rhou i / c.rho := fun _ => rfl
  have key : c.rho * (S - (toPrim eos c).u a) / (S - us) * us = c.rho * (toPrim eos c).u a + S * (c.rho * (S - (toPrim eos c).u a) / (S - us) - c.rho) := by
    field_simp
    ring
  unfold hllcStar
  simp only [hu]
  refine Flux.ext rfl (funext fun i => ?_) ?_
  · simp only [Flux.boost, Prim.boost, Cons.boost, fluxHllc]
    by_cases hi : i = a
    · subst hi
      simp [hab]
    · rw [Function.update_of_ne hi, Function.update_of_ne hi]
      split_ifs with h
      · simp only [fluxPrim]
        have e : (toPrim eos c).rho = c.rho := rfl
        rw [e]
        linear_combination w * key
      · ring
  · simp only [Flux.boost, Prim.boost, Cons.boost, fluxHllc, fluxPrim, Function.update_of_ne hab.symm]
    have e : (toPrim eos c).rho = c.rho := rfl
    have e' : c.rhou b = c.rho * (toPrim eos c).u b := by rw [hm]; field_simp
    have e2 : (S - (toPrim eos c).u a) / (S - us) * c.rho = c.rho * (S - (toPrim eos c).u a) / (S - us) := by ring
    rw [e, e']
    generalize (S - (toPrim eos c).u a) / (S - us) = x at *
    rw [← e2] at key ⊢
    linear_combination (-w * (toPrim eos c).u b) * key

theorem Solver.flux_boost (sol : Solver) {eos : EoS K} (he : sol = .hllc → eos.Lawful) {a b : Fin d} (hab : a ≠ b) (w : K) {cL cR : Cons d K} (hL : cL.Adm eos)
    (hR : cR.Adm eos) : sol.flux eos (cL.boost b w) (cR.boost b w) a = (sol.flux eos cL cR a).boost b w := by
  have hu : ∀ p : Prim d K, (p.boost b w).u a = p.u a := fun p => by simp [Prim.boost, hab]
  have hr : ∀ p : Prim d K, (p.boost b w).rho = p.rho := fun _ => rfl
  have hP : ∀ p : Prim d K, (p.boost b w).P = p.P := fun _ => rfl
  have hl : ∀ p q : Prim d K, waveL eos (p.boost b w) (q.boost b w) a = waveL eos p q a := fun p q => by unfold waveL; rw [hu, hu]; rfl
  have hw : ∀ p q : Prim d K, waveR eos (p.boost b w) (q.boost b w) a = waveR eos p q a := fun p q => by unfold waveR; rw [hu, hu]; rfl
  have tL := toPrim_boost eos b w hL.1.ne'
  have tR := toPrim_boost eos b w hR.1.ne'
  cases sol with
  | hll =>
    show hllFlux eos _ _ _ = (hllFlux eos _ _ _).boost b w
    unfold hllFlux
    simp only [tL, tR, fluxPrim_boost eos hab, hl, hw]
    refine Flux.ext rfl (funext fun i => ?_) ?_
    · simp only [Flux.boost, Cons.boost, fluxHll]
      split_ifs <;> ring
    · simp only [Flux.boost, Cons.boost, fluxHll]
      ring
  | hllc =>
    obtain ⟨b1, b2⟩ := hllcUstar_between (he rfl) hL hR a
    show hllcFlux eos _ _ _ = (hllcFlux eos _ _ _).boost b w
    have hs : ∀ (p q : Prim d K) x y, hllcUstar (p.boost b w) (q.boost b w) a x y = hllcUstar p q a x y := fun p q x y => by
      unfold hllcUstar; rw [hu, hu]; rfl
    have hp : ∀ (p q : Prim d K) x y, hllcPstar (p.boost b w) (q.boost b w) a x y = hllcPstar p q a x y := fun p q x y => by
      unfold hllcPstar; rw [hu, hu, hs]; rfl
    unfold hllcFlux
    simp only [tL, tR, fluxPrim_boost eos hab, hl, hw, hs, hp]
    split_ifs
    · rfl
    · rfl
    · exact hllcStar_boost hab w hL.1.ne' eos b1.ne _
    · exact hllcStar_boost hab w hR.1.ne' eos b2.ne' _
  | splitting =>
    show splittingFlux eos _ _ _ = (splittingFlux eos _ _ _).boost b w
    unfold splittingFlux
    simp only [tL, tR, hu, hr, hP]
    have e : ∀ (c : Cons d K) (r P E : K), (⟨r * (c.boost b w).rho, Function.update (fun i => r * (c.boost b w).rhou i) a (r * (c.boost b w).rhou a + P), r * (c.boost b w).E + E⟩ : Flux d K) =
        (⟨r * c.rho, Function.update (fun i => r * c.rhou i) a (r * c.rhou a + P), r * c.E + E⟩ : Flux d K).boost b w := fun c r P E => by
      refine Flux.ext rfl (funext fun i => ?_) ?_
      · simp only [Flux.boost, Cons.boost]
        by_cases hi : i = a
        · subst hi; simp [hab]
        · rw [Function.update_of_ne hi, Function.update_of_ne hi]
          split_ifs <;> ring
      · simp only [Flux.boost, Cons.boost, Function.update_of_ne hab.symm]
        ring
    split_ifs
    · exact e cL _ _ _
    · exact e cR _ _ _

end Solver

section Pure
variable [Field K] {b : Fin d} {w : K}

/-- What a kernel adds to a state: the flux differences `D` and gravity. -/
def addFlux (dt : K) (gr : Fin d → K) (f : Cons d K) (D : Fin d → Flux d K) : Cons d K :=
  { rho := f.rho + ∑ a, (D a).rho
    rhou := fun i => f.rhou i + ∑ a, ((D a).rhou i + if i = a then dt * gr a * f.rho else 0)
    E := f.E + ∑ a, ((D a).E + dt * gr a * f.rhou a) }

theorem addFlux_boost (dt : K) (gr : Fin d → K) (f : Cons d K) {D D' : Fin d → Flux d K} (h : ∀ a, D' a = (D a).boost b w) :
    addFlux dt gr (f.boost b w) D' = (addFlux dt gr f D).boost b w := by
  unfold addFlux
  simp only [h]
  refine Cons.ext rfl (funext fun i => ?_) ?_
  · simp only [Flux.boost, Cons.boost]
    split_ifs with hi
    · subst hi
      simp only [Finset.sum_add_distrib, mul_add, Finset.mul_sum]
      ring
    · simp only [add_zero]
  · simp only [Flux.boost, Cons.boost]
    have e : ∀ a, dt * gr a * (f.rhou a + if a = b then w * f.rho else 0) = dt * gr a * f.rhou a + if a = b then dt * gr b * (w * f.rho) else 0 := fun a => by
      split_ifs with h
      · subst h; ring
      · ring
    simp only [e, Finset.sum_add_distrib, Finset.sum_ite_eq, Finset.sum_ite_eq', Finset.mem_univ, if_true, ← Finset.mul_sum]
    ring

/-- Difference of two fluxes. -/
def fluxStep (g : DirGeo K) (dt : K) (fL fR : Flux d K) : Flux d K :=
  ⟨fluxDiff g (dt / g.dv) fL.rho fR.rho, fun i => fluxDiff g (dt / g.dv) (fL.rhou i) (fR.rhou i), fluxDiff g (dt / g.dv) fL.E fR.E⟩

theorem fluxStep_boost {g g' : DirGeo K} {dt l : K} (hg : ∀ x y, fluxDiff g (dt / g.dv) x y = l * (x - y)) (hg' : ∀ x y, fluxDiff g' (dt / g'.dv) x y = l * (x - y))
    (fL fR : Flux d K) : fluxStep g' dt (fL.boost b w) (fR.boost b w) = (fluxStep g dt fL fR).boost b w := by
  unfold fluxStep
  simp only [hg, hg']
  refine Flux.ext rfl (funext fun i => ?_) ?_
  · simp only [Flux.boost]
    split_ifs <;> ring
  · simp only [Flux.boost]
    ring

theorem fluxStep_level {g : DirGeo K} {dt l : K} (hg : ∀ x y, fluxDiff g (dt / g.dv) x y = l * (x - y)) (f : Flux d K) :
    fluxStep g dt f f = ⟨0, fun _ => 0, 0⟩ := by
  unfold fluxStep
  simp only [hg, sub_self, mul_zero]

theorem Flux.zero_boost : (⟨0, fun _ => 0, 0⟩ : Flux d K).boost b w = ⟨0, fun _ => 0, 0⟩ := by
  refine Flux.ext rfl (funext fun i => ?_) ?_ <;> simp [Flux.boost]

/-- The predictor in terms of `addFlux`. -/
theorem hancock_add (eos : EoS K) (tr : Trig K) (dt : K) (dg : Fin d → DirGeo K) (gr : Fin d → K) (up : Fin 2 → Fin d → VelPres d K)
    (old : Fin 2 → Fin d → Fields d n K) (side : Fin 2) (a : Fin d) :
    (hancockPure eos tr .cartesian dt dg gr up old side a).cons =
      addFlux dt gr (old side a).cons fun b => fluxStep (dg b) dt (fluxPrim eos (facePrim (old 0 b) (up 0 b)) b) (fluxPrim eos (facePrim (old 1 b) (up 1 b)) b) := by
  unfold hancockPure addFlux
  simp only [momDiff, reduceCtorEq, if_false, add_zero]
  rfl

variable [LinearOrder K]

/-- The update in terms of `addFlux`. -/
theorem godunov_add (sol : Solver) (eos : EoS K) (tr : Trig K) (dt : K) (dg : Fin d → DirGeo K) (gr : Fin d → K) (s : Fields d n K)
    (rm rp : Fin d → Fin 2 → Fin d → Fields d n K) (r0 : Fin 2 → Fin d → Fields d n K) :
    (godunovPure sol eos tr .cartesian dt dg gr s rm r0 rp).cons =
      addFlux dt gr s.cons fun b => fluxStep (dg b) dt (sol.flux eos (rm b 1 b).cons (r0 0 b).cons b) (sol.flux eos (r0 1 b).cons (rp b 0 b).cons b) := by
  unfold godunovPure addFlux
  simp only [momDiff, reduceCtorEq, if_false, add_zero]
  rfl

end Pure

section Cells
variable [Field K] [NeZero (2 : K)] {eos : EoS K} {tr : Trig K} {dt : K} {dg dg' : Fin d → DirGeo K} {gr : Fin d → K} {b : Fin d} {w : K} {l : Fin d → K} {l' : K}

omit [Field K] [NeZero (2 : K)] in
theorem Fields.ext_cons {f g : Fields d n K} (h : f.cons = g.cons) (hx : f.fx = g.fx) : f = g := by
  have h1 := congrArg Cons.rho h
  have h2 := congrArg Cons.rhou h
  have h3 := congrArg Cons.E h
  exact Fields.ext h1 h2 h3 hx

theorem hancock_boost {gr' : Fin d → K} (hgr : gr' = gr) (hg : ∀ a x y, fluxDiff (dg a) (dt / (dg a).dv) x y = l a * (x - y)) (hg' : ∀ a, a ≠ b → ∀ x y, fluxDiff (dg' a) (dt / (dg' a).dv) x y = l a * (x - y))
    (hgb : ∀ x y, fluxDiff (dg' b) (dt / (dg' b).dv) x y = l' * (x - y)) {up up' : Fin 2 → Fin d → VelPres d K} {old old' : Fin 2 → Fin d → Fields d n K}
    (hu : ∀ s a, up' s a = (up s a).boost b w) (ho : ∀ s a, old' s a = (old s a).boost b w) (hub : up 0 b = up 1 b) (hob : old 0 b = old 1 b) (side : Fin 2) (a : Fin d) :
    hancockPure eos tr .cartesian dt dg' gr' up' old' side a = (hancockPure eos tr .cartesian dt dg gr up old side a).boost b w := by
  subst hgr
  have hp : ∀ (f : Fields d n K) (q : VelPres d K), facePrim (f.boost b w) (q.boost b w) = (facePrim f q).boost b w := fun _ _ => rfl
  have hD : ∀ c, fluxStep (dg' c) dt (fluxPrim eos (facePrim (old' 0 c) (up' 0 c)) c) (fluxPrim eos (facePrim (old' 1 c) (up' 1 c)) c) =
      (fluxStep (dg c) dt (fluxPrim eos (facePrim (old 0 c) (up 0 c)) c) (fluxPrim eos (facePrim (old 1 c) (up 1 c)) c)).boost b w := fun c => by
    by_cases hc : c = b
    · subst hc
      rw [ho, ho, hu, hu, hub, hob, fluxStep_level hgb, fluxStep_level (hg c), Flux.zero_boost]
    · rw [ho, ho, hu, hu, hp, hp, fluxPrim_boost eos hc, fluxPrim_boost eos hc, fluxStep_boost (hg c) (hg' c hc)]
  refine Fields.ext_cons ?_ ?_
  · have e := addFlux_boost dt gr' (old side a).cons hD
    rw [hancock_add, ho]
    refine e.trans ?_
    rw [← hancock_add eos tr]
    rfl
  · funext ifx
    show (old' side a).fx ifx * (old' side a).rho + ∑ c, fluxDiff (dg' c) (dt / (dg' c).dv) ((old' 0 c).fx ifx * (fluxPrim eos (facePrim (old' 0 c) (up' 0 c)) c).rho)
        ((old' 1 c).fx ifx * (fluxPrim eos (facePrim (old' 1 c) (up' 1 c)) c).rho) =
      (old side a).fx ifx * (old side a).rho + ∑ c, fluxDiff (dg c) (dt / (dg c).dv) ((old 0 c).fx ifx * (fluxPrim eos (facePrim (old 0 c) (up 0 c)) c).rho)
        ((old 1 c).fx ifx * (fluxPrim eos (facePrim (old 1 c) (up 1 c)) c).rho)
    rw [ho]
    refine congrArg₂ (· + ·) rfl (Finset.sum_congr rfl fun c _ => ?_)
    by_cases hc : c = b
    · subst hc
      rw [ho, ho, hu, hu, hub, hob, hgb, hg, sub_self, mul_zero, sub_self, mul_zero]
    · rw [ho, ho, hu, hu, hp, hp, fluxPrim_boost eos hc, fluxPrim_boost eos hc, hg' c hc, hg]
      rfl

omit [NeZero (2 : K)] in
theorem godunov_boost [LinearOrder K] [IsStrictOrderedRing K] {sol : Solver} (he : sol = .hllc → eos.Lawful) {gr' : Fin d → K} (hgr : gr' = gr)
    (hg : ∀ a x y, fluxDiff (dg a) (dt / (dg a).dv) x y = l a * (x - y)) (hg' : ∀ a, a ≠ b → ∀ x y, fluxDiff (dg' a) (dt / (dg' a).dv) x y = l a * (x - y))
    (hgb : ∀ x y, fluxDiff (dg' b) (dt / (dg' b).dv) x y = l' * (x - y)) {s s' : Fields d n K} (hs : s' = s.boost b w) {rm rp rm' rp' : Fin d → Fin 2 → Fin d → Fields d n K}
    {r0 r0' : Fin 2 → Fin d → Fields d n K} (hm : ∀ a, rm' a 1 a = (rm a 1 a).boost b w) (h0 : ∀ s a, r0' s a = (r0 s a).boost b w) (hp : ∀ a, rp' a 0 a = (rp a 0 a).boost b w)
    (hmb : rm b 1 b = r0 0 b) (h0b : r0 1 b = r0 0 b) (hpb : rp b 0 b = r0 0 b) (am : ∀ a, (rm a 1 a).cons.Adm eos) (a0 : ∀ s a, (r0 s a).cons.Adm eos) (ap : ∀ a, (rp a 0 a).cons.Adm eos) :
    godunovPure sol eos tr .cartesian dt dg' gr' s' rm' r0' rp' = (godunovPure sol eos tr .cartesian dt dg gr s rm r0 rp).boost b w := by
  subst hgr
  have hc : ∀ f : Fields d n K, (f.boost b w).cons = f.cons.boost b w := fun _ => rfl
  have hD : ∀ c, fluxStep (dg' c) dt (sol.flux eos (rm' c 1 c).cons (r0' 0 c).cons c) (sol.flux eos (r0' 1 c).cons (rp' c 0 c).cons c) =
      (fluxStep (dg c) dt (sol.flux eos (rm c 1 c).cons (r0 0 c).cons c) (sol.flux eos (r0 1 c).cons (rp c 0 c).cons c)).boost b w := fun c => by
    by_cases hcb : c = b
    · subst hcb
      rw [hm, h0, h0, hp, hmb, h0b, hpb, fluxStep_level hgb, fluxStep_level (hg c), Flux.zero_boost]
    · rw [hm, h0, h0, hp, hc, hc, hc, hc, sol.flux_boost he hcb w (am c) (a0 0 c), sol.flux_boost he hcb w (a0 1 c) (ap c), fluxStep_boost (hg c) (hg' c hcb)]
  refine Fields.ext_cons ?_ ?_
  · have e := addFlux_boost dt gr' s.cons hD
    rw [godunov_add, hs]
    refine e.trans ?_
    rw [← godunov_add sol eos tr]
    rfl
  · funext ifx
    have fL : ∀ c, c ≠ b → (sol.flux eos (rm' c 1 c).cons (r0' 0 c).cons c).rho = (sol.flux eos (rm c 1 c).cons (r0 0 c).cons c).rho := fun c hcb => by
      rw [hm, h0, hc, hc, sol.flux_boost he hcb w (am c) (a0 0 c)]; rfl
    have fR : ∀ c, c ≠ b → (sol.flux eos (r0' 1 c).cons (rp' c 0 c).cons c).rho = (sol.flux eos (r0 1 c).cons (rp c 0 c).cons c).rho := fun c hcb => by
      rw [hp, h0, hc, hc, sol.flux_boost he hcb w (a0 1 c) (ap c)]; rfl
    show s'.fx ifx * s'.rho + ∑ c, fluxDiff (dg' c) (dt / (dg' c).dv)
        ((if (sol.flux eos (rm' c 1 c).cons (r0' 0 c).cons c).rho < 0 then (r0' 0 c).fx ifx else (rm' c 1 c).fx ifx) * (sol.flux eos (rm' c 1 c).cons (r0' 0 c).cons c).rho)
        ((if (sol.flux eos (r0' 1 c).cons (rp' c 0 c).cons c).rho < 0 then (rp' c 0 c).fx ifx else (r0' 1 c).fx ifx) * (sol.flux eos (r0' 1 c).cons (rp' c 0 c).cons c).rho) =
      s.fx ifx * s.rho + ∑ c, fluxDiff (dg c) (dt / (dg c).dv)
        ((if (sol.flux eos (rm c 1 c).cons (r0 0 c).cons c).rho < 0 then (r0 0 c).fx ifx else (rm c 1 c).fx ifx) * (sol.flux eos (rm c 1 c).cons (r0 0 c).cons c).rho)
        ((if (sol.flux eos (r0 1 c).cons (rp c 0 c).cons c).rho < 0 then (rp c 0 c).fx ifx else (r0 1 c).fx ifx) * (sol.flux eos (r0 1 c).cons (rp c 0 c).cons c).rho)
    rw [hs]
    refine congrArg₂ (· + ·) rfl (Finset.sum_congr rfl fun c _ => ?_)
    by_cases hcb : c = b
    · subst hcb
      simp only [hm, h0, hp, hmb, h0b, hpb, ite_self]
      rw [hgb, hg, sub_self, sub_self, mul_zero, mul_zero]
    · simp only [fL c hcb, fR c hcb]
      rw [hg' c hcb, hg, hm, h0, h0, hp]
      rfl

end Cells

section Grid
variable [Field K] [LinearOrder K] [IsStrictOrderedRing K] {lim : Limiter} {sol : Solver} {eos : EoS K} {tr : Trig K} {b : Fin d} {w : K} {X X' : Fin 3 → ℤ → K}
  {Gr Gr' : Cell → Fin d → K} {E E' : Cell}

/-- A cell of the arrays. -/
def InArr (E C : Cell) : Prop := ∀ a, 0 ≤ C a ∧ C a < E a

theorem SameLine.nb {b e : Fin 3} {C C' : Cell} (h : SameLine b C C') (t : ℤ) : SameLine b (nb C e t) (nb C' e t) := fun a ha => by
  unfold Heracles.nb
  by_cases he : a = e
  · subst he
    rw [Function.update_self, Function.update_self, h a ha]
  · rw [Function.update_of_ne he, Function.update_of_ne he, h a ha]

theorem SameLine.symm {b : Fin 3} {C C' : Cell} (h : SameLine b C C') : SameLine b C' C := fun a ha => (h a ha).symm

theorem sameLine_nb (b : Fin 3) (C : Cell) (t : ℤ) : SameLine b C (nb C b t) := fun _ ha => Function.update_of_ne ha _ _

/-- `v'` is `v` shifted by `x` on cells of one line. -/
def LineShift (b : Fin 3) (E E' : Cell) (x : K) (v v' : Cell → K) : Prop := ∀ C C', InArr E C → InArr E' C' → SameLine b C C' → v' C' = v C + x

theorem reconFace_shift (lim : Limiter) (dlm dl dlp vm v vp x : K) (side : Fin 2) :
    reconFace lim dlm dl dlp (vm + x) (v + x) (vp + x) side = reconFace lim dlm dl dlp vm v vp side + x := by
  unfold reconFace
  have e1 : vp + x - (v + x) = vp - v := by ring
  have e2 : v + x - (vm + x) = v - vm := by ring
  rw [e1, e2]
  dsimp only
  split_ifs <;> ring

theorem ax_inj (hd : d ≤ 3) {a b : Fin d} (h : ax a = ax b) : a = b := Fin.ext (by rw [← ax_val hd, h, ax_val hd])

/-- A cell with its neighbours in all directions. -/
def Wide (d : ℕ) (E : Cell) (k : ℤ) (C : Cell) : Prop := ∀ a : Fin 3, 0 ≤ C a ∧ C a < E a ∧ (a.val < d → k ≤ C a ∧ C a + k < E a)

theorem Wide.nb (hd : d ≤ 3) {C : Cell} {k : ℤ} (h : Wide d E k C) (a : Fin d) {t : ℤ} (h1 : -1 ≤ t) (h2 : t ≤ 1) (hk : 1 ≤ k) : Wide d E (k - 1) (nb C (ax a) t) := fun e => by
  have := h e
  unfold Heracles.nb
  by_cases he : e = ax a
  · subst he
    have h3 := (h (ax a)).2.2 (by rw [ax_val hd]; exact a.isLt)
    rw [Function.update_self]
    omega
  · rw [Function.update_of_ne he]
    omega

theorem Wide.inArr {C : Cell} {k : ℤ} (h : Wide d E k C) : InArr E C := fun a => ⟨(h a).1, (h a).2.1⟩

section Recon
variable {v v' : Cell → K} {x : K} {C C' : Cell}

local notation "EK" => exactKernels (n := n) lim sol eos tr Geom.cartesian none

theorem recon_level (hd : d ≤ 3) (hE : ∃ i, 0 ≤ i ∧ i < E' (ax b)) (hEE : ∀ a, a ≠ ax b → E' a = E a) (hv : LineShift (ax b) E E' x v v') (hC : Wide d E 1 C) (p : PGrid d K) (side : Fin 2) :
    kReconVal EK p v C side b = v C := by
  obtain ⟨i, hi⟩ := hE
  have key : ∀ D, InArr E D → SameLine (ax b) C D → v D = v C := fun D hD hs => by
    have h1 : InArr E' (Function.update C (ax b) i) := fun a => by
      by_cases ha : a = ax b
      · subst ha; rw [Function.update_self]; exact hi
      · rw [Function.update_of_ne ha, hEE a ha]; exact hC.inArr a
    have e1 := hv C _ hC.inArr h1 fun a ha => Function.update_of_ne ha _ _
    have e2 := hv D _ hD h1 fun a ha => (Function.update_of_ne ha _ _).trans (hs a ha).symm
    exact add_right_cancel (e2.symm.trans e1)
  unfold kReconVal
  rw [key _ (hC.nb hd b le_rfl (by norm_num) le_rfl).inArr (sameLine_nb _ _ _), key _ (hC.nb hd b (by norm_num) le_rfl le_rfl).inArr (sameLine_nb _ _ _)]
  exact reconFace_level _ _ _ _ _ _

theorem recon_line (hd : d ≤ 3) (hEE : ∀ a, a ≠ ax b → E' a = E a) (hX : ∀ a, a ≠ ax b → X' a = X a) (hv : LineShift (ax b) E E' x v v') (hC : Wide d E 1 C) (hC' : Wide d E' 1 C') (hs : SameLine (ax b) C C') (side : Fin 2) (a : Fin d) :
    kReconVal EK (kGrid EK .cartesian X' Gr') v' C' side a = kReconVal EK (kGrid EK .cartesian X Gr) v C side a + x := by
  by_cases hab : a = b
  · subst hab
    have hsym : LineShift (ax a) E' E (-x) v' v := fun D D' hD hD' hs => by rw [hv D' D hD' hD hs.symm]; ring
    rw [recon_level (E := E) (E' := E') hd ⟨C' (ax a), hC'.inArr _⟩ hEE hv hC, recon_level (E := E') (E' := E) hd ⟨C (ax a), hC.inArr _⟩ (fun e he => (hEE e he).symm) hsym hC']
    exact hv _ _ hC.inArr hC'.inArr hs
  · have hne : ax a ≠ ax b := fun h => hab (ax_inj hd h)
    have hl : ∀ D D', SameLine (ax b) D D' → kLen EK (kGrid (n := n) EK .cartesian X' Gr') a D' = kLen EK (kGrid (n := n) EK .cartesian X Gr) a D := by
      intro D D' h
      rw [kLen_exact hd, kLen_exact hd]
      show X' (ax a) _ - X' (ax a) _ = X (ax a) _ - X (ax a) _
      rw [hX _ hne, h _ hne]
    unfold kReconVal
    rw [hl _ _ (hs.nb _), hl _ _ hs, hl _ _ (hs.nb _), hv _ _ (hC.nb hd a le_rfl (by norm_num) le_rfl).inArr (hC'.nb hd a le_rfl (by norm_num) le_rfl).inArr (hs.nb _), hv _ _ hC.inArr hC'.inArr hs,
      hv _ _ (hC.nb hd a (by norm_num) le_rfl le_rfl).inArr (hC'.nb hd a (by norm_num) le_rfl le_rfl).inArr (hs.nb _)]
    exact reconFace_shift _ _ _ _ _ _ _ _ _

end Recon

/-- `W'` is `W` with the velocity `w` added, on cells of one line along `b`. -/
def LineRel (b : Fin d) (E E' : Cell) (w : K) (W W' : Cell → Fields d n K) : Prop :=
  ∀ C C', InArr E C → InArr E' C' → SameLine (ax b) C C' → W' C' = (W C).boost b w

section Step
variable {W W' : Cell → Fields d n K} {C C' : Cell}

local notation "EK" => exactKernels (n := n) lim sol eos tr Geom.cartesian none

theorem prim_boost {f : Fields d n K} (h : f.rho ≠ 0) :
    (EK).prim (f.boost b w).rho ⟨(f.boost b w).rhou, (f.boost b w).E⟩ = ((EK).prim f.rho ⟨f.rhou, f.E⟩).boost b w := by
  have := toPrim_boost eos b w (c := f.cons) h
  have e1 := congrArg Prim.u this
  have e2 := congrArg Prim.P this
  exact VelPres.ext e1 e2

section Faces
variable (hd : d ≤ 3) (hEE : ∀ a, a ≠ ax b → E' a = E a) (hX : ∀ a, a ≠ ax b → X' a = X a) (hW : LineRel b E E' w W W') (hne : ∀ C, InArr E C → (W C).rho ≠ 0)
  (hC : Wide d E 1 C) (hC' : Wide d E' 1 C') (hs : SameLine (ax b) C C')
include hd hEE hX hW hne hC hC' hs

omit hd hEE hX hC hC' hs in
theorem shift_u (i : Fin d) : LineShift (ax b) E E' (if i = b then w else 0) (fun c => (kPrimGlob EK W c).u i) (fun c => (kPrimGlob EK W' c).u i) := fun D D' hD hD' h => by
  show ((EK).prim (W' D').rho ⟨(W' D').rhou, (W' D').E⟩).u i = _
  rw [hW D D' hD hD' h, prim_boost (hne D hD)]
  rfl

omit hd hEE hX hC hC' hs in
theorem shift_P : LineShift (ax b) E E' 0 (fun c => (kPrimGlob EK W c).P) (fun c => (kPrimGlob EK W' c).P) := fun D D' hD hD' h => by
  show ((EK).prim (W' D').rho ⟨(W' D').rhou, (W' D').E⟩).P = _
  rw [hW D D' hD hD' h, prim_boost (hne D hD), add_zero]
  rfl

omit [LinearOrder K] [IsStrictOrderedRing K] hd hEE hX hC hC' hs hne in
theorem shift_rho : LineShift (ax b) E E' 0 (fun c => (W c).rho) (fun c => (W' c).rho) := fun D D' hD hD' h => by
  dsimp only
  rw [hW D D' hD hD' h, add_zero]
  rfl

omit [LinearOrder K] [IsStrictOrderedRing K] hd hEE hX hC hC' hs hne in
theorem shift_fx (i : Fin n) : LineShift (ax b) E E' 0 (fun c => (W c).fx i) (fun c => (W' c).fx i) := fun D D' hD hD' h => by
  dsimp only
  rw [hW D D' hD hD' h, add_zero]
  rfl

theorem faceUP_boost (side : Fin 2) (a : Fin d) :
    kFaceUP EK (kGrid EK .cartesian X' Gr') (kPrimGlob EK W') C' side a = (kFaceUP EK (kGrid EK .cartesian X Gr) (kPrimGlob EK W) C side a).boost b w := by
  unfold kFaceUP
  refine VelPres.ext (funext fun i => ?_) ?_
  · exact recon_line hd hEE hX (shift_u hW hne i) hC hC' hs side a
  · exact (recon_line hd hEE hX (shift_P hW hne) hC hC' hs side a).trans (add_zero _)

theorem faceFields_boost (side : Fin 2) (a : Fin d) :
    kFaceFields EK (kGrid EK .cartesian X' Gr') W' (kPrimGlob EK W') C' side a = (kFaceFields EK (kGrid EK .cartesian X Gr) W (kPrimGlob EK W) C side a).boost b w := by
  have h := faceUP_boost (lim := lim) (sol := sol) (eos := eos) (tr := tr) (Gr := Gr) (Gr' := Gr') hd hEE hX hW hne hC hC' hs side a
  have hr := (recon_line (n := n) (lim := lim) (sol := sol) (eos := eos) (tr := tr) (Gr := Gr) (Gr' := Gr') hd hEE hX (shift_rho hW) hC hC' hs side a).trans (add_zero _)
  unfold kFaceFields
  dsimp only
  rw [h, hr]
  have ht := toCons_boost eos b w (⟨kReconVal EK (kGrid EK .cartesian X Gr) (fun c => (W c).rho) C side a,
    (kFaceUP EK (kGrid EK .cartesian X Gr) (kPrimGlob EK W) C side a).u, (kFaceUP EK (kGrid EK .cartesian X Gr) (kPrimGlob EK W) C side a).P⟩ : Prim d K)
  have e1 := congrArg Cons.rhou ht
  have e2 := congrArg Cons.E ht
  refine Fields.ext rfl e1 e2 (funext fun i => ?_)
  exact (recon_line hd hEE hX (shift_fx hW i) hC hC' hs side a).trans (add_zero _)

omit hX hs in
theorem faceUP_level (side : Fin 2) : kFaceUP EK (kGrid EK .cartesian X Gr) (kPrimGlob EK W) C side b = kPrimGlob EK W C := by
  unfold kFaceUP
  refine VelPres.ext (funext fun i => ?_) ?_
  · exact recon_level hd ⟨C' (ax b), hC'.inArr _⟩ hEE (shift_u hW hne i) hC _ side
  · exact recon_level hd ⟨C' (ax b), hC'.inArr _⟩ hEE (shift_P hW hne) hC _ side

omit hX hs in
theorem faceFields_level : kFaceFields EK (kGrid EK .cartesian X Gr) W (kPrimGlob EK W) C 0 b = kFaceFields EK (kGrid EK .cartesian X Gr) W (kPrimGlob EK W) C 1 b := by
  unfold kFaceFields
  dsimp only
  rw [faceUP_level hd hEE hW hne hC hC', faceUP_level hd hEE hW hne hC hC', recon_level hd ⟨C' (ax b), hC'.inArr _⟩ hEE (shift_rho hW) hC, recon_level hd ⟨C' (ax b), hC'.inArr _⟩ hEE (shift_rho hW) hC]
  refine Fields.ext rfl rfl rfl (funext fun i => ?_)
  dsimp only
  rw [recon_level hd ⟨C' (ax b), hC'.inArr _⟩ hEE (shift_fx hW i) hC, recon_level hd ⟨C' (ax b), hC'.inArr _⟩ hEE (shift_fx hW i) hC]

theorem recVal_boost (hx : ∀ e i, 0 ≤ i → i < E e → X e (i + 1) - X e i ≠ 0) (hx' : ∀ e i, 0 ≤ i → i < E' e → X' e (i + 1) - X' e i ≠ 0) (hGr : Gr' C' = Gr C) (dt : K) (side : Fin 2) (a : Fin d) :
    kRecVal EK .cartesian (kGrid EK .cartesian X' Gr') dt W' (kPrimGlob EK W') C' side a = (kRecVal EK .cartesian (kGrid EK .cartesian X Gr) dt W (kPrimGlob EK W) C side a).boost b w := by
  have h := hancock_boost (eos := eos) (tr := tr) (dt := dt) (gr := Gr C) (w := w) (b := b) hGr
    (dg := fun a => (kGrid (n := n) EK .cartesian X Gr).kDirGeo .cartesian a C) (dg' := fun a => (kGrid (n := n) EK .cartesian X' Gr').kDirGeo .cartesian a C')
    (fun a x y => kFluxDiff_cart none a C (fun e => hx e _ (hC e).1 (hC e).2.1) dt x y)
    (fun a ha x y => by
      rw [kFluxDiff_cart none a C' (fun e => hx' e _ (hC' e).1 (hC' e).2.1), hX _ fun h => ha (ax_inj hd h), hs _ fun h => ha (ax_inj hd h)])
    (fun x y => kFluxDiff_cart none b C' (fun e => hx' e _ (hC' e).1 (hC' e).2.1) dt x y)
    (faceUP_boost (lim := lim) (sol := sol) (eos := eos) (tr := tr) (Gr := Gr) (Gr' := Gr') hd hEE hX hW hne hC hC' hs)
    (faceFields_boost (lim := lim) (sol := sol) (eos := eos) (tr := tr) (Gr := Gr) (Gr' := Gr') hd hEE hX hW hne hC hC' hs)
    ((faceUP_level hd hEE hW hne hC hC' 0).trans (faceUP_level hd hEE hW hne hC hC' 1).symm) (faceFields_level hd hEE hW hne hC hC') side a
  exact congrArg (fun f : Fields d n K => { f with fx := fun ifx => f.fx ifx / f.rho }) h

omit hX hs in
theorem recVal_level (dt : K) : kRecVal EK .cartesian (kGrid EK .cartesian X Gr) dt W (kPrimGlob EK W) C 1 b = kRecVal EK .cartesian (kGrid EK .cartesian X Gr) dt W (kPrimGlob EK W) C 0 b := by
  have h := faceFields_level (lim := lim) (sol := sol) (eos := eos) (tr := tr) (X := X) (Gr := Gr) hd hEE hW hne hC hC'
  unfold kRecVal
  show (EK).predictFx (hancockPure eos tr .cartesian dt _ _ _ _ 1 b) = (EK).predictFx (hancockPure eos tr .cartesian dt _ _ _ _ 0 b)
  unfold hancockPure
  dsimp only
  rw [← h]

end Faces

/-- The face states of the cells and neighbours are physical. -/
def FacesOk (eos : EoS K) (R : Cell → Fin 2 → Fin d → Fields d n K) (C : Cell) : Prop :=
  ∀ (a : Fin d) (t : ℤ), -1 ≤ t → t ≤ 1 → ∀ side e, (R (nb C (ax a) t) side e).cons.Adm eos

theorem stepVal_boost (he : sol = .hllc → eos.Lawful) (hd : d ≤ 3) (hEE : ∀ a, a ≠ ax b → E' a = E a) (hX : ∀ a, a ≠ ax b → X' a = X a) (hW : LineRel b E E' w W W')
    (hne : ∀ C, InArr E C → (W C).rho ≠ 0) (hC : Wide d E 2 C) (hC' : Wide d E' 2 C') (hs : SameLine (ax b) C C')
    (hx : ∀ e i, 0 ≤ i → i < E e → X e (i + 1) - X e i ≠ 0) (hx' : ∀ e i, 0 ≤ i → i < E' e → X' e (i + 1) - X' e i ≠ 0)
    (hGr : ∀ C C', InArr E C → InArr E' C' → SameLine (ax b) C C' → Gr' C' = Gr C) (hGr0 : ∀ C C', InArr E C → InArr E C' → SameLine (ax b) C C' → Gr C' = Gr C) (dt : K)
    (hok : FacesOk eos (kRecVal EK .cartesian (kGrid EK .cartesian X Gr) (dt / 2) W (kPrimGlob EK W)) C) :
    kStepVal EK .cartesian (kGrid EK .cartesian X' Gr') dt W' (kPrimGlob EK W') C' = (kStepVal EK .cartesian (kGrid EK .cartesian X Gr) dt W (kPrimGlob EK W) C).boost b w := by
  have n0 : ∀ (B : Cell) (a : Fin d), nb B (ax a) 0 = B := fun B a => by unfold nb; simp
  have hW0 : LineRel b E E 0 W W := fun D D' hD hD' h => by
    rw [Fields.boost_zero]
    have h1 : InArr E' (Function.update D (ax b) (C' (ax b))) := fun a => by
      by_cases ha : a = ax b
      · subst ha; rw [Function.update_self]; exact hC'.inArr _
      · rw [Function.update_of_ne ha, hEE a ha]; exact hD a
    have e1 := hW D _ hD h1 fun a ha => Function.update_of_ne ha _ _
    have e2 := hW D' _ hD' h1 fun a ha => (Function.update_of_ne ha _ _).trans (h a ha).symm
    exact Fields.boost_inj (e2.symm.trans e1)
  have hr : ∀ (a : Fin d) (t : ℤ), -1 ≤ t → t ≤ 1 → ∀ side e, kRecVal EK .cartesian (kGrid EK .cartesian X' Gr') (dt / 2) W' (kPrimGlob EK W') (nb C' (ax a) t) side e =
      (kRecVal EK .cartesian (kGrid EK .cartesian X Gr) (dt / 2) W (kPrimGlob EK W) (nb C (ax a) t) side e).boost b w := fun a t h1 h2 side e => by
    have q := hC.nb hd a h1 h2 (by norm_num)
    have q' := hC'.nb hd a h1 h2 (by norm_num)
    exact recVal_boost hd hEE hX hW hne q q' (hs.nb _) hx hx' (hGr _ _ q.inArr q'.inArr (hs.nb _)) _ side e
  have hr0 : ∀ side e, kRecVal EK .cartesian (kGrid EK .cartesian X' Gr') (dt / 2) W' (kPrimGlob EK W') C' side e =
      (kRecVal EK .cartesian (kGrid EK .cartesian X Gr) (dt / 2) W (kPrimGlob EK W) C side e).boost b w := fun side e => by
    have := hr b 0 (by norm_num) (by norm_num) side e
    rwa [n0, n0] at this
  have hk0 : ∀ side e, (kRecVal EK .cartesian (kGrid EK .cartesian X Gr) (dt / 2) W (kPrimGlob EK W) C side e).cons.Adm eos := fun side e => by
    have := hok b 0 (by norm_num) (by norm_num) side e
    rwa [n0] at this
  have hC1 : Wide d E 1 C := fun a => by have := hC a; omega
  have hC1' : Wide d E' 1 C' := fun a => by have := hC' a; omega
  have hlev := recVal_level (lim := lim) (sol := sol) (eos := eos) (tr := tr) (X := X) (Gr := Gr) hd hEE hW hne hC1 hC1' (dt / 2)
  have hflat : ∀ t : ℤ, -1 ≤ t → t ≤ 1 → ∀ side, kRecVal EK .cartesian (kGrid EK .cartesian X Gr) (dt / 2) W (kPrimGlob EK W) (nb C (ax b) t) side b =
      kRecVal EK .cartesian (kGrid EK .cartesian X Gr) (dt / 2) W (kPrimGlob EK W) C side b := fun t h1 h2 side => by
    have q := hC.nb hd b h1 h2 (by norm_num)
    have := recVal_boost (lim := lim) (sol := sol) (eos := eos) (tr := tr) (X := X) (X' := X) (Gr := Gr) (Gr' := Gr) hd (fun _ _ => rfl) (fun _ _ => rfl) hW0 hne hC1 q (sameLine_nb _ _ _) hx hx
      (hGr0 _ _ hC.inArr q.inArr (sameLine_nb _ _ _)) (dt / 2) side b
    rwa [Fields.boost_zero] at this
  have h := godunov_boost (eos := eos) (tr := tr) (dt := dt) (gr := Gr C) (w := w) (b := b) (sol := sol) he (hGr _ _ hC.inArr hC'.inArr hs)
    (dg := fun a => (kGrid (n := n) EK .cartesian X Gr).kDirGeo .cartesian a C) (dg' := fun a => (kGrid (n := n) EK .cartesian X' Gr').kDirGeo .cartesian a C')
    (fun a x y => kFluxDiff_cart none a C (fun e => hx e _ (hC e).1 (hC e).2.1) dt x y)
    (fun a ha x y => by
      rw [kFluxDiff_cart none a C' (fun e => hx' e _ (hC' e).1 (hC' e).2.1), hX _ fun h => ha (ax_inj hd h), hs _ fun h => ha (ax_inj hd h)])
    (fun x y => kFluxDiff_cart none b C' (fun e => hx' e _ (hC' e).1 (hC' e).2.1) dt x y)
    (hW C C' hC.inArr hC'.inArr hs)
    (rm := fun a => kRecVal EK .cartesian (kGrid EK .cartesian X Gr) (dt / 2) W (kPrimGlob EK W) (nb C (ax a) (-1)))
    (rp := fun a => kRecVal EK .cartesian (kGrid EK .cartesian X Gr) (dt / 2) W (kPrimGlob EK W) (nb C (ax a) 1))
    (rm' := fun a => kRecVal EK .cartesian (kGrid EK .cartesian X' Gr') (dt / 2) W' (kPrimGlob EK W') (nb C' (ax a) (-1)))
    (rp' := fun a => kRecVal EK .cartesian (kGrid EK .cartesian X' Gr') (dt / 2) W' (kPrimGlob EK W') (nb C' (ax a) 1))
    (r0 := kRecVal EK .cartesian (kGrid EK .cartesian X Gr) (dt / 2) W (kPrimGlob EK W) C)
    (r0' := kRecVal EK .cartesian (kGrid EK .cartesian X' Gr') (dt / 2) W' (kPrimGlob EK W') C')
    (fun a => hr a (-1) le_rfl (by norm_num) 1 a) hr0 (fun a => hr a 1 (by norm_num) le_rfl 0 a)
    ((hflat (-1) le_rfl (by norm_num) 1).trans hlev) hlev (hflat 1 (by norm_num) le_rfl 0)
    (fun a => hok a (-1) le_rfl (by norm_num) 1 a) hk0 (fun a => hok a 1 (by norm_num) le_rfl 0 a)
  exact congrArg (fun f : Fields d n K => { f with fx := fun ifx => clamp (f.fx ifx / f.rho) 0 1 }) h

end Step

end Grid

section Bc
variable [Field K] {b : Fin d} {w : K} {E E' : Cell} {V V' : Cell → Fields d n K}

theorem Fields.boost_flip {a b : Fin d} (hab : a ≠ b) (w : K) (f : Fields d n K) : (f.boost b w).flip a = (f.flip a).boost b w := by
  refine Fields.ext rfl (funext fun i => ?_) ?_ rfl
  · simp only [Fields.flip, Fields.boost]
    by_cases hi : i = a
    · subst hi; simp [hab]
    · rw [Function.update_of_ne hi, Function.update_of_ne hi]
  · simp only [Fields.flip, Fields.boost, Function.update_of_ne hab.symm]

theorem condPure_line (hd : d ≤ 3) (hEE : ∀ a, a ≠ ax b → E' a = E a) (hV : LineRel b E E' w V V') (kind : BcKind) {ng : ℤ} (hng : 0 < ng) {a : Fin d} (hab : a ≠ b)
    (h2 : 2 * ng ≤ E (ax a)) (f : Fin 2) : LineRel b E E' w (condPure kind E ng a f V) (condPure kind E' ng a f V') := fun C C' hC hC' hs => by
  have ha : ax a ≠ ax b := fun h => hab (ax_inj hd h)
  have e2 : InGhostLayer E' ng (ax a) f C' ↔ InGhostLayer E ng (ax a) f C := by
    unfold InGhostLayer
    rw [hs _ ha, hEE _ ha]
  have e3 : ∀ t, interiorLayer E' ng (ax a) f t = interiorLayer E ng (ax a) f t := fun t => by unfold interiorLayer; rw [hEE _ ha]
  have e4 : ghostDepth E' ng (ax a) f C' = ghostDepth E ng (ax a) f C := by unfold ghostDepth; rw [hs _ ha, hEE _ ha]
  have hup : ∀ t, SameLine (ax b) (Function.update C (ax a) t) (Function.update C' (ax a) t) := fun t e he => by
    by_cases h : e = ax a
    · subst h; simp
    · rw [Function.update_of_ne h, Function.update_of_ne h, hs e he]
  have hin : ∀ {F B : Cell} {t : ℤ}, InArr F B → 0 ≤ t → t < F (ax a) → InArr F (Function.update B (ax a) t) := fun hB h0 h1 e => by
    by_cases h : e = ax a
    · subst h; rw [Function.update_self]; exact ⟨h0, h1⟩
    · rw [Function.update_of_ne h]; exact hB e
  rw [condPure_eq, condPure_eq]
  by_cases h : inExt E C = true ∧ InGhostLayer E ng (ax a) f C
  · have hg := h.2
    have hCa := hC (ax a)
    unfold InGhostLayer at hg
    rw [if_pos h, if_pos ⟨inExt_iff.2 hC', e2.2 h.2⟩]
    cases kind with
    | nullGradient =>
      show V' (nearest E' ng (ax a) f C') = (V (nearest E ng (ax a) f C)).boost b w
      have hl : 0 ≤ interiorLayer E ng (ax a) f 1 ∧ interiorLayer E ng (ax a) f 1 < E (ax a) := by
        unfold interiorLayer; split_ifs <;> omega
      unfold nearest
      rw [e3]
      exact hV _ _ (hin hC hl.1 hl.2) (hin hC' hl.1 (by rw [hEE _ ha]; exact hl.2)) (hup _)
    | reflexive =>
      show (V' (mirror E' ng (ax a) f C')).flip a = ((V (mirror E ng (ax a) f C)).flip a).boost b w
      have hl : 0 ≤ interiorLayer E ng (ax a) f (ghostDepth E ng (ax a) f C) ∧ interiorLayer E ng (ax a) f (ghostDepth E ng (ax a) f C) < E (ax a) := by
        unfold interiorLayer ghostDepth
        rcases hg with ⟨rfl, hg⟩ | ⟨rfl, hg⟩
        · simp only [if_true]; omega
        · simp only [one_ne_zero, if_false]; omega
      unfold mirror
      rw [e3, e4, hV _ _ (hin hC hl.1 hl.2) (hin hC' hl.1 (by rw [hEE _ ha]; exact hl.2)) (hup _), Fields.boost_flip hab]
    | periodic => exact hV C C' hC hC' hs
    | userDefined => exact hV C C' hC hC' hs
  · rw [if_neg h, if_neg fun h' => h ⟨inExt_iff.2 hC, e2.1 h'.2⟩]
    exact hV C C' hC hC' hs

theorem condPure_along (hV : LineRel b E E' w V V') {kind kind' : BcKind} (hk : kind ≠ .reflexive) (hk' : kind' ≠ .reflexive) {ng : ℤ} (hng : 0 < ng)
    (h2 : 2 * ng ≤ E (ax b)) (h2' : 2 * ng ≤ E' (ax b)) (f : Fin 2) : LineRel b E E' w (condPure kind E ng b f V) (condPure kind' E' ng b f V') := fun C C' hC hC' hs => by
  have key : ∀ {F B : Cell} {U : Cell → Fields d n K} {κ : BcKind}, κ ≠ .reflexive → 2 * ng ≤ F (ax b) → InArr F B → ∃ B', InArr F B' ∧ SameLine (ax b) B B' ∧ condPure κ F ng b f U B = U B' := by
    intro F B U κ hκ h2 hB
    rw [condPure_eq]
    split_ifs with h
    · cases κ with
      | nullGradient =>
        refine ⟨nearest F ng (ax b) f B, fun e => ?_, fun e he => Function.update_of_ne he _ _, rfl⟩
        unfold nearest
        by_cases he : e = ax b
        · subst he
          rw [Function.update_self]
          unfold interiorLayer
          split_ifs <;> omega
        · rw [Function.update_of_ne he]; exact hB e
      | reflexive => exact absurd rfl hκ
      | periodic => exact ⟨B, hB, fun _ _ => rfl, rfl⟩
      | userDefined => exact ⟨B, hB, fun _ _ => rfl, rfl⟩
    · exact ⟨B, hB, fun _ _ => rfl, rfl⟩
  obtain ⟨B, hB, hBs, e⟩ := key hk h2 hC (U := V)
  obtain ⟨B', hB', hBs', e'⟩ := key hk' h2' hC' (U := V')
  rw [e, e']
  exact hV _ _ hB hB' fun a ha => by rw [hBs' a ha, hs a ha, hBs a ha]

theorem bcGlob_line (hd : d ≤ 3) {nx nx' : Cell} {ng : ℤ} (hng : 0 < ng) (hpos : ∀ a, 0 < nx a) (hpos' : ∀ a, 0 < nx' a) (hnx : ∀ a, a ≠ ax b → nx' a = nx a)
    {bcs bcs' : Fin d → Fin 2 → BcKind} (hbc : ∀ a f, a ≠ b → bcs' a f = bcs a f) (hb : ∀ f, bcs b f ≠ .reflexive) (hb' : ∀ f, bcs' b f ≠ .reflexive) (order : List ℕ)
    {G G' : Cell → Fields d n K} (hG : ∀ g g', inBox 0 nx g → inBox 0 nx' g' → SameLine (ax b) g g' → G' g' = (G g).boost b w) :
    LineRel b (globExt nx (nghostOf d ng)) (globExt nx' (nghostOf d ng)) w (bcGlob bcs nx (nghostOf d ng) order G) (bcGlob bcs' nx' (nghostOf d ng) order G') := by
  have hN : ∀ a : Fin d, nghostOf d ng (ax a) = ng := fun a => if_pos (by rw [ax_val hd]; exact a.isLt)
  have hE : ∀ a : Fin d, 2 * ng ≤ globExt nx (nghostOf d ng) (ax a) := fun a => by
    unfold globExt; rw [hN]; have := hpos (ax a); omega
  have hE' : ∀ a : Fin d, 2 * ng ≤ globExt nx' (nghostOf d ng) (ax a) := fun a => by
    unfold globExt; rw [hN]; have := hpos' (ax a); omega
  have hEE : ∀ a, a ≠ ax b → globExt nx' (nghostOf d ng) a = globExt nx (nghostOf d ng) a := fun a ha => by unfold globExt; rw [hnx a ha]
  unfold bcGlob
  suffices h : ∀ V V' : Cell → Fields d n K, LineRel b (globExt nx (nghostOf d ng)) (globExt nx' (nghostOf d ng)) w V V' →
      LineRel b (globExt nx (nghostOf d ng)) (globExt nx' (nghostOf d ng)) w (order.foldl (bcPure bcs (fun _ _ => true) (globExt nx (nghostOf d ng)) (nghostOf d ng)) V)
        (order.foldl (bcPure bcs' (fun _ _ => true) (globExt nx' (nghostOf d ng)) (nghostOf d ng)) V') by
    refine h _ _ fun C C' hC hC' hs => hG _ _ (fun a => ⟨Int.emod_nonneg _ (hpos a).ne', Int.emod_lt_of_pos _ (hpos a)⟩)
      (fun a => ⟨Int.emod_nonneg _ (hpos' a).ne', Int.emod_lt_of_pos _ (hpos' a)⟩) fun a ha => ?_
    show (C' a - nghostOf d ng a) % nx' a = (C a - nghostOf d ng a) % nx a
    rw [hnx a ha, hs a ha]
  induction order with
  | nil => exact fun V V' h => h
  | cons id l ih =>
    intro V V' hV
    rw [List.foldl_cons, List.foldl_cons]
    refine ih _ _ ?_
    unfold bcPure
    by_cases h : id / 2 < d
    · simp only [dif_pos h, if_true]
      rw [hN]
      by_cases hab : (⟨id / 2, h⟩ : Fin d) = b
      · rw [hab]
        exact condPure_along hV (hb _) (hb' _) hng (hE b) (hE' b) _
      · rw [hbc _ _ hab]
        exact condPure_line hd hEE hV _ hng hab (hE _) _
    · simp only [dif_neg h]
      exact hV

end Bc

end Heracles
