import Verif.Spec.Slab
import Verif.Lemmas.Ramp
import Verif.Props.KernelRun

/-!
# Kernels on flows that are the same all along the last axis
-/

namespace Heracles

variable {d n : ℕ} {K : Type}

theorem ax_castSucc (a : Fin d) : ax (Fin.castSucc a) = ax a := rfl

section Lift
variable [Field K]

def Cons.lift (c : Cons d K) : Cons (d + 1) K := ⟨c.rho, Fin.snoc c.rhou 0, c.E⟩
def Flux.lift (c : Flux d K) : Flux (d + 1) K := ⟨c.rho, Fin.snoc c.rhou 0, c.E⟩
def Prim.lift (c : Prim d K) : Prim (d + 1) K := ⟨c.rho, Fin.snoc c.u 0, c.P⟩
def VelPres.lift (c : VelPres d K) : VelPres (d + 1) K := ⟨Fin.snoc c.u 0, c.P⟩

theorem snoc_ext {f : Fin (d + 1) → K} {g : Fin d → K} (h : ∀ i, f (Fin.castSucc i) = g i) (hl : f (Fin.last d) = 0) : f = Fin.snoc g 0 := by
  funext i
  refine Fin.lastCases ?_ (fun i => ?_) i
  · rw [hl, Fin.snoc_last]
  · rw [h, Fin.snoc_castSucc]

theorem snoc_update (g : Fin d → K) (a : Fin d) (v : K) :
    Function.update (Fin.snoc g 0 : Fin (d + 1) → K) a.castSucc v = Fin.snoc (Function.update g a v) 0 := by
  refine snoc_ext (fun i => ?_) ?_
  · by_cases h : i = a
    · subst h; simp
    · rw [Function.update_of_ne h, Function.update_of_ne (by simpa using h), Fin.snoc_castSucc]
  · rw [Function.update_of_ne (Fin.castSucc_lt_last a).ne', Fin.snoc_last]

theorem sum_snoc (f : Fin (d + 1) → K) (h : f (Fin.last d) = 0) : ∑ i, f i = ∑ i : Fin d, f i.castSucc := by
  rw [Fin.sum_univ_castSucc, h, add_zero]

theorem Cons.lift_ek (c : Cons d K) : c.lift.ek = c.ek := by
  unfold Cons.ek
  rw [sum_snoc _ (by simp [Cons.lift])]
  simp [Cons.lift]

theorem Prim.lift_ek (c : Prim d K) : c.lift.ek = c.ek := by
  unfold Prim.ek
  rw [sum_snoc _ (by simp [Prim.lift])]
  simp [Prim.lift]

theorem toPrim_lift (eos : EoS K) (c : Cons d K) : toPrim eos c.lift = (toPrim eos c).lift := by
  have h : c.lift.evol = c.evol := by unfold Cons.evol; rw [c.lift_ek]; rfl
  unfold toPrim
  rw [h]
  refine Prim.ext rfl ?_ rfl
  exact snoc_ext (fun i => by simp [Cons.lift]) (by simp [Cons.lift])

theorem toCons_lift (eos : EoS K) (c : Prim d K) : toCons eos c.lift = (toCons eos c).lift := by
  unfold toCons
  rw [c.lift_ek]
  refine Cons.ext rfl ?_ rfl
  exact snoc_ext (fun i => by simp [Prim.lift]) (by simp [Prim.lift])

theorem fluxPrim_lift (eos : EoS K) (p : Prim d K) (a : Fin d) : fluxPrim eos p.lift a.castSucc = (fluxPrim eos p a).lift := by
  have hu : p.lift.u a.castSucc = p.u a := by simp [Prim.lift]
  unfold fluxPrim
  simp only [p.lift_ek, hu]
  refine Flux.ext rfl ?_ rfl
  have e : (fun i => p.lift.rho * p.u a * p.lift.u i) = (Fin.snoc (fun i => p.rho * p.u a * p.u i) 0 : Fin (d + 1) → K) :=
    snoc_ext (fun i => by simp [Prim.lift]) (by simp [Prim.lift])
  rw [e]
  exact snoc_update _ _ _

end Lift

section Solver
variable [Field K] [LinearOrder K]

theorem Solver.flux_lift (sol : Solver) (eos : EoS K) (cL cR : Cons d K) (a : Fin d) :
    sol.flux eos cL.lift cR.lift a.castSucc = (sol.flux eos cL cR a).lift := by
  have hu : ∀ p : Prim d K, p.lift.u a.castSucc = p.u a := fun p => by simp [Prim.lift]
  have hr : ∀ p : Prim d K, p.lift.rho = p.rho := fun _ => rfl
  have hP : ∀ p : Prim d K, p.lift.P = p.P := fun _ => rfl
  have hL : ∀ p q : Prim d K, waveL eos p.lift q.lift a.castSucc = waveL eos p q a := fun p q => by unfold waveL; rw [hu, hu]; rfl
  have hR : ∀ p q : Prim d K, waveR eos p.lift q.lift a.castSucc = waveR eos p q a := fun p q => by unfold waveR; rw [hu, hu]; rfl
  cases sol with
  | hll =>
    show hllFlux eos _ _ _ = (hllFlux eos _ _ _).lift
    unfold hllFlux
    simp only [toPrim_lift, fluxPrim_lift, hL, hR]
    refine Flux.ext rfl ?_ rfl
    exact snoc_ext (fun i => by simp [Flux.lift, Cons.lift]) (by simp [Flux.lift, Cons.lift, fluxHll])
  | hllc =>
    show hllcFlux eos _ _ _ = (hllcFlux eos _ _ _).lift
    have hs : ∀ (p q : Prim d K) x y, hllcUstar p.lift q.lift a.castSucc x y = hllcUstar p q a x y := fun p q x y => by
      unfold hllcUstar; rw [hu, hu]; rfl
    have hp : ∀ (p q : Prim d K) x y, hllcPstar p.lift q.lift a.castSucc x y = hllcPstar p q a x y := fun p q x y => by
      unfold hllcPstar; rw [hu, hu, hs]; rfl
    have hst : ∀ (c : Cons d K) (p : Prim d K) (f : Flux d K) x y z,
        hllcStar c.lift p.lift f.lift a.castSucc x y z = (hllcStar c p f a x y z).lift := fun c p f x y z => by
      unfold hllcStar
      simp only [hu, hP]
      refine Flux.ext rfl ?_ rfl
      have e : ∀ r : K, (fun i => r * y * p.lift.u i) = (Fin.snoc (fun i => r * y * p.u i) 0 : Fin (d + 1) → K) := fun r =>
        snoc_ext (fun i => by simp [Prim.lift]) (by simp [Prim.lift])
      rw [e]
      exact snoc_update _ _ _
    unfold hllcFlux
    simp only [toPrim_lift, fluxPrim_lift, hL, hR, hs, hp]
    split_ifs <;> first | rfl | exact hst _ _ _ _ _ _
  | splitting =>
    show splittingFlux eos _ _ _ = (splittingFlux eos _ _ _).lift
    unfold splittingFlux
    simp only [toPrim_lift, hu, hr, hP]
    have e : ∀ (c : Cons d K) (r P E : K), (⟨r * c.lift.rho, Function.update (fun i => r * c.lift.rhou i) a.castSucc (r * c.lift.rhou a.castSucc + P), r * c.lift.E + E⟩ : Flux (d + 1) K) =
        (⟨r * c.rho, Function.update (fun i => r * c.rhou i) a (r * c.rhou a + P), r * c.E + E⟩ : Flux d K).lift := fun c r P E => by
      refine Flux.ext rfl ?_ rfl
      have e : (fun i => r * c.lift.rhou i) = (Fin.snoc (fun i => r * c.rhou i) 0 : Fin (d + 1) → K) :=
        snoc_ext (fun i => by simp [Cons.lift]) (by simp [Cons.lift])
      have e' : c.lift.rhou a.castSucc = c.rhou a := by simp [Cons.lift]
      simp only [e, e']
      exact snoc_update _ _ _
    split_ifs
    · exact e cL _ _ _
    · exact e cR _ _ _

end Solver

section Pure
variable [Field K] {eos : EoS K} {tr : Trig K} {dt : K} {dg : Fin d → DirGeo K} {dg' : Fin (d + 1) → DirGeo K} {gr : Fin d → K} {gr' : Fin (d + 1) → K}

/-- The geometry of a cell of the grid with one more dimension: nothing changes but the new axis, along which the two faces are the same. -/
structure SlabGeo (dt : K) (dg : Fin d → DirGeo K) (dg' : Fin (d + 1) → DirGeo K) : Prop where
  diff : ∀ a f g, fluxDiff (dg' (Fin.castSucc a)) (dt / (dg' (Fin.castSucc a)).dv) f g = fluxDiff (dg a) (dt / (dg a).dv) f g
  last : ∀ f, fluxDiff (dg' (Fin.last d)) (dt / (dg' (Fin.last d)).dv) f f = 0

/-- What the predictor adds to the face state `f`. -/
def slabAdd (eos : EoS K) (tr : Trig K) (dt : K) (dg : Fin d → DirGeo K) (gr : Fin d → K) (up : Fin 2 → Fin d → VelPres d K)
    (old : Fin 2 → Fin d → Fields d n K) (f : Fields (d + 1) n K) : Fields (d + 1) n K :=
  let pL : Fin d → Prim d K := fun idim => facePrim (old 0 idim) (up 0 idim)
  let pR : Fin d → Prim d K := fun idim => facePrim (old 1 idim) (up 1 idim)
  let fL : Fin d → Flux d K := fun idim => fluxPrim eos (pL idim) idim
  let fR : Fin d → Flux d K := fun idim => fluxPrim eos (pR idim) idim
  { rho := f.rho + ∑ idim, fluxDiff (dg idim) (dt / (dg idim).dv) (fL idim).rho (fR idim).rho
    rhou := fun i => f.rhou i + (Fin.snoc (fun i => ∑ idim, (momDiff tr .cartesian (dg idim) (dt / (dg idim).dv) (pL idim) (pR idim) (fL idim) (fR idim) idim i
            + if i = idim then dt * gr idim * f.rho else 0)) 0 : Fin (d + 1) → K) i
    E := f.E + ∑ idim, (fluxDiff (dg idim) (dt / (dg idim).dv) (fL idim).E (fR idim).E + dt * gr idim * f.rhou idim.castSucc)
    fx := fun ifx => f.fx ifx * f.rho
        + ∑ idim, fluxDiff (dg idim) (dt / (dg idim).dv) ((old 0 idim).fx ifx * (fL idim).rho) ((old 1 idim).fx ifx * (fR idim).rho) }

theorem slabAdd_lift (up : Fin 2 → Fin d → VelPres d K) (old : Fin 2 → Fin d → Fields d n K) (side : Fin 2) (a : Fin d) :
    slabAdd eos tr dt dg gr up old (old side a).lift = (hancockPure eos tr .cartesian dt dg gr up old side a).lift := by
  unfold slabAdd hancockPure
  refine Fields.ext rfl ?_ ?_ rfl
  · refine snoc_ext (fun i => ?_) ?_
    · simp [Fields.lift]
    · simp [Fields.lift]
  · simp [Fields.lift]

theorem hancock_slab (h : SlabGeo dt dg dg') (hg : gr' = Fin.snoc gr 0) {up : Fin 2 → Fin d → VelPres d K} {old : Fin 2 → Fin d → Fields d n K}
    {up' : Fin 2 → Fin (d + 1) → VelPres (d + 1) K} {old' : Fin 2 → Fin (d + 1) → Fields (d + 1) n K}
    (hu : ∀ s a, up' s (Fin.castSucc a) = (up s a).lift) (hu' : up' 0 (Fin.last d) = up' 1 (Fin.last d))
    (ho : ∀ s a, old' s (Fin.castSucc a) = (old s a).lift) (ho' : old' 0 (Fin.last d) = old' 1 (Fin.last d)) (side : Fin 2) (ipos : Fin (d + 1)) :
    hancockPure eos tr .cartesian dt dg' gr' up' old' side ipos = slabAdd eos tr dt dg gr up old (old' side ipos) := by
  have hp : ∀ (f : Fields d n K) (q : VelPres d K), facePrim f.lift q.lift = (facePrim f q).lift := fun _ _ => rfl
  unfold hancockPure slabAdd
  dsimp only
  refine Fields.ext ?_ ?_ ?_ ?_
  · dsimp only
    rw [Fin.sum_univ_castSucc, ← ho', ← hu', h.last, add_zero]
    congr 1
    refine Finset.sum_congr rfl fun a _ => ?_
    rw [h.diff, ho, ho, hu, hu, hp, hp, fluxPrim_lift, fluxPrim_lift]
    rfl
  · funext i
    dsimp only
    refine Fin.lastCases ?_ (fun i => ?_) i
    · rw [Fin.snoc_last, Fin.sum_univ_castSucc, ← ho', ← hu']
      simp only [momDiff, reduceCtorEq, if_false, add_zero]
      rw [h.last, hg]
      simp only [Fin.snoc_last, mul_zero, zero_mul, ite_self, add_zero]
      refine congrArg₂ (· + ·) rfl (Finset.sum_eq_zero fun a _ => ?_) |>.trans (add_zero _)
      rw [h.diff, ho, ho, hu, hu, hp, hp, fluxPrim_lift, fluxPrim_lift]
      simp [Flux.lift, fluxDiff, (Fin.castSucc_lt_last a).ne']
    · rw [Fin.snoc_castSucc, Fin.sum_univ_castSucc, ← ho', ← hu']
      simp only [momDiff, reduceCtorEq, if_false, add_zero]
      rw [h.last, if_neg (Fin.castSucc_lt_last i).ne, add_zero, add_zero]
      refine congrArg₂ (· + ·) rfl (Finset.sum_congr rfl fun a _ => ?_)
      rw [h.diff, ho, ho, hu, hu, hp, hp, fluxPrim_lift, fluxPrim_lift, hg]
      simp [Flux.lift]
  · dsimp only
    rw [Fin.sum_univ_castSucc, ← ho', ← hu', h.last, hg, Fin.snoc_last]
    simp only [mul_zero, zero_mul, add_zero]
    congr 1
    refine Finset.sum_congr rfl fun a _ => ?_
    rw [h.diff, ho, ho, hu, hu, hp, hp, fluxPrim_lift, fluxPrim_lift, Fin.snoc_castSucc]
    rfl
  · funext ifx
    dsimp only
    rw [Fin.sum_univ_castSucc, ← ho', ← hu', h.last, add_zero]
    congr 1
    refine Finset.sum_congr rfl fun a _ => ?_
    rw [h.diff, ho, ho, hu, hu, hp, hp, fluxPrim_lift, fluxPrim_lift]
    rfl

variable [LinearOrder K]

theorem godunov_slab (sol : Solver) (h : SlabGeo dt dg dg') (hg : gr' = Fin.snoc gr 0) {s : Fields d n K} {s' : Fields (d + 1) n K} (hs : s' = s.lift)
    {rm rp : Fin d → Fin 2 → Fin d → Fields d n K} {r0 : Fin 2 → Fin d → Fields d n K}
    {rm' rp' : Fin (d + 1) → Fin 2 → Fin (d + 1) → Fields (d + 1) n K} {r0' : Fin 2 → Fin (d + 1) → Fields (d + 1) n K}
    (hm : ∀ a, rm' (Fin.castSucc a) 1 (Fin.castSucc a) = (rm a 1 a).lift) (h0 : ∀ s a, r0' s (Fin.castSucc a) = (r0 s a).lift)
    (hp : ∀ a, rp' (Fin.castSucc a) 0 (Fin.castSucc a) = (rp a 0 a).lift)
    (hm' : rm' (Fin.last d) 1 (Fin.last d) = r0' 0 (Fin.last d)) (h0' : r0' 1 (Fin.last d) = r0' 0 (Fin.last d))
    (hp' : rp' (Fin.last d) 0 (Fin.last d) = r0' 0 (Fin.last d)) :
    godunovPure sol eos tr .cartesian dt dg' gr' s' rm' r0' rp' = (godunovPure sol eos tr .cartesian dt dg gr s rm r0 rp).lift := by
  have hc : ∀ f : Fields d n K, f.lift.cons = f.cons.lift := fun _ => rfl
  unfold godunovPure
  dsimp only
  subst hs
  refine Fields.ext ?_ ?_ ?_ ?_
  · dsimp only
    rw [Fin.sum_univ_castSucc, hm', h0', hp', h.last, add_zero]
    refine congrArg₂ (· + ·) rfl (Finset.sum_congr rfl fun a _ => ?_)
    rw [h.diff, hm, h0, h0, hp, hc, hc, hc, hc, sol.flux_lift, sol.flux_lift]
    rfl
  · refine snoc_ext (fun i => ?_) ?_
    · dsimp only
      rw [Fin.sum_univ_castSucc, hm', h0', hp']
      simp only [momDiff, reduceCtorEq, if_false, add_zero]
      rw [h.last, if_neg (Fin.castSucc_lt_last i).ne, add_zero, add_zero]
      refine congrArg₂ (· + ·) (by simp [Fields.lift]) (Finset.sum_congr rfl fun a _ => ?_)
      rw [h.diff, hm, h0, h0, hp, hc, hc, hc, hc, sol.flux_lift, sol.flux_lift, hg]
      simp [Flux.lift, Fields.lift]
    · dsimp only
      rw [Fin.sum_univ_castSucc, hm', h0', hp']
      simp only [momDiff, reduceCtorEq, if_false, add_zero]
      rw [h.last, hg]
      simp only [Fin.snoc_last, mul_zero, zero_mul, ite_self, add_zero]
      rw [show s.lift.rhou (Fin.last d) = 0 by simp [Fields.lift], zero_add]
      refine Finset.sum_eq_zero fun a _ => ?_
      rw [h.diff, hm, h0, h0, hp, hc, hc, hc, hc, sol.flux_lift, sol.flux_lift]
      simp [Flux.lift, fluxDiff, (Fin.castSucc_lt_last a).ne']
  · dsimp only
    rw [Fin.sum_univ_castSucc, hm', h0', hp', h.last, hg, Fin.snoc_last]
    simp only [mul_zero, zero_mul, add_zero]
    refine congrArg₂ (· + ·) rfl (Finset.sum_congr rfl fun a _ => ?_)
    rw [h.diff, hm, h0, h0, hp, hc, hc, hc, hc, sol.flux_lift, sol.flux_lift, Fin.snoc_castSucc]
    simp [Flux.lift, Fields.lift]
  · funext ifx
    dsimp only
    rw [Fin.sum_univ_castSucc]
    simp only [hm', h0', hp', ite_self]
    rw [h.last, add_zero]
    refine congrArg₂ (· + ·) rfl (Finset.sum_congr rfl fun a _ => ?_)
    rw [h.diff]
    simp only [hm, h0, hp, hc, sol.flux_lift]
    rfl

theorem fix_slab (eps : K) {s q : Fields d n K} {s' q' : Fields (d + 1) n K} (hs : s' = s.lift) (hq : q' = q.lift)
    {um uPl : Fin d → Fields d n K} {um' uPl' : Fin (d + 1) → Fields (d + 1) n K}
    (hum : ∀ a, um' (Fin.castSucc a) = (um a).lift) (hup : ∀ a, uPl' (Fin.castSucc a) = (uPl a).lift) (hum' : um' (Fin.last d) = s') (hup' : uPl' (Fin.last d) = s')
    {rm rp : Fin d → Fin 2 → Fin d → Fields d n K} {r0 : Fin 2 → Fin d → Fields d n K}
    {rm' rp' : Fin (d + 1) → Fin 2 → Fin (d + 1) → Fields (d + 1) n K} {r0' : Fin 2 → Fin (d + 1) → Fields (d + 1) n K}
    (hm : ∀ a, rm' (Fin.castSucc a) 1 (Fin.castSucc a) = (rm a 1 a).lift) (h0 : ∀ s a, r0' s (Fin.castSucc a) = (r0 s a).lift)
    (hp : ∀ a, rp' (Fin.castSucc a) 0 (Fin.castSucc a) = (rp a 0 a).lift)
    (hm' : rm' (Fin.last d) 1 (Fin.last d) = r0' 0 (Fin.last d)) (h0' : r0' 1 (Fin.last d) = r0' 0 (Fin.last d))
    (hp' : rp' (Fin.last d) 0 (Fin.last d) = r0' 0 (Fin.last d)) {ds ds' : Fin 3 → K} {dsp : Fin d → Fin 3 → K} {dsp' : Fin (d + 1) → Fin 3 → K} {dv dv' : K}
    (e1 : ∀ a : Fin d, ds' (ax a) / dv' = ds (ax a) / dv) (e2 : ∀ a b : Fin d, dsp' (Fin.castSucc b) (ax a) / dv' = dsp b (ax a) / dv) (e3 : dsp' (Fin.last d) = ds') :
    pressureFixEnergy eos dt eps s' q' um' uPl' r0' rm' rp' ds' dsp' dv' = pressureFixEnergy eos dt eps s q um uPl r0 rm rp ds dsp dv := by
  have hc : ∀ f : Fields d n K, f.lift.cons = f.cons.lift := fun _ => rfl
  have hu : ∀ (c : Cons d K) (a : Fin d), (toPrim eos c.lift).u a.castSucc = (toPrim eos c).u a := fun c a => by rw [toPrim_lift]; simp [Prim.lift]
  have hz : ∀ (c : Cons d K), (toPrim eos c.lift).u (Fin.last d) = 0 := fun c => by rw [toPrim_lift]; simp [Prim.lift]
  have hP : ∀ (c : Cons d K), (toPrim eos c.lift).P = (toPrim eos c).P := fun c => by rw [toPrim_lift]; rfl
  have hE : ∀ f : Fields d n K, f.lift.E = f.E := fun _ => rfl
  subst hs hq
  unfold pressureFixEnergy
  dsimp only
  have k1 : ∑ idr, s.lift.rhou idr * s.lift.rhou idr / s.lift.rho = ∑ idr, s.rhou idr * s.rhou idr / s.rho := by
    rw [sum_snoc _ (by simp [Fields.lift])]
    simp [Fields.lift]
  have k2 : ∀ (x y : K) (a b : Fin d), (x * dsp' (Fin.castSucc b) (ax a) - y * ds' (ax a)) / dv' = (x * dsp b (ax a) - y * ds (ax a)) / dv := by
    intro x y a b
    rw [sub_div, sub_div, mul_div_assoc, mul_div_assoc, e1, e2, mul_div_assoc, mul_div_assoc]
  rw [k1]
  simp only [Fin.sum_univ_castSucc, hm, h0, hp, hm', h0', hp', hum, hup, hum', hup', hc, hu, hz, hP, hE, Cons.lift_ek, e3, ite_self, sub_self, zero_div, add_zero, zero_mul,
    Finset.sum_const_zero, ax_castSucc, k2]

end Pure

section Grid

theorem ax_ne_last (hd : d + 1 ≤ 3) (a : Fin d) : (ax a).val ≠ d := by
  rw [ax_val (show d ≤ 3 by omega)]
  exact a.isLt.ne

theorem ax_last (hd : d + 1 ≤ 3) : (ax (Fin.last d)).val = d := ax_val hd

/-- The cell of the grid of `d` dimensions under the cell `C` (`m`: extent of the new axis). -/
def shadow (d : ℕ) (m : ℤ) (C : Cell) : Cell := fun a => if a.val = d then (if 0 ≤ C a ∧ C a < m then 0 else -1) else C a

theorem shadow_nb (hd : d + 1 ≤ 3) (m : ℤ) (C : Cell) (a : Fin d) (t : ℤ) : shadow d m (nb C (ax a) t) = nb (shadow d m C) (ax a) t := by
  have h := ax_ne_last hd a
  funext b
  unfold shadow nb
  by_cases hb : b = ax a
  · subst hb
    simp only [if_neg h, Function.update_self]
  · simp only [Function.update_of_ne hb]

theorem shadow_last (hd : d + 1 ≤ 3) (m : ℤ) {C : Cell} {t : ℤ} (h0 : 0 ≤ C (ax (Fin.last d))) (h1 : C (ax (Fin.last d)) < m)
    (h2 : 0 ≤ C (ax (Fin.last d)) + t) (h3 : C (ax (Fin.last d)) + t < m) : shadow d m (nb C (ax (Fin.last d)) t) = shadow d m C := by
  funext b
  unfold shadow nb
  by_cases hb : b.val = d
  · obtain rfl : b = ax (Fin.last d) := Fin.ext (hb.trans (ax_last hd).symm)
    rw [if_pos hb, if_pos hb, Function.update_self, if_pos ⟨h2, h3⟩, if_pos ⟨h0, h1⟩]
  · rw [if_neg hb, if_neg hb, Function.update_of_ne]
    rintro rfl
    exact hb (ax_last hd)

variable [Field K] [LinearOrder K] {lim : Limiter} {sol : Solver} {eos : EoS K} {tr : Trig K} {X X' : Fin 3 → ℤ → K} {Gr : Cell → Fin d → K}
  {Gr' : Cell → Fin (d + 1) → K}

/-- The flux difference on a Cartesian grid. -/
theorem kFluxDiff_cart (fix : Option K) (a : Fin d) (c : Cell) (hx : ∀ b, X b (c b + 1) - X b (c b) ≠ 0) (dt f g : K) :
    fluxDiff ((kGrid (exactKernels (d := d) (n := n) lim sol eos tr .cartesian fix) .cartesian X Gr).kDirGeo .cartesian a c)
      (dt / ((kGrid (exactKernels (d := d) (n := n) lim sol eos tr .cartesian fix) .cartesian X Gr).kDirGeo .cartesian a c).dv) f g =
      dt / (X (ax a) (c (ax a) + 1) - X (ax a) (c (ax a))) * (f - g) := by
  generalize hG : (kGrid (exactKernels (d := d) (n := n) lim sol eos tr .cartesian fix) .cartesian X Gr).kDirGeo .cartesian a c = G
  have e1 : G.dv = (X 0 (c 0 + 1) - X 0 (c 0)) * (X 1 (c 1 + 1) - X 1 (c 1)) * (X 2 (c 2 + 1) - X 2 (c 2)) := by rw [← hG]; rfl
  have e2 : G.dsL = (if ax a = 0 then 1 else X 0 (c 0 + 1) - X 0 (c 0)) * (if ax a = 1 then 1 else X 1 (c 1 + 1) - X 1 (c 1)) *
      (if ax a = 2 then 1 else X 2 (c 2 + 1) - X 2 (c 2)) := by rw [← hG]; rfl
  have e3 : G.dsR = G.dsL := by
    rw [e2, ← hG]
    show (if ax a = 0 then 1 else X 0 (nb c (ax a) 1 0 + 1) - X 0 (nb c (ax a) 1 0)) * (if ax a = 1 then 1 else X 1 (nb c (ax a) 1 1 + 1) - X 1 (nb c (ax a) 1 1)) *
      (if ax a = 2 then 1 else X 2 (nb c (ax a) 1 2 + 1) - X 2 (nb c (ax a) 1 2)) = _
    have key : ∀ b : Fin 3, (if ax a = b then (1 : K) else X b (nb c (ax a) 1 b + 1) - X b (nb c (ax a) 1 b)) = if ax a = b then 1 else X b (c b + 1) - X b (c b) := by
      intro b
      by_cases hb : ax a = b
      · rw [if_pos hb, if_pos hb]
      · rw [if_neg hb, if_neg hb]
        unfold nb
        rw [Function.update_of_ne (Ne.symm hb)]
    rw [key, key, key]
  unfold fluxDiff
  rw [e3, e1, e2]
  generalize ax a = b
  have h0 := hx 0
  have h1 := hx 1
  have h2 := hx 2
  fin_cases b <;> simp <;> field_simp

theorem slabGeo (hd : d + 1 ≤ 3) (fix : Option K) {C c : Cell} (hX : ∀ a : Fin 3, a.val ≠ d → X' a = X a) (hc : Over d C c)
    (hx' : ∀ b, X' b (C b + 1) - X' b (C b) ≠ 0) (hx : ∀ b, X b (c b + 1) - X b (c b) ≠ 0) (dt : K) :
    SlabGeo dt (fun a => (kGrid (exactKernels (d := d) (n := n) lim sol eos tr .cartesian fix) .cartesian X Gr).kDirGeo .cartesian a c)
      (fun a => (kGrid (exactKernels (d := d + 1) (n := n) lim sol eos tr .cartesian fix) .cartesian X' Gr').kDirGeo .cartesian a C) := by
  refine ⟨fun a f g => ?_, fun f => ?_⟩
  · rw [kFluxDiff_cart fix _ _ hx', kFluxDiff_cart fix _ _ hx, ax_castSucc, hX _ (ax_ne_last hd a), hc _ (ax_ne_last hd a)]
  · rw [kFluxDiff_cart fix _ _ hx', sub_self, mul_zero]

omit [LinearOrder K] in
theorem reconFace_level [LinearOrder K] [IsStrictOrderedRing K] (lim : Limiter) (dlm dl dlp v : K) (side : Fin 2) : reconFace lim dlm dl dlp v v v side = v := by
  unfold reconFace
  dsimp only
  rw [sub_self, zero_div, zero_div, lim.slope_zero (by simp)]
  split <;> ring

variable [IsStrictOrderedRing K]

section Recon
variable {v : Cell → K} {v' : Cell → K} {m : ℤ} {C : Cell} {fix : Option K}

theorem recon_slab (hd : d + 1 ≤ 3) (hX : ∀ a : Fin 3, a.val ≠ d → X' a = X a) (hv : ∀ C, v' C = v (shadow d m C)) (C : Cell) (side : Fin 2) (a : Fin d) :
    kReconVal (exactKernels (n := n) lim sol eos tr .cartesian fix) (kGrid (exactKernels (d := d + 1) (n := n) lim sol eos tr .cartesian fix) .cartesian X' Gr') v' C side
      (Fin.castSucc a) =
    kReconVal (exactKernels (n := n) lim sol eos tr .cartesian fix) (kGrid (exactKernels (d := d) (n := n) lim sol eos tr .cartesian fix) .cartesian X Gr) v (shadow d m C) side a := by
  have hl : ∀ C, kLen (exactKernels (n := n) lim sol eos tr .cartesian fix) (kGrid (exactKernels (d := d + 1) (n := n) lim sol eos tr .cartesian fix) .cartesian X' Gr')
      (Fin.castSucc a) C = kLen (exactKernels (n := n) lim sol eos tr .cartesian fix) (kGrid (exactKernels (d := d) (n := n) lim sol eos tr .cartesian fix) .cartesian X Gr) a
      (shadow d m C) := by
    intro C
    rw [kLen_exact hd, kLen_exact (by omega), ax_castSucc]
    have e : shadow d m C (ax a) = C (ax a) := if_neg (ax_ne_last hd a)
    show X' (ax a) _ - X' (ax a) _ = X (ax a) _ - X (ax a) _
    rw [hX _ (ax_ne_last hd a), e]
  unfold kReconVal
  rw [hl, hl, hl, hv, hv, hv, ax_castSucc, shadow_nb hd, shadow_nb hd]
  rfl

theorem recon_slab_last (hd : d + 1 ≤ 3) (hv : ∀ C, v' C = v (shadow d m C)) (h1 : 1 ≤ C (ax (Fin.last d))) (h2 : C (ax (Fin.last d)) + 1 < m) (p' : PGrid (d + 1) K) (side : Fin 2) :
    kReconVal (exactKernels (n := n) lim sol eos tr .cartesian fix) p' v' C side (Fin.last d) = v (shadow d m C) := by
  unfold kReconVal
  rw [hv, hv, hv, shadow_last hd m (by omega) (by omega) (by omega) (by omega), shadow_last hd m (by omega) (by omega) (by omega) (by omega)]
  exact reconFace_level _ _ _ _ _ _

end Recon

section Step
variable {m : ℤ} {fix : Option K} {W : Cell → Fields d n K} {W' : Cell → Fields (d + 1) n K}

theorem prim_slab (hW : ∀ C, W' C = (W (shadow d m C)).lift) (C : Cell) :
    kPrimGlob (exactKernels lim sol eos tr .cartesian fix) W' C = (kPrimGlob (exactKernels lim sol eos tr .cartesian fix) W (shadow d m C)).lift := by
  have := toPrim_lift eos (⟨(W (shadow d m C)).rho, (W (shadow d m C)).rhou, (W (shadow d m C)).E⟩ : Cons d K)
  unfold kPrimGlob
  rw [hW]
  exact VelPres.ext (congrArg Prim.u this) (congrArg Prim.P this)

local notation "EK" => exactKernels lim sol eos tr Geom.cartesian fix

theorem kReconVal_zero {δ : ℕ} (p : PGrid δ K) (C : Cell) (side : Fin 2) (a : Fin δ) : kReconVal (n := n) EK p (fun _ => 0) C side a = 0 :=
  reconFace_level _ _ _ _ _ _

section Faces
variable {UP : Cell → VelPres d K} {UP' : Cell → VelPres (d + 1) K} (hd : d + 1 ≤ 3) (hX : ∀ a : Fin 3, a.val ≠ d → X' a = X a)
  (hU : ∀ C, UP' C = (UP (shadow d m C)).lift) (hW : ∀ C, W' C = (W (shadow d m C)).lift)
include hd hX hU

theorem faceUP_slab (C : Cell) (side : Fin 2) (a : Fin d) :
    kFaceUP (n := n) EK (kGrid (n := n) EK .cartesian X' Gr') UP' C side (Fin.castSucc a) = (kFaceUP (n := n) EK (kGrid (n := n) EK .cartesian X Gr) UP (shadow d m C) side a).lift := by
  unfold kFaceUP
  refine VelPres.ext ?_ (recon_slab (v := fun c => (UP c).P) (v' := fun c => (UP' c).P) hd hX (fun C => by rw [hU]; rfl) C side a)
  funext i
  refine Fin.lastCases ?_ (fun i => ?_) i
  · have e : (fun c => (UP' c).u (Fin.last d)) = fun _ => 0 := funext fun C => by rw [hU]; simp [VelPres.lift]
    dsimp only
    rw [e, kReconVal_zero]
    simp [VelPres.lift]
  · dsimp only
    rw [recon_slab (X := X) (Gr := Gr) (v := fun c => (UP c).u i) (v' := fun c => (UP' c).u i.castSucc) (m := m) hd hX (fun C => by rw [hU]; simp [VelPres.lift])]
    simp [VelPres.lift]

omit hX in
theorem faceUP_slab_last {C : Cell} (h1 : 1 ≤ C (ax (Fin.last d))) (h2 : C (ax (Fin.last d)) + 1 < m) (p' : PGrid (d + 1) K) (side : Fin 2) :
    kFaceUP (n := n) EK p' UP' C side (Fin.last d) = (UP (shadow d m C)).lift := by
  unfold kFaceUP
  refine VelPres.ext (funext fun i => ?_) (recon_slab_last hd (v := fun c => (UP c).lift.P) (v' := fun c => (UP' c).P) (fun C => by rw [hU]) h1 h2 _ _)
  exact recon_slab_last hd (v := fun c => (UP c).lift.u i) (v' := fun c => (UP' c).u i) (fun C => by rw [hU]) h1 h2 _ _

include hW

theorem faceFields_slab (C : Cell) (side : Fin 2) (a : Fin d) :
    kFaceFields EK (kGrid (n := n) EK .cartesian X' Gr') W' UP' C side (Fin.castSucc a) = (kFaceFields EK (kGrid (n := n) EK .cartesian X Gr) W UP (shadow d m C) side a).lift := by
  have h := faceUP_slab (n := n) (lim := lim) (sol := sol) (eos := eos) (tr := tr) (fix := fix) (Gr := Gr) (Gr' := Gr') hd hX hU C side a
  have hr := recon_slab (n := n) (lim := lim) (sol := sol) (eos := eos) (tr := tr) (fix := fix) (Gr := Gr) (Gr' := Gr') (v := fun c => (W c).rho) (v' := fun c => (W' c).rho) (m := m) hd hX
    (fun C => by rw [hW]; rfl) C side a
  unfold kFaceFields
  dsimp only
  rw [h, hr]
  have ht := toCons_lift eos (⟨kReconVal (n := n) EK (kGrid (n := n) EK .cartesian X Gr) (fun c => (W c).rho) (shadow d m C) side a,
    (kFaceUP (n := n) EK (kGrid (n := n) EK .cartesian X Gr) UP (shadow d m C) side a).u, (kFaceUP (n := n) EK (kGrid (n := n) EK .cartesian X Gr) UP (shadow d m C) side a).P⟩ : Prim d K)
  refine Fields.ext rfl (congrArg Cons.rhou ht) (congrArg Cons.E ht) (funext fun i => ?_)
  exact recon_slab (v := fun c => (W c).fx i) (v' := fun c => (W' c).fx i) hd hX (fun C => by rw [hW]; rfl) C side a

omit hX in
theorem faceFields_slab_last {C : Cell} (h1 : 1 ≤ C (ax (Fin.last d))) (h2 : C (ax (Fin.last d)) + 1 < m) (p' : PGrid (d + 1) K) (side : Fin 2) :
    kFaceFields EK p' W' UP' C side (Fin.last d) =
      (let c := shadow d m C
       let q := toCons eos (⟨(W c).rho, (UP c).u, (UP c).P⟩ : Prim d K)
       (⟨(W c).rho, q.rhou, q.E, (W c).fx⟩ : Fields d n K).lift) := by
  have h := faceUP_slab_last (n := n) (lim := lim) (sol := sol) (eos := eos) (tr := tr) (fix := fix) hd hU h1 h2 p' side
  have hr := recon_slab_last (n := n) (lim := lim) (sol := sol) (eos := eos) (tr := tr) (fix := fix) (v := fun c => (W c).rho) (v' := fun c => (W' c).rho) hd
    (fun C => by rw [hW]; rfl) h1 h2 p' side
  have ht := toCons_lift eos (⟨(W (shadow d m C)).rho, (UP (shadow d m C)).u, (UP (shadow d m C)).P⟩ : Prim d K)
  unfold kFaceFields
  dsimp only
  rw [h, hr]
  refine Fields.ext rfl (congrArg Cons.rhou ht) (congrArg Cons.E ht) (funext fun i => ?_)
  exact recon_slab_last hd (v := fun c => (W c).fx i) (v' := fun c => (W' c).fx i) (fun C => by rw [hW]; rfl) h1 h2 _ _

include hX

theorem recVal_slab {C : Cell} (hGr : Gr' C = Fin.snoc (Gr (shadow d m C)) 0) (h1 : 1 ≤ C (ax (Fin.last d))) (h2 : C (ax (Fin.last d)) + 1 < m) (hx' : ∀ b, X' b (C b + 1) - X' b (C b) ≠ 0)
    (hx : ∀ b, X b (shadow d m C b + 1) - X b (shadow d m C b) ≠ 0) (dt : K) (side : Fin 2) (a : Fin d) :
    kRecVal EK .cartesian (kGrid (n := n) EK .cartesian X' Gr') dt W' UP' C side (Fin.castSucc a) =
      (kRecVal EK .cartesian (kGrid (n := n) EK .cartesian X Gr) dt W UP (shadow d m C) side a).lift := by
  have hs := slabGeo (n := n) (lim := lim) (sol := sol) (eos := eos) (tr := tr) (Gr := Gr) (Gr' := Gr') hd fix (C := C) (c := shadow d m C) hX (fun a ha => (if_neg ha).symm) hx' hx dt
  have h := hancock_slab (eos := eos) (tr := tr) hs (gr := Gr (shadow d m C)) hGr
    (faceUP_slab (n := n) (lim := lim) (sol := sol) (eos := eos) (tr := tr) (fix := fix) (Gr := Gr) (Gr' := Gr') hd hX hU C)
    ((faceUP_slab_last (n := n) (lim := lim) (sol := sol) (eos := eos) (tr := tr) (fix := fix) hd hU h1 h2 _ 0).trans
      (faceUP_slab_last (n := n) (lim := lim) (sol := sol) (eos := eos) (tr := tr) (fix := fix) hd hU h1 h2 _ 1).symm)
    (faceFields_slab (lim := lim) (sol := sol) (eos := eos) (tr := tr) (fix := fix) (Gr := Gr) (Gr' := Gr') hd hX hU hW C)
    ((faceFields_slab_last (lim := lim) (sol := sol) (eos := eos) (tr := tr) (fix := fix) hd hU hW h1 h2 _ 0).trans
      (faceFields_slab_last (lim := lim) (sol := sol) (eos := eos) (tr := tr) (fix := fix) hd hU hW h1 h2 _ 1).symm) side (Fin.castSucc a)
  rw [faceFields_slab hd hX hU hW C side a, slabAdd_lift] at h
  exact congrArg (fun f : Fields (d + 1) n K => { f with fx := fun ifx => f.fx ifx / f.rho }) h

/-- Along the new axis the face states of a cell depend on the cell under it only. -/
def lastFace (sol : Solver) (eos : EoS K) (tr : Trig K) (lim : Limiter) (fix : Option K) (X : Fin 3 → ℤ → K) (Gr : Cell → Fin d → K) (dt : K) (W : Cell → Fields d n K) (UP : Cell → VelPres d K) (c : Cell) :
    Fields (d + 1) n K :=
  let f := slabAdd eos tr dt (fun a => (kGrid (n := n) (exactKernels lim sol eos tr .cartesian fix) .cartesian X Gr).kDirGeo .cartesian a c) (Gr c) (kFaceUP (n := n) (exactKernels lim sol eos tr .cartesian fix) (kGrid (n := n) (exactKernels lim sol eos tr .cartesian fix) .cartesian X Gr) UP c)
    (kFaceFields (n := n) (exactKernels lim sol eos tr .cartesian fix) (kGrid (n := n) (exactKernels lim sol eos tr .cartesian fix) .cartesian X Gr) W UP c) (let q := toCons eos (⟨(W c).rho, (UP c).u, (UP c).P⟩ : Prim d K)
       (⟨(W c).rho, q.rhou, q.E, (W c).fx⟩ : Fields d n K).lift)
  { f with fx := fun ifx => f.fx ifx / f.rho }

theorem recVal_slab_last {C : Cell} (hGr : Gr' C = Fin.snoc (Gr (shadow d m C)) 0) (h1 : 1 ≤ C (ax (Fin.last d))) (h2 : C (ax (Fin.last d)) + 1 < m) (hx' : ∀ b, X' b (C b + 1) - X' b (C b) ≠ 0)
    (hx : ∀ b, X b (shadow d m C b + 1) - X b (shadow d m C b) ≠ 0) (dt : K) (side : Fin 2) :
    kRecVal EK .cartesian (kGrid (n := n) EK .cartesian X' Gr') dt W' UP' C side (Fin.last d) = lastFace sol eos tr lim fix X Gr dt W UP (shadow d m C) := by
  have hs := slabGeo (n := n) (lim := lim) (sol := sol) (eos := eos) (tr := tr) (Gr := Gr) (Gr' := Gr') hd fix (C := C) (c := shadow d m C) hX (fun a ha => (if_neg ha).symm) hx' hx dt
  have h := hancock_slab (eos := eos) (tr := tr) hs (gr := Gr (shadow d m C)) hGr
    (faceUP_slab (n := n) (lim := lim) (sol := sol) (eos := eos) (tr := tr) (fix := fix) (Gr := Gr) (Gr' := Gr') hd hX hU C)
    ((faceUP_slab_last (n := n) (lim := lim) (sol := sol) (eos := eos) (tr := tr) (fix := fix) hd hU h1 h2 _ 0).trans
      (faceUP_slab_last (n := n) (lim := lim) (sol := sol) (eos := eos) (tr := tr) (fix := fix) hd hU h1 h2 _ 1).symm)
    (faceFields_slab (lim := lim) (sol := sol) (eos := eos) (tr := tr) (fix := fix) (Gr := Gr) (Gr' := Gr') hd hX hU hW C)
    ((faceFields_slab_last (lim := lim) (sol := sol) (eos := eos) (tr := tr) (fix := fix) hd hU hW h1 h2 _ 0).trans
      (faceFields_slab_last (lim := lim) (sol := sol) (eos := eos) (tr := tr) (fix := fix) hd hU hW h1 h2 _ 1).symm) side (Fin.last d)
  rw [faceFields_slab_last hd hU hW h1 h2] at h
  exact congrArg (fun f : Fields (d + 1) n K => { f with fx := fun ifx => f.fx ifx / f.rho }) h

end Faces

omit [IsStrictOrderedRing K] in
theorem area_slab {Z : Fin 3 → ℤ → K} {δ : ℕ} (Gz : Cell → Fin δ → K) (C D : Cell) (b : Fin 3) (hv : ∀ b, Z b (C b + 1) - Z b (C b) ≠ 0) :
    (kGrid (n := n) EK .cartesian Z Gz).ds D b / (kGrid (n := n) EK .cartesian Z Gz).dv C =
      ∏ e : Fin 3, (if b = e then 1 else Z e (D e + 1) - Z e (D e)) / (Z e (C e + 1) - Z e (C e)) := by
  have h0 := hv 0
  have h1 := hv 1
  have h2 := hv 2
  rw [Fin.prod_univ_three]
  show (if b = 0 then 1 else Z 0 (D 0 + 1) - Z 0 (D 0)) * (if b = 1 then 1 else Z 1 (D 1 + 1) - Z 1 (D 1)) * (if b = 2 then 1 else Z 2 (D 2 + 1) - Z 2 (D 2)) /
    ((Z 0 (C 0 + 1) - Z 0 (C 0)) * (Z 1 (C 1 + 1) - Z 1 (C 1)) * (Z 2 (C 2 + 1) - Z 2 (C 2))) = _
  field_simp

omit [IsStrictOrderedRing K] in
/-- Ratio of the area of a face to the volume of a cell: the new axis plays no part. -/
theorem area_ratio_slab {C D c e : Cell} {b : Fin 3} (hb : b.val ≠ d) (hX : ∀ a : Fin 3, a.val ≠ d → X' a = X a) (hc : Over d C c) (he : Over d D e)
    (hC : ∀ a : Fin 3, a.val = d → D a = C a) (hE : ∀ a : Fin 3, a.val = d → e a = c a)
    (hx' : ∀ b, X' b (C b + 1) - X' b (C b) ≠ 0) (hx : ∀ b, X b (c b + 1) - X b (c b) ≠ 0) :
    (kGrid (n := n) EK .cartesian X' Gr').ds D b / (kGrid (n := n) EK .cartesian X' Gr').dv C =
      (kGrid (n := n) EK .cartesian X Gr).ds e b / (kGrid (n := n) EK .cartesian X Gr).dv c := by
  rw [area_slab Gr' C D b hx', area_slab Gr c e b hx]
  refine Finset.prod_congr rfl fun a _ => ?_
  by_cases ha : a.val = d
  · have : b ≠ a := fun h => hb (h ▸ ha)
    rw [if_neg this, if_neg this, hC a ha, hE a ha, div_self (hx' a), div_self (hx a)]
  · rw [hX a ha, hc a ha, he a ha]

omit [IsStrictOrderedRing K] in
theorem fixOn_slab (f : Fields d n K) : (exactKernels (n := n) (d := d + 1) lim sol eos tr .cartesian fix).fixOn f.lift =
    (exactKernels (n := n) (d := d) lim sol eos tr .cartesian fix).fixOn f := by
  have h : f.lift.cons.ek = f.cons.ek := Cons.lift_ek f.cons
  cases fix with
  | none => rfl
  | some eps =>
    show decide (f.lift.E - f.lift.cons.ek < eps * f.lift.cons.ek) = _
    rw [h]
    rfl

section Whole
variable {UP : Cell → VelPres d K} {UP' : Cell → VelPres (d + 1) K} {E' : Cell} (hd : d + 1 ≤ 3) (hX : ∀ a : Fin 3, a.val ≠ d → X' a = X a)
  (hU : ∀ C, UP' C = (UP (shadow d (E' (ax (Fin.last d))) C)).lift) (hW : ∀ C, W' C = (W (shadow d (E' (ax (Fin.last d))) C)).lift)
  (hGr : ∀ C, (∀ b, 0 ≤ C b ∧ C b < E' b) → Gr' C = Fin.snoc (Gr (shadow d (E' (ax (Fin.last d))) C)) 0)
  (hx' : ∀ b i, 0 ≤ i → i < E' b → X' b (i + 1) - X' b i ≠ 0) (hx : ∀ b i, 0 ≤ i → (b.val = d → i = 0) → (b.val ≠ d → i < E' b) → X b (i + 1) - X b i ≠ 0)
  (hfix : fix = none ∨ ∀ i, 0 ≤ i → i + 1 < E' (ax (Fin.last d)) → X' (ax (Fin.last d)) (i + 1) - X' (ax (Fin.last d)) i = X' (ax (Fin.last d)) (i + 1 + 1) - X' (ax (Fin.last d)) (i + 1))
include hd hX hU hW hGr hx' hx hfix

theorem stepVal_slab {C : Cell} (hC : ∀ a : Fin 3, (a.val < d + 1 → 2 ≤ C a ∧ C a + 2 < E' a) ∧ 0 ≤ C a ∧ C a < E' a) (dt : K) :
    kStepVal EK .cartesian (kGrid (n := n) EK .cartesian X' Gr') dt W' UP' C =
      (kStepVal EK .cartesian (kGrid (n := n) EK .cartesian X Gr) dt W UP (shadow d (E' (ax (Fin.last d))) C)).lift := by
  set m := E' (ax (Fin.last d)) with hm
  have hle := (hC (ax (Fin.last d))).1 (by rw [ax_last hd]; omega)
  have hin : ∀ (a : Fin (d + 1)) (t : ℤ), -1 ≤ t → t ≤ 1 → ∀ b, 0 ≤ nb C (ax a) t b ∧ nb C (ax a) t b < E' b := by
    intro a t h1 h2 b
    unfold nb
    by_cases hb : b = ax a
    · subst hb
      have := (hC (ax a)).1 (by rw [ax_val hd]; exact a.isLt)
      rw [Function.update_self]
      omega
    · rw [Function.update_of_ne hb]
      exact (hC b).2
  have hsh : ∀ D : Cell, (∀ b, 0 ≤ D b ∧ D b < E' b) → ∀ b, X b (shadow d m D b + 1) - X b (shadow d m D b) ≠ 0 := by
    intro D hD b
    have e : b.val = d → shadow d m D b = 0 := fun hb => by
      obtain rfl : b = ax (Fin.last d) := Fin.ext (hb.trans (ax_last hd).symm)
      unfold shadow
      rw [if_pos hb, if_pos (hD _)]
    have e' : b.val ≠ d → shadow d m D b = D b := fun hb => if_neg hb
    refine hx b _ ?_ e fun hb => by rw [e' hb]; exact (hD b).2
    by_cases hb : b.val = d
    · rw [e hb]
    · rw [e' hb]; exact (hD b).1
  have hrng : ∀ (a : Fin d) (t : ℤ), nb C (ax a) t (ax (Fin.last d)) = C (ax (Fin.last d)) := fun a t => by
    unfold nb
    rw [Function.update_of_ne]
    intro h
    exact ax_ne_last hd a (h ▸ ax_last hd)
  have hself : ∀ t, nb C (ax (Fin.last d)) t (ax (Fin.last d)) = C (ax (Fin.last d)) + t := fun t => Function.update_self _ _ _
  have hr : ∀ (side : Fin 2) (a : Fin d), kRecVal EK .cartesian (kGrid (n := n) EK .cartesian X' Gr') (dt / 2) W' UP' C side (Fin.castSucc a) =
      (kRecVal EK .cartesian (kGrid (n := n) EK .cartesian X Gr) (dt / 2) W UP (shadow d m C) side a).lift := fun side a =>
    recVal_slab hd hX hU hW (hGr C fun b => (hC b).2) (by omega) (by omega) (fun b => hx' b _ (hC b).2.1 (hC b).2.2) (hsh C fun b => (hC b).2) _ side a
  have hrn : ∀ (a : Fin d) (t : ℤ), -1 ≤ t → t ≤ 1 → ∀ side : Fin 2,
      kRecVal EK .cartesian (kGrid (n := n) EK .cartesian X' Gr') (dt / 2) W' UP' (nb C (ax a) t) side (Fin.castSucc a) =
      (kRecVal EK .cartesian (kGrid (n := n) EK .cartesian X Gr) (dt / 2) W UP (nb (shadow d m C) (ax a) t) side a).lift := fun a t h1 h2 side => by
    rw [recVal_slab (C := nb C (ax a) t) hd hX hU hW (hGr _ (hin a.castSucc t h1 h2)) (by rw [hrng]; omega) (by rw [hrng]; omega) (fun b => hx' b _ (hin a.castSucc t h1 h2 b).1 (hin a.castSucc t h1 h2 b).2)
      (hsh _ (hin a.castSucc t h1 h2)), shadow_nb hd]
  have hrl : ∀ side : Fin 2, kRecVal EK .cartesian (kGrid (n := n) EK .cartesian X' Gr') (dt / 2) W' UP' C side (Fin.last d) =
      lastFace sol eos tr lim fix X Gr (dt / 2) W UP (shadow d m C) := fun side =>
    recVal_slab_last hd hX hU hW (hGr C fun b => (hC b).2) (by omega) (by omega) (fun b => hx' b _ (hC b).2.1 (hC b).2.2) (hsh C fun b => (hC b).2) _ side
  have hrln : ∀ t : ℤ, -1 ≤ t → t ≤ 1 → ∀ side : Fin 2, kRecVal EK .cartesian (kGrid (n := n) EK .cartesian X' Gr') (dt / 2) W' UP' (nb C (ax (Fin.last d)) t) side (Fin.last d) =
      lastFace sol eos tr lim fix X Gr (dt / 2) W UP (shadow d m C) := fun t h1 h2 side => by
    rw [recVal_slab_last hd hX hU hW (hGr _ (hin _ t h1 h2)) (by rw [hself]; omega) (by rw [hself]; omega) (fun b => hx' b _ (hin _ t h1 h2 b).1 (hin _ t h1 h2 b).2)
      (hsh _ (hin _ t h1 h2)), shadow_last hd m (by omega) (by omega) (by omega) (by omega)]
  have hov : Over d C (shadow d m C) := fun a ha => (if_neg ha).symm
  have hxC : ∀ b, X' b (C b + 1) - X' b (C b) ≠ 0 := fun b => hx' b _ (hC b).2.1 (hC b).2.2
  have hgod : kGodVal EK .cartesian (kGrid (n := n) EK .cartesian X' Gr') dt W' (kRecVal EK .cartesian (kGrid (n := n) EK .cartesian X' Gr') (dt / 2) W' UP') C =
      (kGodVal EK .cartesian (kGrid (n := n) EK .cartesian X Gr) dt W (kRecVal EK .cartesian (kGrid (n := n) EK .cartesian X Gr) (dt / 2) W UP) (shadow d m C)).lift := by
    have h := godunov_slab (eos := eos) (tr := tr) sol
      (slabGeo (n := n) (lim := lim) (sol := sol) (eos := eos) (tr := tr) (Gr := Gr) (Gr' := Gr') hd fix hX hov hxC (hsh C fun b => (hC b).2) dt)
      (hGr C fun b => (hC b).2) (hW C) (rm := fun a => kRecVal EK .cartesian (kGrid (n := n) EK .cartesian X Gr) (dt / 2) W UP (nb (shadow d m C) (ax a) (-1)))
      (rp := fun a => kRecVal EK .cartesian (kGrid (n := n) EK .cartesian X Gr) (dt / 2) W UP (nb (shadow d m C) (ax a) 1))
      (rm' := fun a => kRecVal EK .cartesian (kGrid (n := n) EK .cartesian X' Gr') (dt / 2) W' UP' (nb C (ax a) (-1)))
      (rp' := fun a => kRecVal EK .cartesian (kGrid (n := n) EK .cartesian X' Gr') (dt / 2) W' UP' (nb C (ax a) 1))
      (fun a => hrn a (-1) le_rfl (by norm_num) 1) hr (fun a => hrn a 1 (by norm_num) le_rfl 0)
      ((hrln (-1) le_rfl (by norm_num) 1).trans (hrl 0).symm) ((hrl 1).trans (hrl 0).symm) ((hrln 1 (by norm_num) le_rfl 0).trans (hrl 0).symm)
    exact congrArg (fun f : Fields (d + 1) n K => { f with fx := fun ifx => clamp (f.fx ifx / f.rho) 0 1 }) h
  show kFixVal EK (kGrid (n := n) EK .cartesian X' Gr') dt W' (kRecVal EK .cartesian (kGrid (n := n) EK .cartesian X' Gr') (dt / 2) W' UP') (kGodVal EK .cartesian (kGrid (n := n) EK .cartesian X' Gr') dt W' (kRecVal EK .cartesian (kGrid (n := n) EK .cartesian X' Gr') (dt / 2) W' UP')) C =
    (kFixVal EK (kGrid (n := n) EK .cartesian X Gr) dt W (kRecVal EK .cartesian (kGrid (n := n) EK .cartesian X Gr) (dt / 2) W UP) (kGodVal EK .cartesian (kGrid (n := n) EK .cartesian X Gr) dt W (kRecVal EK .cartesian (kGrid (n := n) EK .cartesian X Gr) (dt / 2) W UP)) (shadow d m C)).lift
  have hWn : ∀ (a : Fin d) t, W' (nb C (ax (Fin.castSucc a)) t) = (W (nb (shadow d m C) (ax a) t)).lift := fun a t => by
    rw [hW, ax_castSucc, shadow_nb hd]
  have hWl : ∀ t : ℤ, -1 ≤ t → t ≤ 1 → W' (nb C (ax (Fin.last d)) t) = W' C := fun t h1 h2 => by
    rw [hW, hW C, shadow_last hd m (by omega) (by omega) (by omega) (by omega)]
  unfold kFixVal
  rcases hfix with rfl | hreg
  · exact hgod
  · have hE := fix_slab (eos := eos) (dt := dt) (fix.getD 0) (hW C) hgod (um := fun a => W (nb (shadow d m C) (ax a) (-1))) (uPl := fun a => W (nb (shadow d m C) (ax a) 1))
      (um' := fun a => W' (nb C (ax a) (-1))) (uPl' := fun a => W' (nb C (ax a) 1)) (fun a => hWn a _) (fun a => hWn a _) (hWl _ le_rfl (by norm_num)) (hWl _ (by norm_num) le_rfl)
      (rm := fun a => kRecVal EK .cartesian (kGrid (n := n) EK .cartesian X Gr) (dt / 2) W UP (nb (shadow d m C) (ax a) (-1)))
      (rp := fun a => kRecVal EK .cartesian (kGrid (n := n) EK .cartesian X Gr) (dt / 2) W UP (nb (shadow d m C) (ax a) 1))
      (rm' := fun a => kRecVal EK .cartesian (kGrid (n := n) EK .cartesian X' Gr') (dt / 2) W' UP' (nb C (ax a) (-1)))
      (rp' := fun a => kRecVal EK .cartesian (kGrid (n := n) EK .cartesian X' Gr') (dt / 2) W' UP' (nb C (ax a) 1))
      (fun a => hrn a (-1) le_rfl (by norm_num) 1) hr (fun a => hrn a 1 (by norm_num) le_rfl 0)
      ((hrln (-1) le_rfl (by norm_num) 1).trans (hrl 0).symm) ((hrl 1).trans (hrl 0).symm) ((hrln 1 (by norm_num) le_rfl 0).trans (hrl 0).symm)
      (ds := (kGrid (n := n) EK .cartesian X Gr).ds (shadow d m C)) (ds' := (kGrid (n := n) EK .cartesian X' Gr').ds C)
      (dsp := fun a => (kGrid (n := n) EK .cartesian X Gr).ds (nb (shadow d m C) (ax a) 1)) (dsp' := fun a => (kGrid (n := n) EK .cartesian X' Gr').ds (nb C (ax a) 1))
      (dv := (kGrid (n := n) EK .cartesian X Gr).dv (shadow d m C)) (dv' := (kGrid (n := n) EK .cartesian X' Gr').dv C)
      (fun a => area_ratio_slab (ax_ne_last hd a) hX hov hov (fun _ _ => rfl) (fun _ _ => rfl) hxC (hsh C fun b => (hC b).2))
      (fun a b => area_ratio_slab (ax_ne_last hd a) hX hov (fun e he => by rw [ax_castSucc, ← shadow_nb hd]; exact (if_neg he).symm)
        (fun e he => Function.update_of_ne (fun h : e = ax b => ax_ne_last hd b (by rw [← h]; exact he)) _ _) (fun e he => Function.update_of_ne (fun h : e = ax b => ax_ne_last hd b (by rw [← h]; exact he)) _ _)
        hxC (hsh C fun b => (hC b).2)) (by
        have key : ∀ e : Fin 3, X' e (nb C (ax (Fin.last d)) 1 e + 1) - X' e (nb C (ax (Fin.last d)) 1 e) = X' e (C e + 1) - X' e (C e) := by
          intro e
          unfold nb
          by_cases he : e = ax (Fin.last d)
          · subst he
            rw [Function.update_self]
            exact (hreg _ (by omega) (by omega)).symm
          · rw [Function.update_of_ne he]
        have k0 := key 0
        have k1 := key 1
        have k2 := key 2
        show (exactKernels (n := n) (d := d + 1) lim sol eos tr .cartesian fix).areaCart (X' 0 (nb C (ax (Fin.last d)) 1 0 + 1) - X' 0 (nb C (ax (Fin.last d)) 1 0))
          (X' 1 (nb C (ax (Fin.last d)) 1 1 + 1) - X' 1 (nb C (ax (Fin.last d)) 1 1)) (X' 2 (nb C (ax (Fin.last d)) 1 2 + 1) - X' 2 (nb C (ax (Fin.last d)) 1 2)) = _
        rw [k0, k1, k2]
        rfl)
    have hon : (exactKernels (n := n) (d := d + 1) lim sol eos tr .cartesian fix).fixOn (W' C) = (exactKernels (n := n) (d := d) lim sol eos tr .cartesian fix).fixOn (W (shadow d m C)) := by
      rw [hW]
      exact fixOn_slab _
    rw [hon]
    split
    · have e1 := congrArg Fields.rho hgod
      have e2 := congrArg Fields.rhou hgod
      have e3 := congrArg Fields.fx hgod
      exact Fields.ext e1 e2 hE e3
    · exact hgod

end Whole

end Step

section Bc
variable {m : ℤ} {V : Cell → Fields d n K} {V' : Cell → Fields (d + 1) n K} {ext ext' : Cell}

omit [LinearOrder K] [IsStrictOrderedRing K] in
theorem Fields.lift_flip (f : Fields d n K) (a : Fin d) : f.lift.flip a.castSucc = (f.flip a).lift := by
  refine Fields.ext rfl ?_ rfl rfl
  show Function.update (Fin.snoc f.rhou 0 : Fin (d + 1) → K) a.castSucc (-(Fin.snoc f.rhou 0 : Fin (d + 1) → K) a.castSucc) = Fin.snoc (Function.update f.rhou a (-(f.rhou a))) 0
  rw [snoc_update, Fin.snoc_castSucc]

omit [LinearOrder K] [IsStrictOrderedRing K] in
theorem Fields.lift_flip_last (f : Fields d n K) : f.lift.flip (Fin.last d) = f.lift := by
  refine Fields.ext rfl ?_ rfl rfl
  show Function.update (Fin.snoc f.rhou 0 : Fin (d + 1) → K) (Fin.last d) (-(Fin.snoc f.rhou 0 : Fin (d + 1) → K) (Fin.last d)) = Fin.snoc f.rhou 0
  rw [Fin.snoc_last, neg_zero]
  exact Function.update_eq_self_iff.2 (by simp)

theorem shadow_update (hd : d + 1 ≤ 3) (m : ℤ) (C : Cell) (a : Fin d) (t : ℤ) : shadow d m (Function.update C (ax a) t) = Function.update (shadow d m C) (ax a) t := by
  have h := ax_ne_last hd a
  funext b
  unfold shadow
  by_cases hb : b = ax a
  · subst hb
    simp only [if_neg h, Function.update_self]
  · simp only [Function.update_of_ne hb]

theorem shadow_update_last (hd : d + 1 ≤ 3) (m : ℤ) {C : Cell} {t : ℤ} (h0 : 0 ≤ C (ax (Fin.last d))) (h1 : C (ax (Fin.last d)) < m)
    (h2 : 0 ≤ t) (h3 : t < m) : shadow d m (Function.update C (ax (Fin.last d)) t) = shadow d m C := by
  have := shadow_last hd m (C := C) (t := t - C (ax (Fin.last d))) h0 h1 (by omega) (by omega)
  rwa [nb, add_sub_cancel] at this

omit [LinearOrder K] [IsStrictOrderedRing K] in
theorem condPure_slab (hd : d + 1 ≤ 3) (hV : ∀ C, V' C = (V (shadow d (ext' (ax (Fin.last d))) C)).lift) (he : ∀ a : Fin 3, a.val ≠ d → ext' a = ext a) (h1 : ∀ a : Fin 3, a.val = d → ext a = 1)
    (kind : BcKind) (ng : ℤ) (a : Fin d) (f : Fin 2) (C : Cell) :
    condPure kind ext' ng a.castSucc f V' C = (condPure kind ext ng a f V (shadow d (ext' (ax (Fin.last d))) C)).lift := by
  have ha := ax_ne_last hd a
  have hs : shadow d (ext' (ax (Fin.last d))) C (ax a) = C (ax a) := if_neg ha
  have e1 : inExt ext' C = true ↔ inExt ext (shadow d (ext' (ax (Fin.last d))) C) = true := by
    rw [inExt_iff, inExt_iff]
    refine forall_congr' fun b => ?_
    by_cases hb : b.val = d
    · obtain rfl : b = ax (Fin.last d) := Fin.ext (hb.trans (ax_last hd).symm)
      unfold shadow
      rw [if_pos hb, h1 _ hb]
      split_ifs with h
      · simp [h]
      · exact ⟨fun h' => absurd h' h, fun h' => absurd h'.1 (by norm_num)⟩
    · unfold shadow
      rw [if_neg hb, he _ hb]
  have e2 : InGhostLayer ext' ng (ax a) f C ↔ InGhostLayer ext ng (ax a) f (shadow d (ext' (ax (Fin.last d))) C) := by
    unfold InGhostLayer
    rw [hs, he _ ha]
  have e3 : ∀ t, interiorLayer ext' ng (ax a) f t = interiorLayer ext ng (ax a) f t := fun t => by unfold interiorLayer; rw [he _ ha]
  have e4 : ghostDepth ext' ng (ax a) f C = ghostDepth ext ng (ax a) f (shadow d (ext' (ax (Fin.last d))) C) := by unfold ghostDepth; rw [hs, he _ ha]
  rw [condPure_eq, condPure_eq, ax_castSucc]
  by_cases h : inExt ext' C = true ∧ InGhostLayer ext' ng (ax a) f C
  · rw [if_pos h, if_pos ⟨e1.1 h.1, e2.1 h.2⟩]
    cases kind with
    | nullGradient =>
      show V' (nearest ext' ng (ax a) f C) = (V (nearest ext ng (ax a) f (shadow d (ext' (ax (Fin.last d))) C))).lift
      unfold nearest
      rw [hV, shadow_update hd, e3]
    | reflexive =>
      show (V' (mirror ext' ng (ax a) f C)).flip a.castSucc = ((V (mirror ext ng (ax a) f (shadow d (ext' (ax (Fin.last d))) C))).flip a).lift
      unfold mirror
      rw [hV, shadow_update hd, e3, e4, Fields.lift_flip]
    | periodic => exact hV C
    | userDefined => exact hV C
  · rw [if_neg h, if_neg fun h' => h ⟨e1.2 h'.1, e2.2 h'.2⟩, hV]

omit [LinearOrder K] [IsStrictOrderedRing K] in
theorem condPure_slab_last (hd : d + 1 ≤ 3) (hV : ∀ C, V' C = (V (shadow d (ext' (ax (Fin.last d))) C)).lift) (kind : BcKind) {ng : ℤ} (hng : 0 < ng)
    (hb : 2 * ng ≤ ext' (ax (Fin.last d))) (f : Fin 2) : condPure kind ext' ng (Fin.last d) f V' = V' := by
  funext C
  rw [condPure_eq]
  split_ifs with h
  · have hC := inExt_iff.1 h.1 (ax (Fin.last d))
    have hg := h.2
    unfold InGhostLayer at hg
    cases kind with
    | nullGradient =>
      show V' (nearest ext' ng (ax (Fin.last d)) f C) = V' C
      unfold nearest interiorLayer
      rw [hV, hV C, shadow_update_last hd _ hC.1 hC.2]
      · split_ifs <;> omega
      · split_ifs <;> omega
    | reflexive =>
      show (V' (mirror ext' ng (ax (Fin.last d)) f C)).flip (Fin.last d) = V' C
      unfold mirror interiorLayer ghostDepth
      rw [hV, hV C, shadow_update_last hd _ hC.1 hC.2, Fields.lift_flip_last]
      · split_ifs with hf
        · omega
        · have : f = 1 := by omega
          omega
      · split_ifs with hf
        · omega
        · have : f = 1 := by omega
          rcases hg with hg | hg <;> omega
    | periodic => rfl
    | userDefined => rfl
  · rfl

omit [LinearOrder K] [IsStrictOrderedRing K] in
theorem bcGlob_slab (hd : d + 1 ≤ 3) {nx nx' : Cell} {ng : ℤ} (hng : 0 < ng) (hpos' : ∀ a, 0 < nx' a) (hnx : ∀ a : Fin 3, a.val ≠ d → nx' a = nx a) (hnx1 : ∀ a : Fin 3, a.val = d → nx a = 1)
    {bcs : Fin d → Fin 2 → BcKind} {bcs' : Fin (d + 1) → Fin 2 → BcKind} (hbc : ∀ a f, bcs' (Fin.castSucc a) f = bcs a f) {order' : List ℕ}
    {G : Cell → Fields d n K} {G' : Cell → Fields (d + 1) n K} (hG : ∀ g g', inBox 0 nx g → inBox 0 nx' g' → Over d g' g → G' g' = (G g).lift) (C : Cell) :
    bcGlob bcs' nx' (nghostOf (d + 1) ng) order' G' C =
      (bcGlob bcs nx (nghostOf d ng) (order'.filter fun id => id < 2 * d) G (shadow d (nx' (ax (Fin.last d)) + 2 * ng) C)).lift := by
  have hN : ∀ a : Fin 3, a.val ≠ d → nghostOf (d + 1) ng a = nghostOf d ng a := fun a ha => by
    unfold nghostOf
    have : a.val < d + 1 ↔ a.val < d := by omega
    simp only [this]
  have hNl : nghostOf (d + 1) ng (ax (Fin.last d)) = ng := by
    unfold nghostOf
    rw [if_pos (by rw [ax_last hd]; omega)]
  have hE : globExt nx' (nghostOf (d + 1) ng) (ax (Fin.last d)) = nx' (ax (Fin.last d)) + 2 * ng := by unfold globExt; rw [hNl]
  have hpos : ∀ a, 0 < nx a := fun a => by
    by_cases ha : a.val = d
    · rw [hnx1 a ha]; norm_num
    · rw [← hnx a ha]; exact hpos' a
  unfold bcGlob
  suffices h : ∀ (V : Cell → Fields d n K) (V' : Cell → Fields (d + 1) n K), (∀ C, V' C = (V (shadow d (nx' (ax (Fin.last d)) + 2 * ng) C)).lift) → ∀ C,
      order'.foldl (bcPure bcs' (fun _ _ => true) (globExt nx' (nghostOf (d + 1) ng)) (nghostOf (d + 1) ng)) V' C =
        ((order'.filter fun id => id < 2 * d).foldl (bcPure bcs (fun _ _ => true) (globExt nx (nghostOf d ng)) (nghostOf d ng)) V
          (shadow d (nx' (ax (Fin.last d)) + 2 * ng) C)).lift by
    refine h (fun C => G (wrap nx (C - nghostOf d ng))) _ (fun C => hG _ _ (fun a => ⟨Int.emod_nonneg _ (hpos a).ne', Int.emod_lt_of_pos _ (hpos a)⟩)
      (fun a => ⟨Int.emod_nonneg _ (hpos' a).ne', Int.emod_lt_of_pos _ (hpos' a)⟩) fun a ha => ?_) C
    show (C a - nghostOf (d + 1) ng a) % nx' a = (shadow d (nx' (ax (Fin.last d)) + 2 * ng) C a - nghostOf d ng a) % nx a
    rw [hN a ha, hnx a ha]
    congr 2
    exact (if_neg ha).symm
  induction order' with
  | nil => exact fun V V' h => h
  | cons id l ih =>
    intro V V' hV
    rw [List.foldl_cons, List.filter_cons]
    by_cases h : id < 2 * d
    · rw [if_pos (by simpa using h), List.foldl_cons]
      refine ih _ _ fun C => ?_
      have hi : id / 2 < d := by omega
      unfold bcPure
      simp only [dif_pos hi, dif_pos (show id / 2 < d + 1 by omega), if_true]
      have := condPure_slab (ext := globExt nx (nghostOf d ng)) (ext' := globExt nx' (nghostOf (d + 1) ng)) (V := V) (V' := V') hd (by rw [hE]; exact hV)
        (fun a ha => by unfold globExt; rw [hN a ha, hnx a ha]) (fun a ha => by unfold globExt nghostOf; rw [hnx1 a ha, if_neg (by omega)]; norm_num)
        (bcs ⟨id / 2, hi⟩ (Fin.ofNat 2 (id % 2))) (nghostOf d ng (ax (⟨id / 2, hi⟩ : Fin d))) ⟨id / 2, hi⟩ (Fin.ofNat 2 (id % 2)) C
      rw [hE] at this
      rw [← this, ← hbc, ← hN _ (ax_ne_last hd _)]
      rfl
    · rw [if_neg (by simpa using h)]
      refine ih _ _ fun C => ?_
      rw [← hV C]
      refine congrFun ?_ C
      unfold bcPure
      by_cases hi : id / 2 < d + 1
      · have hl : (⟨id / 2, hi⟩ : Fin (d + 1)) = Fin.last d := Fin.ext (show id / 2 = d by omega)
        simp only [dif_pos hi, if_true, hl, hNl]
        have hp := hpos' (ax (Fin.last d))
        exact condPure_slab_last hd (V := V) (by rw [hE]; exact hV) _ hng (by rw [hE]; omega) _
      · simp only [dif_neg hi]

end Bc

end Grid

end Heracles
