import Verif.Props.KernelRun
import Verif.Lemmas.SymmetryRun
import Verif.Model.DoubleArith
import Verif.Spec.MirrorBits

/-!
# The kernels, operation by operation, in a mirror
-/

namespace Heracles

variable {d n : ℕ} {F : Type} [Arith F]

open Arith

namespace SignLaws
variable (h : SignLaws F)
include h

theorem sub_zero (a : F) : a - 0 = a := by rw [h.sub_eq, h.neg_zero, h.add_zero]
theorem mul_neg (a b : F) : a * -b = -(a * b) := by rw [h.mul_comm, h.neg_mul, h.mul_comm]
theorem neg_mul_neg (a b : F) : -a * -b = a * b := by rw [h.neg_mul, h.mul_neg, h.neg_neg]
theorem zero_mul (a : F) : 0 * a = 0 := by rw [h.mul_comm, h.mul_zero]
theorem neg_sub_neg (a b : F) : -a - -b = b - a := by rw [h.sub_eq, h.sub_eq, h.neg_neg, h.add_comm]
theorem neg_sub (a b : F) : -(a - b) = b - a := by rw [h.sub_eq, ← h.neg_add, h.neg_neg, h.add_comm, ← h.sub_eq]
theorem neg_add_swap (a b : F) : -a + b = b - a := by rw [h.add_comm, ← h.sub_eq]
theorem fmax_neg (a b : F) : fmax (-a) (-b) = -fmin a b := by
  rw [← h.neg_neg (fmax (-a) (-b)), ← h.fmin_neg, h.neg_neg, h.neg_neg]
theorem pos_neg (a : F) : 0 < -a ↔ a < 0 := by rw [← h.neg_lt, h.neg_neg, h.neg_zero]
theorem neg_neg_iff (a : F) : -a < 0 ↔ 0 < a := by rw [← h.neg_lt, h.neg_neg, h.neg_zero]
theorem add_neg_neg (a b : F) : a + -b = a - b := (h.sub_eq a b).symm
theorem neg_add_neg (a b : F) : -a - b = -(a + b) := by rw [h.sub_eq, h.neg_add]

end SignLaws

/-- A state with the component `b` of its momentum reversed. -/
def Cons.rev (b : Fin d) (c : Cons d F) : Cons d F := { c with rhou := fun i => if i = b then -c.rhou i else c.rhou i }

/-- A flux through a face normal to the reversed direction. -/
def Flux.rev (b : Fin d) (f : Flux d F) : Flux d F := { rho := -f.rho, rhou := fun i => if i = b then f.rhou i else -f.rhou i, E := -f.E }

section Pointwise
variable (h : SignLaws F) (b : Fin d) (eos : EoS F)
include h

theorem sumUp_sq (f : Fin d → F) : sumUp (fun i => (if i = b then -f i else f i) * (if i = b then -f i else f i)) = sumUp fun i => f i * f i := by
  congr 1
  funext i
  split_ifs
  · exact h.neg_mul_neg _ _
  · rfl

theorem oEkCons_rev (c : Cons d F) : oEkCons (c.rev b) = oEkCons c := by
  unfold oEkCons
  rw [← sumUp_sq h b c.rhou]
  rfl

theorem oEkPrim_flip (p : Prim d F) : oEkPrim (p.flip b) = oEkPrim p := by
  unfold oEkPrim
  rw [← sumUp_sq h b p.u]
  rfl

theorem oToPrim_rev (c : Cons d F) : oToPrim eos (c.rev b) = (oToPrim eos c).flip b := by
  have e : oEvol (c.rev b) = oEvol c := by unfold oEvol; rw [oEkCons_rev h]; rfl
  refine Prim.ext rfl ?_ ?_
  · funext i
    show (if i = b then -c.rhou i else c.rhou i) / c.rho = if i = b then -(c.rhou i / c.rho) else c.rhou i / c.rho
    split_ifs
    · exact h.neg_div _ _
    · rfl
  · show eos.presFromEvol c.rho (oEvol (c.rev b)) = _
    rw [e]
    rfl

theorem oToCons_flip (p : Prim d F) : oToCons eos (p.flip b) = (oToCons eos p).rev b := by
  refine Cons.ext rfl ?_ ?_
  · funext i
    show p.rho * (if i = b then -p.u i else p.u i) = if i = b then -(p.rho * p.u i) else p.rho * p.u i
    split_ifs
    · exact h.mul_neg _ _
    · rfl
  · show eos.evolFromPres p.rho p.P + oEkPrim (p.flip b) = _
    rw [oEkPrim_flip h]
    rfl

theorem oFluxPrim_flip (p : Prim d F) {a : Fin d} (hab : a ≠ b) : oFluxPrim eos (p.flip b) a = (oFluxPrim eos p a).flip b := by
  have ea : (p.flip b).u a = p.u a := if_neg hab
  refine Flux.ext ?_ ?_ ?_
  · show p.rho * (p.flip b).u a = _
    rw [ea]; rfl
  · funext i
    show Function.update (fun i => p.rho * (p.flip b).u a * (p.flip b).u i) a (p.rho * (p.flip b).u a * (p.flip b).u a + p.P) i =
      if i = b then -Function.update (fun i => p.rho * p.u a * p.u i) a (p.rho * p.u a * p.u a + p.P) i
        else Function.update (fun i => p.rho * p.u a * p.u i) a (p.rho * p.u a * p.u a + p.P) i
    rw [ea]
    by_cases hi : i = a
    · subst hi
      rw [if_neg hab, Function.update_self, Function.update_self]
    · rw [Function.update_of_ne hi, Function.update_of_ne hi]
      show p.rho * p.u a * (if i = b then -p.u i else p.u i) = _
      split_ifs
      · exact h.mul_neg _ _
      · rfl
  · show (p.flip b).u a * (oEkPrim (p.flip b) + eos.evolFromPres p.rho p.P + p.P) = _
    rw [ea, oEkPrim_flip h]
    rfl

theorem oFluxPrim_rev (p : Prim d F) : oFluxPrim eos (p.flip b) b = (oFluxPrim eos p b).rev b := by
  have eb : (p.flip b).u b = -p.u b := if_pos rfl
  refine Flux.ext ?_ ?_ ?_
  · show p.rho * (p.flip b).u b = -(p.rho * p.u b)
    rw [eb, h.mul_neg]
  · funext i
    show Function.update (fun i => p.rho * (p.flip b).u b * (p.flip b).u i) b (p.rho * (p.flip b).u b * (p.flip b).u b + p.P) i =
      if i = b then Function.update (fun i => p.rho * p.u b * p.u i) b (p.rho * p.u b * p.u b + p.P) i
        else -Function.update (fun i => p.rho * p.u b * p.u i) b (p.rho * p.u b * p.u b + p.P) i
    rw [eb]
    by_cases hi : i = b
    · subst hi
      rw [if_pos rfl, Function.update_self, Function.update_self, h.mul_neg p.rho, h.neg_mul_neg]
    · rw [if_neg hi, Function.update_of_ne hi, Function.update_of_ne hi]
      show p.rho * -p.u b * (if i = b then -p.u i else p.u i) = _
      rw [if_neg hi, h.mul_neg, h.neg_mul]
  · show (p.flip b).u b * (oEkPrim (p.flip b) + eos.evolFromPres p.rho p.P + p.P) = -(p.u b * (oEkPrim p + eos.evolFromPres p.rho p.P + p.P))
    rw [eb, oEkPrim_flip h, h.neg_mul]

/-! ### HLL -/


/-- All quantities change sign. -/
theorem oFluxHll_neg (UL UR FL FR wsL wsR : F) : oFluxHll (-UL) (-UR) (-FL) (-FR) wsL wsR = -oFluxHll UL UR FL FR wsL wsR := by
  unfold oFluxHll
  rw [h.mul_neg, h.mul_neg, h.neg_sub_neg UR, ← h.neg_sub UR UL, h.mul_neg, h.neg_sub_neg, ← h.neg_sub (wsR * FL), h.neg_add, h.neg_div]

/-- A mirror in a wall across which the quantity is even: its flux changes sign. -/
theorem oFluxHll_odd (UL UR FL FR wsL wsR : F) : oFluxHll UR UL (-FR) (-FL) (-wsR) (-wsL) = -oFluxHll UL UR FL FR wsL wsR := by
  unfold oFluxHll
  rw [h.neg_mul_neg, h.neg_mul_neg, h.neg_mul_neg, h.neg_sub_neg, h.mul_comm wsR wsL, ← h.neg_sub UR UL, h.mul_neg, ← h.neg_sub (wsR * FL), h.neg_add,
    h.neg_div]

/-- The same for a quantity that changes sign. -/
theorem oFluxHll_even (UL UR FL FR wsL wsR : F) : oFluxHll (-UR) (-UL) FR FL (-wsR) (-wsL) = oFluxHll UL UR FL FR wsL wsR := by
  rw [← h.neg_neg FR, ← h.neg_neg FL, oFluxHll_odd h, h.neg_neg, h.neg_neg, ← oFluxHll_neg h, h.neg_neg, h.neg_neg, h.neg_neg, h.neg_neg]

theorem oHll_flip (cL cR : Cons d F) {a : Fin d} (hab : a ≠ b) : oHll eos (cL.rev b) (cR.rev b) a = (oHll eos cL cR a).flip b := by
  have eu : ∀ p : Prim d F, (p.flip b).u a = p.u a := fun p => if_neg hab
  have ew : oWaveL eos ((oToPrim eos cL).flip b) ((oToPrim eos cR).flip b) a = oWaveL eos (oToPrim eos cL) (oToPrim eos cR) a := by
    unfold oWaveL; rw [eu, eu]; rfl
  have ew' : oWaveR eos ((oToPrim eos cL).flip b) ((oToPrim eos cR).flip b) a = oWaveR eos (oToPrim eos cL) (oToPrim eos cR) a := by
    unfold oWaveR; rw [eu, eu]; rfl
  unfold oHll
  simp only [oToPrim_rev h, oFluxPrim_flip h b eos _ hab, ew, ew']
  refine Flux.ext rfl ?_ rfl
  funext i
  show oFluxHll (if i = b then -cL.rhou i else cL.rhou i) (if i = b then -cR.rhou i else cR.rhou i)
    (if i = b then -(oFluxPrim eos (oToPrim eos cL) a).rhou i else (oFluxPrim eos (oToPrim eos cL) a).rhou i)
    (if i = b then -(oFluxPrim eos (oToPrim eos cR) a).rhou i else (oFluxPrim eos (oToPrim eos cR) a).rhou i) _ _ = if i = b then -_ else _
  split_ifs
  · exact oFluxHll_neg h ..
  · rfl

theorem oHll_rev (cL cR : Cons d F) : oHll eos (cR.rev b) (cL.rev b) b = (oHll eos cL cR b).rev b := by
  have eu : ∀ p : Prim d F, (p.flip b).u b = -p.u b := fun p => if_pos rfl
  have ew : oWaveL eos ((oToPrim eos cR).flip b) ((oToPrim eos cL).flip b) b = -oWaveR eos (oToPrim eos cL) (oToPrim eos cR) b := by
    unfold oWaveL oWaveR
    rw [eu, eu, ← h.fmin_neg, h.fmin_comm, ← h.neg_add_neg, ← h.neg_add_neg]; rfl
  have ew' : oWaveR eos ((oToPrim eos cR).flip b) ((oToPrim eos cL).flip b) b = -oWaveL eos (oToPrim eos cL) (oToPrim eos cR) b := by
    unfold oWaveL oWaveR
    rw [eu, eu, ← h.fmax_neg, h.fmax_comm, h.neg_sub, h.neg_sub, h.neg_add_swap, h.neg_add_swap]; rfl
  have e0 : ∀ x : F, fmin (-x) 0 = -fmax x 0 := fun x => by rw [← h.fmin_neg, h.neg_zero]
  have e1 : ∀ x : F, fmax (-x) 0 = -fmin x 0 := fun x => by rw [← h.fmax_neg, h.neg_zero]
  unfold oHll
  simp only [oToPrim_rev h, oFluxPrim_rev h, ew, ew', e0, e1]
  refine Flux.ext ?_ ?_ ?_
  · exact oFluxHll_odd h ..
  · funext i
    show oFluxHll (if i = b then -cR.rhou i else cR.rhou i) (if i = b then -cL.rhou i else cL.rhou i)
      (if i = b then (oFluxPrim eos (oToPrim eos cR) b).rhou i else -(oFluxPrim eos (oToPrim eos cR) b).rhou i)
      (if i = b then (oFluxPrim eos (oToPrim eos cL) b).rhou i else -(oFluxPrim eos (oToPrim eos cL) b).rhou i) _ _ = if i = b then _ else -_
    split_ifs
    · exact oFluxHll_even h ..
    · exact oFluxHll_odd h ..
  · exact oFluxHll_odd h ..

/-! ### The low Mach solver -/

theorem oSplitting_flip (cL cR : Cons d F) {a : Fin d} (hab : a ≠ b) : oSplitting eos (cL.rev b) (cR.rev b) a = (oSplitting eos cL cR a).flip b := by
  have eu : ∀ p : Prim d F, (p.flip b).u a = p.u a := fun p => if_neg hab
  have er : ∀ p : Prim d F, (p.flip b).rho = p.rho := fun p => rfl
  have eP : ∀ p : Prim d F, (p.flip b).P = p.P := fun p => rfl
  unfold oSplitting
  simp only [oToPrim_rev h, eu, er, eP]
  generalize (((oToPrim eos cL).u a + (oToPrim eos cR).u a) / lit 2 - _ : F) = us
  have ec : (if 0 < us then cL.rev b else cR.rev b) = (if 0 < us then cL else cR).rev b := by split_ifs <;> rfl
  rw [ec]
  generalize (if 0 < us then cL else cR) = c
  refine Flux.ext rfl ?_ rfl
  funext i
  have ea : (c.rev b).rhou a = c.rhou a := if_neg hab
  show Function.update (fun i => us * (c.rev b).rhou i) a (us * (c.rev b).rhou a + _) i = if i = b then
    -Function.update (fun i => us * c.rhou i) a (us * c.rhou a + _) i else Function.update (fun i => us * c.rhou i) a (us * c.rhou a + _) i
  rw [ea]
  by_cases hi : i = a
  · subst hi
    rw [if_neg hab, Function.update_self, Function.update_self]
  · rw [Function.update_of_ne hi, Function.update_of_ne hi]
    show us * (if i = b then -c.rhou i else c.rhou i) = _
    split_ifs
    · exact h.mul_neg _ _
    · rfl

theorem oSplitting_rev (cL cR : Cons d F) : oSplitting eos (cR.rev b) (cL.rev b) b = (oSplitting eos cL cR b).rev b := by
  have eu : ∀ p : Prim d F, (p.flip b).u b = -p.u b := fun p => if_pos rfl
  have er : ∀ p : Prim d F, (p.flip b).rho = p.rho := fun p => rfl
  have eP : ∀ p : Prim d F, (p.flip b).P = p.P := fun p => rfl
  unfold oSplitting
  simp only [oToPrim_rev h, eu, er, eP]
  rw [h.fmax_comm ((oToPrim eos cR).rho * _), h.fmin_comm (eos.sound (oToPrim eos cR).rho _), h.add_comm (oToPrim eos cR).P]
  generalize c11 * fmax ((oToPrim eos cL).rho * _) ((oToPrim eos cR).rho * _) = aa
  have eus : ((-(oToPrim eos cR).u b + -(oToPrim eos cL).u b) / lit 2 - lit 1 / (lit 2 * aa) * ((oToPrim eos cL).P - (oToPrim eos cR).P) : F) =
      -(((oToPrim eos cL).u b + (oToPrim eos cR).u b) / lit 2 - lit 1 / (lit 2 * aa) * ((oToPrim eos cR).P - (oToPrim eos cL).P)) := by
    rw [h.neg_add, h.neg_div, ← h.neg_sub (oToPrim eos cR).P, h.mul_neg, h.neg_sub_neg, h.neg_sub, h.add_comm ((oToPrim eos cR).u b)]
  rw [eus]
  generalize (((oToPrim eos cL).u b + (oToPrim eos cR).u b) / lit 2 - _ : F) = us
  rw [h.fabs_neg, h.neg_sub_neg]
  generalize ((_ : F) / lit 2 - _ * aa / lit 2 * _ : F) = Ps
  -- the upwind state
  have key : ∃ c : Cons d F, (∀ x, us * (if 0 < us then cL else cR).rhou x = us * c.rhou x) ∧ us * (if 0 < us then cL else cR).rho = us * c.rho ∧
      us * (if 0 < us then cL else cR).E = us * c.E ∧ (∀ x, -us * (if 0 < -us then cR.rev b else cL.rev b).rhou x = -us * (c.rev b).rhou x) ∧
      -us * (if 0 < -us then cR.rev b else cL.rev b).rho = -us * c.rho ∧ -us * (if 0 < -us then cR.rev b else cL.rev b).E = -us * c.E := by
    by_cases h1 : 0 < us
    · have h2 : ¬ 0 < -us := fun e => h.asymm _ _ h1 ((h.pos_neg us).1 e)
      exact ⟨cL, fun x => by rw [if_pos h1], by rw [if_pos h1], by rw [if_pos h1], fun x => by rw [if_neg h2], by rw [if_neg h2]; rfl,
        by rw [if_neg h2]; rfl⟩
    · by_cases h2 : 0 < -us
      · exact ⟨cR, fun x => by rw [if_neg h1], by rw [if_neg h1], by rw [if_neg h1], fun x => by rw [if_pos h2], by rw [if_pos h2]; rfl,
          by rw [if_pos h2]; rfl⟩
      · have e : us = 0 := h.tri _ _ (fun e => h2 ((h.pos_neg us).2 e)) h1
        subst e
        refine ⟨cL, fun x => ?_, ?_, ?_, fun x => ?_, ?_, ?_⟩ <;> simp only [h.neg_zero, h.zero_mul]
  obtain ⟨c, k1, k2, k3, k4, k5, k6⟩ := key
  simp only [k1, k2, k3, k4, k5, k6]
  refine Flux.ext ?_ ?_ ?_
  · exact h.neg_mul _ _
  · funext i
    show Function.update (fun i => -us * (c.rev b).rhou i) b (-us * (c.rev b).rhou b + Ps) i = if i = b then
      Function.update (fun i => us * c.rhou i) b (us * c.rhou b + Ps) i else -Function.update (fun i => us * c.rhou i) b (us * c.rhou b + Ps) i
    by_cases hi : i = b
    · subst hi
      rw [if_pos rfl, Function.update_self, Function.update_self]
      show -us * (if i = i then -c.rhou i else c.rhou i) + Ps = _
      rw [if_pos rfl, h.neg_mul_neg]
    · rw [if_neg hi, Function.update_of_ne hi, Function.update_of_ne hi]
      show -us * (if i = b then -c.rhou i else c.rhou i) = _
      rw [if_neg hi, h.neg_mul]
  · show -us * c.E + Ps * -us = -(us * c.E + Ps * us)
    rw [h.neg_mul, h.mul_neg, h.neg_add]

theorem oFlux_flip {sol : Solver} (hs : sol ≠ .hllc) (cL cR : Cons d F) {a : Fin d} (hab : a ≠ b) :
    oFlux sol eos (cL.rev b) (cR.rev b) a = (oFlux sol eos cL cR a).flip b := by
  cases sol with
  | hll => exact oHll_flip h b eos cL cR hab
  | hllc => exact absurd rfl hs
  | splitting => exact oSplitting_flip h b eos cL cR hab

theorem oFlux_rev {sol : Solver} (hs : sol ≠ .hllc) (cL cR : Cons d F) :
    oFlux sol eos (cR.rev b) (cL.rev b) b = (oFlux sol eos cL cR b).rev b := by
  cases sol with
  | hll => exact oHll_rev h b eos cL cR
  | hllc => exact absurd rfl hs
  | splitting => exact oSplitting_rev h b eos cL cR

end Pointwise

/-! ### The loop over the directions -/

section Loop
variable (h : SignLaws F) (b : Fin d) (eos : EoS F)

theorem foldl_flip {f f' : Fields d n F → Fin d → Fields d n F} (hf : ∀ w i, f' (w.flip b) i = (f w i).flip b) (l : List (Fin d)) (w : Fields d n F) :
    l.foldl f' (w.flip b) = (l.foldl f w).flip b := by
  induction l generalizing w with
  | nil => rfl
  | cons i l ih => rw [List.foldl_cons, List.foldl_cons, hf, ih]

include h

theorem oFluxDiff_neg (g : DirGeo F) (k fL fR : F) : oFluxDiff g k (-fL) (-fR) = -oFluxDiff g k fL fR := by
  unfold oFluxDiff
  rw [h.neg_mul, h.neg_mul, h.neg_sub_neg, ← h.neg_sub (fL * _), h.mul_neg]

theorem oFluxDiff_odd {g g' : DirGeo F} (e1 : g'.dsL = g.dsR) (e2 : g'.dsR = g.dsL) (k fL fR : F) :
    oFluxDiff g' k (-fR) (-fL) = oFluxDiff g k fL fR := by
  unfold oFluxDiff
  rw [e1, e2, h.neg_mul, h.neg_mul, h.neg_sub_neg]

theorem oFluxDiff_even {g g' : DirGeo F} (e1 : g'.dsL = g.dsR) (e2 : g'.dsR = g.dsL) (k fL fR : F) :
    oFluxDiff g' k fR fL = -oFluxDiff g k fL fR := by
  unfold oFluxDiff
  rw [e1, e2, ← h.neg_sub (fL * _), h.mul_neg]

theorem oDirection_flip (dt : F) {g g' : DirGeo F} (gr : F) (s : Fields d n F) (pL pR pL' pR' : Prim d F) (fL fR : Flux d F)
    (fxL fxR : Fin n → F) {a : Fin d} (hab : a ≠ b) (e1 : g'.dsL = g.dsL) (e2 : g'.dsR = g.dsR) (e3 : g'.dv = g.dv) (w : Fields d n F) :
    oDirection .cartesian dt g' gr (s.flip b) pL' pR' (fL.flip b) (fR.flip b) fxL fxR a (w.flip b) =
      (oDirection .cartesian dt g gr s pL pR fL fR fxL fxR a w).flip b := by
  have ed : ∀ k x y : F, oFluxDiff g' k x y = oFluxDiff g k x y := fun k x y => by unfold oFluxDiff; rw [e1, e2]
  unfold oDirection
  simp only [e3, ed]
  refine Fields.ext rfl ?_ ?_ rfl
  · funext i
    rw [Fields.flip_rhou]
    simp only [if_neg (show Geom.cartesian ≠ Geom.spherical by decide), onEntry, Fields.flip_rhou]
    have hs : (s.flip b).rho = s.rho := rfl
    rw [hs]
    show (if i.val = a.val then _ + oFluxDiff g (dt / g.dv) (if i = b then -fL.rhou i else fL.rhou i) (if i = b then -fR.rhou i else fR.rhou i) +
      dt * gr * s.rho else _ + oFluxDiff g (dt / g.dv) (if i = b then -fL.rhou i else fL.rhou i) (if i = b then -fR.rhou i else fR.rhou i)) = _
    by_cases hi : i = b
    · have hne : ¬ i.val = a.val := fun e => hab ((Fin.ext e).symm.trans hi)
      simp only [if_pos hi, if_neg hne]
      rw [oFluxDiff_neg h, h.neg_add]
    · simp only [if_neg hi]
  · show w.E + _ + dt * gr * (s.flip b).rhou a = w.E + _ + dt * gr * s.rhou a
    rw [Fields.flip_rhou, if_neg hab]
    rfl

theorem oDirection_rev (dt : F) {g g' : DirGeo F} (gr : F) (s : Fields d n F) (pL pR pL' pR' : Prim d F) (fL fR : Flux d F)
    {fxL fxR fxL' fxR' : Fin n → F} (e1 : g'.dsL = g.dsR) (e2 : g'.dsR = g.dsL) (e3 : g'.dv = g.dv)
    (x1 : ∀ i, fxL' i * -fR.rho = -(fxR i * fR.rho)) (x2 : ∀ i, fxR' i * -fL.rho = -(fxL i * fL.rho)) (w : Fields d n F) :
    oDirection .cartesian dt g' (-gr) (s.flip b) pL' pR' (fR.rev b) (fL.rev b) fxL' fxR' b (w.flip b) =
      (oDirection .cartesian dt g gr s pL pR fL fR fxL fxR b w).flip b := by
  unfold oDirection
  simp only [e3]
  refine Fields.ext ?_ ?_ ?_ ?_
  · show w.rho + oFluxDiff g' _ (-fR.rho) (-fL.rho) = w.rho + _
    rw [oFluxDiff_odd h e1 e2]
  · funext i
    rw [Fields.flip_rhou]
    simp only [if_neg (show Geom.cartesian ≠ Geom.spherical by decide), onEntry, Fields.flip_rhou]
    have hs : (s.flip b).rho = s.rho := rfl
    rw [hs]
    show (if i.val = b.val then _ + oFluxDiff g' (dt / g.dv) (if i = b then fR.rhou i else -fR.rhou i) (if i = b then fL.rhou i else -fL.rhou i) +
      dt * -gr * s.rho else _ + oFluxDiff g' (dt / g.dv) (if i = b then fR.rhou i else -fR.rhou i) (if i = b then fL.rhou i else -fL.rhou i)) = _
    by_cases hi : i = b
    · have hv : i.val = b.val := by rw [hi]
      simp only [if_pos hi, if_pos hv]
      rw [oFluxDiff_even h e1 e2, h.neg_add, h.mul_neg, h.neg_mul, h.neg_add]
    · have hv : ¬ i.val = b.val := fun e => hi (Fin.ext e)
      simp only [if_neg hi, if_neg hv]
      rw [oFluxDiff_odd h e1 e2]
  · show w.E + oFluxDiff g' _ (-fR.E) (-fL.E) + dt * -gr * (s.flip b).rhou b = w.E + _ + dt * gr * s.rhou b
    rw [Fields.flip_rhou, if_pos rfl, oFluxDiff_odd h e1 e2, h.mul_neg dt, h.neg_mul_neg]
  · funext i
    show w.fx i + oFluxDiff g' _ (fxL' i * -fR.rho) (fxR' i * -fL.rho) = w.fx i + _
    rw [x1, x2, oFluxDiff_odd h e1 e2]

/-- The predictor of a cell seen in a mirror. -/
theorem oPredict_rev (dt : F) {dg dg' : Fin d → DirGeo F} {gr gr' : Fin d → F} {up up' : Fin 2 → Fin d → VelPres d F}
    {old old' : Fin 2 → Fin d → Fields d n F} (hg : ∀ a, (dg' a).dv = (dg a).dv) (hgL : ∀ a, (dg' a).dsL = (dg a).dsL)
    (hgR : ∀ a, (dg' a).dsR = (dg a).dsR) (hgb : (dg b).dsL = (dg b).dsR) (hgr : ∀ a, gr' a = if a = b then -gr a else gr a)
    (hup : ∀ side a, up' side a = (up (revSide b a side) a).flip b) (hold : ∀ side a, old' side a = (old (revSide b a side) a).flip b)
    (side : Fin 2) (a : Fin d) :
    oPredict eos .cartesian dt dg' gr' up' old' side a = (oPredict eos .cartesian dt dg gr up old (revSide b a side) a).flip b := by
  unfold oPredict
  dsimp only
  have e0 : ({ old' side a with fx := fun ifx => (old' side a).fx ifx * (old' side a).rho } : Fields d n F) =
      ({ old (revSide b a side) a with fx := fun ifx => (old (revSide b a side) a).fx ifx * (old (revSide b a side) a).rho } : Fields d n F).flip b := by
    rw [hold]; rfl
  rw [e0]
  refine foldl_flip b (fun w i => ?_) _ _
  rw [hold side a]
  by_cases hi : i = b
  · subst hi
    have r0 : revSide i i 0 = 1 := (revSide_self i).1
    have r1 : revSide i i 1 = 0 := (revSide_self i).2
    rw [hold 0 i, hold 1 i, hup 0 i, hup 1 i, r0, r1, hgr, if_pos rfl]
    have f1 := oFluxPrim_rev h i eos { rho := (old 1 i).rho, u := (up 1 i).u, P := (up 1 i).P }
    have f0 := oFluxPrim_rev h i eos { rho := (old 0 i).rho, u := (up 0 i).u, P := (up 0 i).P }
    refine Eq.trans ?_ (oDirection_rev (fxL' := (old 1 i).fx) (fxR' := (old 0 i).fx) h i dt (gr i) _ _ _
      (Prim.flip i { rho := (old 1 i).rho, u := (up 1 i).u, P := (up 1 i).P }) (Prim.flip i { rho := (old 0 i).rho, u := (up 0 i).u, P := (up 0 i).P }) _ _
      ((hgL i).trans hgb) ((hgR i).trans hgb.symm) (hg i) (fun j => h.mul_neg _ _) (fun j => h.mul_neg _ _) w)
    rw [← f1, ← f0]
    rfl
  · have r : ∀ s, revSide b i s = s := revSide_ne hi
    rw [hold 0 i, hold 1 i, hup 0 i, hup 1 i, r, r, hgr, if_neg hi]
    have f1 := oFluxPrim_flip h b eos { rho := (old 1 i).rho, u := (up 1 i).u, P := (up 1 i).P } hi
    have f0 := oFluxPrim_flip h b eos { rho := (old 0 i).rho, u := (up 0 i).u, P := (up 0 i).P } hi
    refine Eq.trans ?_ (oDirection_flip h b dt (gr i) _ _ _
      (Prim.flip b { rho := (old 0 i).rho, u := (up 0 i).u, P := (up 0 i).P }) (Prim.flip b { rho := (old 1 i).rho, u := (up 1 i).u, P := (up 1 i).P }) _ _
      _ _ hi (hgL i) (hgR i) (hg i) w)
    rw [← f1, ← f0]
    rfl

theorem Fields.flip_consRev (f : Fields d n F) : (f.flip b).cons = f.cons.rev b := by
  refine Cons.ext rfl ?_ rfl
  funext i
  exact f.flip_rhou b i

/-- The update of a cell seen in a mirror. -/
theorem oUpdate_rev {sol : Solver} (hs : sol ≠ .hllc) (dt : F) {dg dg' : Fin d → DirGeo F} {gr gr' : Fin d → F} (s : Fields d n F)
    {rm rp rm' rp' : Fin d → Fin 2 → Fin d → Fields d n F} {r0 r0' : Fin 2 → Fin d → Fields d n F}
    (hg : ∀ a, (dg' a).dv = (dg a).dv) (hgL : ∀ a, (dg' a).dsL = (dg a).dsL)
    (hgR : ∀ a, (dg' a).dsR = (dg a).dsR) (hgb : (dg b).dsL = (dg b).dsR) (hgr : ∀ a, gr' a = if a = b then -gr a else gr a)
    (h0 : ∀ side a, r0' side a = (r0 (revSide b a side) a).flip b)
    (hm : ∀ c, c ≠ b → ∀ side a, rm' c side a = (rm c (revSide b a side) a).flip b)
    (hp : ∀ c, c ≠ b → ∀ side a, rp' c side a = (rp c (revSide b a side) a).flip b)
    (hmb : ∀ side a, rm' b side a = (rp b (revSide b a side) a).flip b) (hpb : ∀ side a, rp' b side a = (rm b (revSide b a side) a).flip b) :
    oUpdate sol eos .cartesian dt dg' gr' (s.flip b) rm' r0' rp' = (oUpdate sol eos .cartesian dt dg gr s rm r0 rp).flip b := by
  unfold oUpdate
  dsimp only
  refine foldl_flip b (fun w i => ?_) _ { s with fx := fun ifx => s.fx ifx * s.rho }
  by_cases hi : i = b
  · subst hi
    have r0e : revSide i i 0 = 1 := (revSide_self i).1
    have r1e : revSide i i 1 = 0 := (revSide_self i).2
    have fL' : oFlux sol eos (rm' i 1 i).cons (r0' 0 i).cons i = (oFlux sol eos (r0 1 i).cons (rp i 0 i).cons i).rev i := by
      rw [hmb, h0, r0e, r1e, Fields.flip_consRev h, Fields.flip_consRev h, oFlux_rev h i eos hs]
    have fR' : oFlux sol eos (r0' 1 i).cons (rp' i 0 i).cons i = (oFlux sol eos (rm i 1 i).cons (r0 0 i).cons i).rev i := by
      rw [hpb, h0, r0e, r1e, Fields.flip_consRev h, Fields.flip_consRev h, oFlux_rev h i eos hs]
    suffices gen : ∀ A B : Flux d F, A = (oFlux sol eos (r0 1 i).cons (rp i 0 i).cons i).rev i → B = (oFlux sol eos (rm i 1 i).cons (r0 0 i).cons i).rev i →
        oDirection .cartesian dt (dg' i) (gr' i) (s.flip i) (oToPrim eos (r0' 0 i).cons) (oToPrim eos (r0' 1 i).cons) A B
          (fun ifx => if A.rho < 0 then (r0' 0 i).fx ifx else (rm' i 1 i).fx ifx) (fun ifx => if B.rho < 0 then (rp' i 0 i).fx ifx else (r0' 1 i).fx ifx)
          i (w.flip i) = _ from gen _ _ fL' fR'
    rintro A B rfl rfl
    rw [hgr, if_pos rfl]
    refine oDirection_rev h i dt (gr i) s _ _ _ _ _ _ ((hgL i).trans hgb) ((hgR i).trans hgb.symm) (hg i) (fun j => ?_) (fun j => ?_) w
    · have eA : (r0' 0 i).fx j = (r0 1 i).fx j := by rw [h0, r0e]; rfl
      have eB : (rm' i 1 i).fx j = (rp i 0 i).fx j := by rw [hmb, r1e]; rfl
      rw [eA, eB]
      show (if -(oFlux sol eos (r0 1 i).cons (rp i 0 i).cons i).rho < 0 then _ else _) * _ = _
      generalize (oFlux sol eos (r0 1 i).cons (rp i 0 i).cons i).rho = f
      by_cases h1 : f < 0
      · rw [if_pos h1, if_neg (fun e => h.asymm _ _ h1 ((h.neg_neg_iff f).1 e)), h.mul_neg]
      · by_cases h2 : 0 < f
        · rw [if_neg h1, if_pos ((h.neg_neg_iff f).2 h2), h.mul_neg]
        · have e := h.tri _ _ h1 h2
          subst e
          rw [h.neg_zero, h.mul_zero, h.mul_zero, h.neg_zero]
    · have eA : (r0' 1 i).fx j = (r0 0 i).fx j := by rw [h0, r1e]; rfl
      have eB : (rp' i 0 i).fx j = (rm i 1 i).fx j := by rw [hpb, r0e]; rfl
      rw [eA, eB]
      show (if -(oFlux sol eos (rm i 1 i).cons (r0 0 i).cons i).rho < 0 then _ else _) * _ = _
      generalize (oFlux sol eos (rm i 1 i).cons (r0 0 i).cons i).rho = f
      by_cases h1 : f < 0
      · rw [if_pos h1, if_neg (fun e => h.asymm _ _ h1 ((h.neg_neg_iff f).1 e)), h.mul_neg]
      · by_cases h2 : 0 < f
        · rw [if_neg h1, if_pos ((h.neg_neg_iff f).2 h2), h.mul_neg]
        · have e := h.tri _ _ h1 h2
          subst e
          rw [h.neg_zero, h.mul_zero, h.mul_zero, h.neg_zero]
  · have r : ∀ s, revSide b i s = s := revSide_ne hi
    have fL' : oFlux sol eos (rm' i 1 i).cons (r0' 0 i).cons i = (oFlux sol eos (rm i 1 i).cons (r0 0 i).cons i).flip b := by
      rw [hm i hi, h0, r, r, Fields.flip_consRev h, Fields.flip_consRev h, oFlux_flip h b eos hs _ _ hi]
    have fR' : oFlux sol eos (r0' 1 i).cons (rp' i 0 i).cons i = (oFlux sol eos (r0 1 i).cons (rp i 0 i).cons i).flip b := by
      rw [hp i hi, h0, r, r, Fields.flip_consRev h, Fields.flip_consRev h, oFlux_flip h b eos hs _ _ hi]
    suffices gen : ∀ A B : Flux d F, A = (oFlux sol eos (rm i 1 i).cons (r0 0 i).cons i).flip b → B = (oFlux sol eos (r0 1 i).cons (rp i 0 i).cons i).flip b →
        oDirection .cartesian dt (dg' i) (gr' i) (s.flip b) (oToPrim eos (r0' 0 i).cons) (oToPrim eos (r0' 1 i).cons) A B
          (fun ifx => if A.rho < 0 then (r0' 0 i).fx ifx else (rm' i 1 i).fx ifx) (fun ifx => if B.rho < 0 then (rp' i 0 i).fx ifx else (r0' 1 i).fx ifx)
          i (w.flip b) = _ from gen _ _ fL' fR'
    rintro A B rfl rfl
    rw [hgr, if_neg hi]
    refine Eq.trans ?_ (oDirection_flip h b dt (gr i) s _ _ (oToPrim eos (r0' 0 i).cons) (oToPrim eos (r0' 1 i).cons) _ _
      _ _ hi (hgL i) (hgR i) (hg i) w)
    rw [hm i hi, hp i hi, h0, h0, r, r]
    rfl

end Loop

/-! ### The step of the global array -/

/-- The cell sizes and the gravity of a global array of extents `E`, seen in a mirror. -/
structure KMirror (b : Fin d) (E : Cell) (X X' : Fin 3 → ℤ → F) (Gr Gr' : Cell → Fin d → F) : Prop where
  dx : ∀ C, inExt E C = true → ∀ x, X' x (C x + 1) - X' x (C x) = X x (reflect (ax b) (E (ax b)) C x + 1) - X x (reflect (ax b) (E (ax b)) C x)
  grav : ∀ C, inExt E C = true → ∀ a, Gr' C a = if a = b then -Gr (reflect (ax b) (E (ax b)) C) a else Gr (reflect (ax b) (E (ax b)) C) a

/-- The kernels of a first order scheme on a Cartesian grid without pressure fix. -/
abbrev firstOrder (d n : ℕ) (sol : Solver) (eos : EoS F) : Kernels d n F := orderedKernels .constant sol eos .cartesian none

section Step
variable (h : SignLaws F) {b : Fin d} {eos : EoS F} {sol : Solver} {E : Cell} {X X' : Fin 3 → ℤ → F} {Gr Gr' : Cell → Fin d → F}

theorem ds_nb (sol : Solver) (eos : EoS F) (X : Fin 3 → ℤ → F) (Gr : Cell → Fin d → F) (C : Cell) (x : Fin 3) (s : ℤ) :
    (kGrid (firstOrder d n sol eos) .cartesian X Gr).ds (nb C x s) x = (kGrid (firstOrder d n sol eos) .cartesian X Gr).ds C x := by
  have e : ∀ y, y ≠ x → nb C x s y = C y := fun y hy => nb_ne _ hy s
  show (if x = 0 then lit 1 else X 0 (nb C x s 0 + 1) - X 0 (nb C x s 0)) * (if x = 1 then lit 1 else X 1 (nb C x s 1 + 1) - X 1 (nb C x s 1)) *
      (if x = 2 then lit 1 else X 2 (nb C x s 2 + 1) - X 2 (nb C x s 2)) =
    (if x = 0 then lit 1 else X 0 (C 0 + 1) - X 0 (C 0)) * (if x = 1 then lit 1 else X 1 (C 1 + 1) - X 1 (C 1)) *
      (if x = 2 then lit 1 else X 2 (C 2 + 1) - X 2 (C 2))
  have e0 : (if x = 0 then lit 1 else X 0 (nb C x s 0 + 1) - X 0 (nb C x s 0)) = if x = 0 then lit 1 else X 0 (C 0 + 1) - X 0 (C 0) := by
    split_ifs with hx
    · rfl
    · rw [e 0 (Ne.symm hx)]
  have e1 : (if x = 1 then lit 1 else X 1 (nb C x s 1 + 1) - X 1 (nb C x s 1)) = if x = 1 then lit 1 else X 1 (C 1 + 1) - X 1 (C 1) := by
    split_ifs with hx
    · rfl
    · rw [e 1 (Ne.symm hx)]
  have e2 : (if x = 2 then lit 1 else X 2 (nb C x s 2 + 1) - X 2 (nb C x s 2)) = if x = 2 then lit 1 else X 2 (C 2 + 1) - X 2 (C 2) := by
    split_ifs with hx
    · rfl
    · rw [e 2 (Ne.symm hx)]
  rw [e0, e1, e2]

theorem ds_mirror (hm : KMirror b E X X' Gr Gr') {C : Cell} (hC : inExt E C = true) :
    (kGrid (firstOrder d n sol eos) .cartesian X' Gr').ds C = (kGrid (firstOrder d n sol eos) .cartesian X Gr).ds (reflect (ax b) (E (ax b)) C) := by
  funext x
  show (if x = 0 then lit 1 else X' 0 (C 0 + 1) - X' 0 (C 0)) * (if x = 1 then lit 1 else X' 1 (C 1 + 1) - X' 1 (C 1)) *
      (if x = 2 then lit 1 else X' 2 (C 2 + 1) - X' 2 (C 2)) = _
  rw [hm.dx C hC 0, hm.dx C hC 1, hm.dx C hC 2]
  rfl

theorem dv_mirror (hm : KMirror b E X X' Gr Gr') {C : Cell} (hC : inExt E C = true) :
    (kGrid (firstOrder d n sol eos) .cartesian X' Gr').dv C = (kGrid (firstOrder d n sol eos) .cartesian X Gr).dv (reflect (ax b) (E (ax b)) C) := by
  show (X' 0 (C 0 + 1) - X' 0 (C 0)) * (X' 1 (C 1 + 1) - X' 1 (C 1)) * (X' 2 (C 2 + 1) - X' 2 (C 2)) = _
  rw [hm.dx C hC 0, hm.dx C hC 1, hm.dx C hC 2]
  rfl

theorem dsR_mirror (hd : d ≤ 3) (hm : KMirror b E X X' Gr Gr') {C : Cell} (hC : inExt E C = true) (hS : StencilIn d E C) (a : Fin d) :
    (kGrid (firstOrder d n sol eos) .cartesian X' Gr').ds (nb C (ax a) 1) (ax a) =
      (kGrid (firstOrder d n sol eos) .cartesian X Gr).ds (nb (reflect (ax b) (E (ax b)) C) (ax a) 1) (ax a) := by
  by_cases e : a = b
  · subst e
    rw [ds_nb, ds_nb, ds_mirror hm hC]
  · rw [ds_mirror hm (hS a 1 (by norm_num) le_rfl), reflect_nb_ne fun h => e (ax_injective hd h)]

include h

theorem kReconVal_first (sol : Solver) (eos : EoS F) (p : PGrid d F) (var : Cell → F) (c : Cell) (side : Fin 2) (a : Fin d) :
    kReconVal (firstOrder d n sol eos) p var c side a = var c := by
  unfold kReconVal
  show (if side = 0 then var c - _ * (0 : F) else var c + _ * (0 : F)) = var c
  rw [h.mul_zero, h.sub_zero, h.add_zero, ite_self]

theorem kPrimGlob_mirror (sol : Solver) (eos : EoS F) (κ : Cell → Cell) (W : Cell → Fields d n F) (C : Cell) :
    kPrimGlob (firstOrder d n sol eos) (fun C => (W (κ C)).flip b) C = (kPrimGlob (firstOrder d n sol eos) W (κ C)).flip b := by
  have e := oToPrim_rev h b eos (W (κ C)).cons
  rw [← Fields.flip_consRev h] at e
  have e1 := congrArg Prim.u e
  have e2 := congrArg Prim.P e
  exact VelPres.ext e1 e2

theorem kFaceUP_const (sol : Solver) (eos : EoS F) (p : PGrid d F) (UP : Cell → VelPres d F) (c : Cell) (side : Fin 2) (a : Fin d) :
    kFaceUP (firstOrder d n sol eos) p UP c side a = UP c :=
  VelPres.ext (funext fun i => kReconVal_first (n := n) h sol eos p (fun c => (UP c).u i) c side a)
    (kReconVal_first (n := n) h sol eos p (fun c => (UP c).P) c side a)

theorem kFaceFields_mirror (p p' : PGrid d F) (κ : Cell → Cell) (W : Cell → Fields d n F) (UP : Cell → VelPres d F) (c : Cell)
    (side side' : Fin 2) (a : Fin d) :
    kFaceFields (firstOrder d n sol eos) p' (fun C => (W (κ C)).flip b) (fun C => (UP (κ C)).flip b) c side a =
      (kFaceFields (firstOrder d n sol eos) p W UP (κ c) side' a).flip b := by
  unfold kFaceFields
  simp only [kReconVal_first h, kFaceUP_const h]
  have e := oToCons_flip h b eos { rho := (W (κ c)).rho, u := (UP (κ c)).u, P := (UP (κ c)).P }
  have e1 := congrArg Cons.E e
  have e2 := congrArg Cons.rhou e
  refine Fields.ext rfl ?_ e1 rfl
  funext i
  rw [Fields.flip_rhou]
  exact congrFun e2 i

theorem kRecVal_mirror (hd : d ≤ 3) (hm : KMirror b E X X' Gr Gr') (dt : F) (W : Cell → Fields d n F) (UP : Cell → VelPres d F) {C : Cell}
    (hC : inExt E C = true) (hS : StencilIn d E C) (side : Fin 2) (a : Fin d) :
    kRecVal (firstOrder d n sol eos) .cartesian (kGrid (firstOrder d n sol eos) .cartesian X' Gr') dt
        (fun C => (W (reflect (ax b) (E (ax b)) C)).flip b) (fun C => (UP (reflect (ax b) (E (ax b)) C)).flip b) C side a =
      (kRecVal (firstOrder d n sol eos) .cartesian (kGrid (firstOrder d n sol eos) .cartesian X Gr) dt W UP (reflect (ax b) (E (ax b)) C)
        (revSide b a side) a).flip b := by
  have e := oPredict_rev (n := n) h b eos dt
    (dg := fun a => (kGrid (firstOrder d n sol eos) .cartesian X Gr).kDirGeo .cartesian a (reflect (ax b) (E (ax b)) C))
    (dg' := fun a => (kGrid (firstOrder d n sol eos) .cartesian X' Gr').kDirGeo .cartesian a C)
    (gr := Gr (reflect (ax b) (E (ax b)) C)) (gr' := Gr' C)
    (up := kFaceUP (firstOrder d n sol eos) (kGrid (firstOrder d n sol eos) .cartesian X Gr) UP (reflect (ax b) (E (ax b)) C))
    (up' := kFaceUP (firstOrder d n sol eos) (kGrid (firstOrder d n sol eos) .cartesian X' Gr') (fun C => (UP (reflect (ax b) (E (ax b)) C)).flip b) C)
    (old := kFaceFields (firstOrder d n sol eos) (kGrid (firstOrder d n sol eos) .cartesian X Gr) W UP (reflect (ax b) (E (ax b)) C))
    (old' := kFaceFields (firstOrder d n sol eos) (kGrid (firstOrder d n sol eos) .cartesian X' Gr')
      (fun C => (W (reflect (ax b) (E (ax b)) C)).flip b) (fun C => (UP (reflect (ax b) (E (ax b)) C)).flip b) C)
    (fun a => dv_mirror hm hC) (fun a => congrFun (ds_mirror hm hC) (ax a)) (fun a => dsR_mirror hd hm hC hS a) (ds_nb sol eos X Gr (reflect (ax b) (E (ax b)) C) (ax b) 1).symm
    (hm.grav C hC) (fun side a => by rw [kFaceUP_const h, kFaceUP_const h]) (fun side a => kFaceFields_mirror h ..) side a
  unfold kRecVal
  exact congrArg (fun f : Fields d n F => ({ f with fx := fun ifx => f.fx ifx / f.rho } : Fields d n F)) e

theorem kStepVal_mirror (hd : d ≤ 3) (hs : sol ≠ .hllc) (hm : KMirror b E X X' Gr Gr') (dt : F) (W : Cell → Fields d n F) (UP : Cell → VelPres d F)
    {ng : ℤ} (hng : 2 ≤ ng) {C : Cell} (hC : layer d E ng C) :
    kStepVal (firstOrder d n sol eos) .cartesian (kGrid (firstOrder d n sol eos) .cartesian X' Gr') dt
        (fun C => (W (reflect (ax b) (E (ax b)) C)).flip b) (fun C => (UP (reflect (ax b) (E (ax b)) C)).flip b) C =
      (kStepVal (firstOrder d n sol eos) .cartesian (kGrid (firstOrder d n sol eos) .cartesian X Gr) dt W UP (reflect (ax b) (E (ax b)) C)).flip b := by
  have hC0 := layer_inExt hC (by omega)
  have hS := layer_stencil hd hC (by omega)
  have hrec := fun {C : Cell} (h0 : inExt E C = true) (h1 : StencilIn d E C) => kRecVal_mirror (sol := sol) (eos := eos) h hd hm (dt / lit 2) W UP h0 h1
  have hnb : ∀ (c : Fin d) (s : ℤ), -1 ≤ s → s ≤ 1 → StencilIn d E (nb C (ax c) s) := fun c s h1 h2 =>
    layer_stencil hd (layer_nb hd hC c h1 h2) (by omega)
  have hne : ∀ c : Fin d, c ≠ b → ax c ≠ ax b := fun c hc e => hc (ax_injective hd e)
  have e := oUpdate_rev (n := n) h b eos hs dt
    (dg := fun a => (kGrid (firstOrder d n sol eos) .cartesian X Gr).kDirGeo .cartesian a (reflect (ax b) (E (ax b)) C))
    (dg' := fun a => (kGrid (firstOrder d n sol eos) .cartesian X' Gr').kDirGeo .cartesian a C)
    (gr := Gr (reflect (ax b) (E (ax b)) C)) (gr' := Gr' C) (W (reflect (ax b) (E (ax b)) C))
    (fun a => dv_mirror hm hC0) (fun a => congrFun (ds_mirror hm hC0) (ax a)) (fun a => dsR_mirror hd hm hC0 hS a) (ds_nb sol eos X Gr (reflect (ax b) (E (ax b)) C) (ax b) 1).symm
    (hm.grav C hC0) (hrec hC0 hS)
    (rm' := fun a => kRecVal (firstOrder d n sol eos) .cartesian (kGrid (firstOrder d n sol eos) .cartesian X' Gr') (dt / lit 2)
      (fun C => (W (reflect (ax b) (E (ax b)) C)).flip b) (fun C => (UP (reflect (ax b) (E (ax b)) C)).flip b) (nb C (ax a) (-1)))
    (rp' := fun a => kRecVal (firstOrder d n sol eos) .cartesian (kGrid (firstOrder d n sol eos) .cartesian X' Gr') (dt / lit 2)
      (fun C => (W (reflect (ax b) (E (ax b)) C)).flip b) (fun C => (UP (reflect (ax b) (E (ax b)) C)).flip b) (nb C (ax a) 1))
    (rm := fun a => kRecVal (firstOrder d n sol eos) .cartesian (kGrid (firstOrder d n sol eos) .cartesian X Gr) (dt / lit 2) W UP
      (nb (reflect (ax b) (E (ax b)) C) (ax a) (-1)))
    (rp := fun a => kRecVal (firstOrder d n sol eos) .cartesian (kGrid (firstOrder d n sol eos) .cartesian X Gr) (dt / lit 2) W UP
      (nb (reflect (ax b) (E (ax b)) C) (ax a) 1))
    (fun c hc side a => by
      rw [← reflect_nb_ne (hne c hc)]
      exact hrec (hS c (-1) le_rfl (by norm_num)) (hnb c (-1) le_rfl (by norm_num)) side a)
    (fun c hc side a => by
      rw [← reflect_nb_ne (hne c hc)]
      exact hrec (hS c 1 (by norm_num) le_rfl) (hnb c 1 (by norm_num) le_rfl) side a)
    (fun side a => by
      have e := reflect_nb_self (ax b) (E (ax b)) C (-1)
      rw [neg_neg] at e
      rw [← e]
      exact hrec (hS b (-1) le_rfl (by norm_num)) (hnb b (-1) le_rfl (by norm_num)) side a)
    (fun side a => by
      rw [← reflect_nb_self (ax b) (E (ax b)) C 1]
      exact hrec (hS b 1 (by norm_num) le_rfl) (hnb b 1 (by norm_num) le_rfl) side a)
  have hf : ∀ s, (firstOrder d n sol eos).fixOn s = false := fun _ => rfl
  unfold kStepVal kFixVal
  simp only [hf, Bool.false_eq_true, if_false]
  unfold kGodVal
  exact congrArg (fun s : Fields d n F => ({ s with fx := fun ifx => oClamp (s.fx ifx / s.rho) 0 (lit 1) } : Fields d n F)) e

theorem kRateVal_mirror (hm : KMirror b E X X' Gr Gr') (W : Cell → Fields d n F) (UP : Cell → VelPres d F) {C : Cell} (hd : d ≤ 3)
    (hC : inExt E C = true) :
    kRateVal (firstOrder d n sol eos) .cartesian X' (fun C => (W (reflect (ax b) (E (ax b)) C)).flip b) (fun C => (UP (reflect (ax b) (E (ax b)) C)).flip b) C =
      kRateVal (firstOrder d n sol eos) .cartesian X W UP (reflect (ax b) (E (ax b)) C) := by
  have e : ∀ x : Fin 3, (![X' 0 (C 0 + 1) - X' 0 (C 0), X' 1 (C 1 + 1) - X' 1 (C 1), X' 2 (C 2 + 1) - X' 2 (C 2)] : Fin 3 → F) x =
      X' x (C x + 1) - X' x (C x) := fun x => by fin_cases x <;> rfl
  have e' : ∀ x : Fin 3, ∀ C : Cell, (![X 0 (C 0 + 1) - X 0 (C 0), X 1 (C 1 + 1) - X 1 (C 1), X 2 (C 2 + 1) - X 2 (C 2)] : Fin 3 → F) x =
      X x (C x + 1) - X x (C x) := fun x C => by fin_cases x <;> rfl
  unfold kRateVal
  show sumUp (fun i : Fin d => (fabs (if i = b then -(UP _).u i else (UP _).u i) + eos.sound (W _).rho (UP _).P) /
      (![X' 0 (C 0 + 1) - X' 0 (C 0), X' 1 (C 1 + 1) - X' 1 (C 1), X' 2 (C 2 + 1) - X' 2 (C 2)] : Fin 3 → F) (ax i)) =
    sumUp (fun i : Fin d => (fabs ((UP _).u i) + eos.sound (W _).rho (UP _).P) / (![_, _, _] : Fin 3 → F) (ax i))
  congr 1
  funext i
  refine Eq.trans ?_ (congrArg _ (e' (ax i) (reflect (ax b) (E (ax b)) C)).symm)
  rw [e, hm.dx C hC]
  have ea : ∀ x : F, fabs (if i = b then -x else x) = fabs x := fun x => by
    split_ifs
    · exact h.fabs_neg x
    · rfl
  rw [ea]

end Step

end Heracles
