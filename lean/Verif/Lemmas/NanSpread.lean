import Verif.Lemmas.Ieee

/-!
# NaN in a cell and its neighbours
-/

namespace Heracles

open Arith

variable {d n : ℕ} {F : Type} [Arith F] {nan : F}

/-- A velocity or the pressure is NaN. -/
def BadPrim (nan : F) (q : VelPres d F) : Prop := (∃ a, q.u a = nan) ∨ q.P = nan

theorem foldl_reach {α β : Type} {P : α → Prop} {f : α → β → α} (hstep : ∀ w b, P w → P (f w b)) {l : List β} {b : β} (hb : b ∈ l)
    (h : ∀ w, P (f w b)) (w : α) : P (l.foldl f w) := by
  have keep : ∀ (l : List β) w, P w → P (l.foldl f w) := by
    intro l
    induction l with
    | nil => exact fun w h => h
    | cons c l ih => exact fun w hw => ih _ (hstep w c hw)
  induction l generalizing w with
  | nil => cases hb
  | cons c l ih =>
    rcases List.mem_cons.1 hb with rfl | hb
    · exact keep l _ (h w)
    · exact ih hb _

theorem foldl_keep {α β : Type} {P : α → Prop} {f : α → β → α} (hstep : ∀ w b, P w → P (f w b)) (l : List β) {w : α} (hw : P w) :
    P (l.foldl f w) := by
  induction l generalizing w with
  | nil => exact hw
  | cons c l ih => exact ih (hstep w c hw)

variable (hn : NanLaws F nan)
include hn

theorem oRecon_nan (lim : Limiter) (dlm dl dlp vm vp : F) (side : Fin 2) : oRecon lim dlm dl dlp vm nan vp side = nan := by
  unfold oRecon
  dsimp only
  split
  · exact hn.sub_left _
  · exact hn.add_left _

theorem oFluxDiff_nan_left (g : DirGeo F) (dtodv f : F) : oFluxDiff g dtodv nan f = nan := by
  unfold oFluxDiff
  rw [hn.mul_left, hn.sub_left, hn.mul_right]

theorem oFluxDiff_nan_right (g : DirGeo F) (dtodv f : F) : oFluxDiff g dtodv f nan = nan := by
  unfold oFluxDiff
  rw [hn.mul_left, hn.sub_right, hn.mul_right]

theorem onEntry_nan {m : ℕ} {f : F → F} (hf : f nan = nan) {v : Fin d → F} {i : Fin d} (h : v i = nan) : onEntry m f v i = nan := by
  unfold onEntry
  split
  · rw [h, hf]
  · exact h

theorem onEntry_add_nan (m : ℕ) (x : F) {v : Fin d → F} {i : Fin d} (h : v i = nan) : onEntry m (fun y => y + x) v i = nan :=
  onEntry_nan hn (hn.add_left x) h

theorem onEntry_sub_nan (m : ℕ) (x : F) {v : Fin d → F} {i : Fin d} (h : v i = nan) : onEntry m (fun y => y - x) v i = nan :=
  onEntry_nan hn (hn.sub_left x) h

theorem oSpherical_nan (g : DirGeo F) (dtodv : F) (pL pR : Prim d F) (idim : Fin d) {v : Fin d → F} {i : Fin d} (h : v i = nan) :
    oSpherical g dtodv pL pR idim v i = nan := by
  unfold oSpherical
  dsimp only
  split_ifs
  all_goals repeat' first | exact h | apply onEntry_add_nan hn | apply onEntry_sub_nan hn

section Direction
variable (geom : Geom) (dt : F) (g : DirGeo F) (gr : F) (s : Fields d n F) (pL pR : Prim d F) (fL fR : Flux d F) (fxL fxR : Fin n → F)
  (idim : Fin d)

/-- A NaN density stays. -/
theorem oDirection_keep_rho (w : Fields d n F) (h : w.rho = nan) :
    (oDirection geom dt g gr s pL pR fL fR fxL fxR idim w).rho = nan := by
  show w.rho + _ = nan
  rw [h, hn.add_left]

theorem oDirection_rho (h : fL.rho = nan ∨ fR.rho = nan) (w : Fields d n F) :
    (oDirection geom dt g gr s pL pR fL fR fxL fxR idim w).rho = nan := by
  show w.rho + oFluxDiff g _ fL.rho fR.rho = nan
  rcases h with h | h
  · rw [h, oFluxDiff_nan_left hn, hn.add_right]
  · rw [h, oFluxDiff_nan_right hn, hn.add_right]

/-- What is done to the momentum after the fluxes keeps a NaN. -/
theorem oDirection_mom_aux {v : Fin d → F} {i : Fin d} (h : v i = nan) :
    onEntry idim.val (· + dt * gr * s.rho) (if geom = .spherical then oSpherical g (dt / g.dv) pL pR idim v else v) i = nan := by
  refine onEntry_add_nan hn _ _ ?_
  split
  · exact oSpherical_nan hn g _ pL pR idim h
  · exact h

theorem oDirection_keep_rhou (w : Fields d n F) {i : Fin d} (h : w.rhou i = nan) :
    (oDirection geom dt g gr s pL pR fL fR fxL fxR idim w).rhou i = nan :=
  oDirection_mom_aux hn geom dt g gr s pL pR idim (v := fun i => w.rhou i + oFluxDiff g (dt / g.dv) (fL.rhou i) (fR.rhou i))
    (by rw [h, hn.add_left])

theorem oDirection_rhou {i : Fin d} (h : fL.rhou i = nan) (w : Fields d n F) :
    (oDirection geom dt g gr s pL pR fL fR fxL fxR idim w).rhou i = nan :=
  oDirection_mom_aux hn geom dt g gr s pL pR idim (v := fun i => w.rhou i + oFluxDiff g (dt / g.dv) (fL.rhou i) (fR.rhou i))
    (by rw [h, oFluxDiff_nan_left hn, hn.add_right])

end Direction

/-- After the predictor the velocities computed from a face state are NaN, when a velocity or the pressure of the cell is. -/
theorem oPredict_nan (eos : EoS F) (geom : Geom) (dt : F) (dg : Fin d → DirGeo F) (gr : Fin d → F)
    {up : Fin 2 → Fin d → VelPres d F} (old : Fin 2 → Fin d → Fields d n F)
    (h : (∃ i, ∀ side a, (up side a).u i = nan) ∨ ∀ side a, (up side a).P = nan) (side : Fin 2) (ipos b : Fin d) :
    (oToPrim eos (oPredict eos geom dt dg gr up old side ipos).cons).u b = nan := by
  show (oPredict eos geom dt dg gr up old side ipos).rhou b / (oPredict eos geom dt dg gr up old side ipos).rho = nan
  rcases h with ⟨i, h⟩ | h
  · have : (oPredict eos geom dt dg gr up old side ipos).rho = nan := by
      unfold oPredict
      dsimp only
      refine foldl_reach (P := fun w : Fields d n F => w.rho = nan) (fun w c hw => ?_) (List.mem_finRange i) (fun w => ?_) _
      · exact oDirection_keep_rho hn _ _ _ _ _ _ _ _ _ _ _ _ w hw
      · refine oDirection_rho hn _ _ _ _ _ _ _ _ _ _ _ _ (Or.inl ?_) w
        show (old 0 i).rho * (up 0 i).u i = nan
        rw [h, hn.mul_right]
    rw [this, hn.div_right]
  · have : (oPredict eos geom dt dg gr up old side ipos).rhou b = nan := by
      unfold oPredict
      dsimp only
      refine foldl_reach (P := fun w : Fields d n F => w.rhou b = nan) (fun w c hw => ?_) (List.mem_finRange b) (fun w => ?_) _
      · exact oDirection_keep_rhou hn _ _ _ _ _ _ _ _ _ _ _ _ w hw
      · refine oDirection_rhou hn _ _ _ _ _ _ _ _ _ _ _ _ ?_ w
        unfold oFluxPrim
        dsimp only
        rw [Function.update_self, h, hn.add_right]
    rw [this, hn.div_left]

/-! ### Riemann solvers -/

section Solvers
variable {eos : EoS F} {cL cR : Cons d F} {a : Fin d}

theorem fluxRho_nan {p : Prim d F} (h : p.u a = nan) : (oFluxPrim eos p a).rho = nan := by
  show p.rho * p.u a = nan
  rw [h, hn.mul_right]

theorem oFluxHll_nan_left (UL UR FR wsL wsR : F) : oFluxHll UL UR nan FR wsL wsR = nan := by
  unfold oFluxHll
  rw [hn.mul_right, hn.sub_left, hn.add_left, hn.div_left]

theorem oFluxHll_nan_right (UL UR FL wsL wsR : F) : oFluxHll UL UR FL nan wsL wsR = nan := by
  unfold oFluxHll
  rw [hn.mul_right, hn.sub_right, hn.add_left, hn.div_left]

/-- All three solvers: a NaN velocity on the right gives a NaN mass flux. -/
theorem oFlux_nan_right (sol : Solver) (h : (oToPrim eos cR).u a = nan) : (oFlux sol eos cL cR a).rho = nan := by
  cases sol with
  | hll =>
    show oFluxHll _ _ _ (oFluxPrim eos (oToPrim eos cR) a).rho _ _ = nan
    rw [fluxRho_nan hn h, oFluxHll_nan_right hn]
  | hllc =>
    have hu : ∀ x : F, (x - (oToPrim eos cR).rho * (oWaveR eos (oToPrim eos cL) (oToPrim eos cR) a - (oToPrim eos cR).u a) *
        (oToPrim eos cR).u a) = nan := fun x => by rw [h, hn.mul_right, hn.sub_right]
    show (oHllc eos cL cR a).rho = nan
    unfold oHllc
    dsimp only
    simp only [hu, hn.div_left, if_neg (hn.lt_right 0)]
    split
    · exact fluxRho_nan hn h
    · show oFluxHllc (oFluxPrim eos (oToPrim eos cR) a).rho _ _ _ = nan
      unfold oFluxHllc
      rw [fluxRho_nan hn h, hn.add_left]
  | splitting =>
    show (oSplitting eos cL cR a).rho = nan
    unfold oSplitting
    dsimp only
    rw [h]
    simp only [hn.add_right, hn.div_left, hn.sub_left, hn.mul_left]

/-- HLL and Splitting: the same on the left. -/
theorem oFlux_nan_left {sol : Solver} (hs : sol ≠ .hllc) (h : (oToPrim eos cL).u a = nan) : (oFlux sol eos cL cR a).rho = nan := by
  cases sol with
  | hll =>
    show oFluxHll _ _ (oFluxPrim eos (oToPrim eos cL) a).rho _ _ _ = nan
    rw [fluxRho_nan hn h, oFluxHll_nan_left hn]
  | hllc => exact absurd rfl hs
  | splitting =>
    show (oSplitting eos cL cR a).rho = nan
    unfold oSplitting
    dsimp only
    rw [h]
    simp only [hn.add_left, hn.div_left, hn.sub_left, hn.mul_left]

/-- HLLC with NaN on the left takes the right state when it is supersonic, as `wsL * wsR > 0` says. -/
theorem oHllc_nan_left (h : (oToPrim eos cL).u a = nan)
    (hs : 0 < oWaveL eos (oToPrim eos cL) (oToPrim eos cR) a * oWaveR eos (oToPrim eos cL) (oToPrim eos cR) a) :
    oHllc eos cL cR a = oFluxPrim eos (oToPrim eos cR) a := by
  have hu : ∀ x y : F, (x + (oToPrim eos cL).rho * (oWaveL eos (oToPrim eos cL) (oToPrim eos cR) a - (oToPrim eos cL).u a) *
      (oToPrim eos cL).u a - y) = nan := fun x y => by rw [h, hn.mul_right, hn.add_right, hn.sub_left]
  unfold oHllc
  dsimp only
  simp only [hu, hn.div_left, if_neg (hn.lt_right 0), if_pos hs]

end Solvers

/-! ### A step -/

section Step
variable {lim : Limiter} {sol : Solver} {eos : EoS F} {geom geom' : Geom} {fix : Option F} {p : PGrid d F} {dt : F}
  {W : Cell → Fields d n F} {UP : Cell → VelPres d F} {c : Cell}

theorem kRecVal_nan (h : BadPrim nan (UP c)) (side : Fin 2) (a b : Fin d) :
    (oToPrim eos (kRecVal (orderedKernels lim sol eos geom fix) geom' p dt W UP c side a).cons).u b = nan := by
  refine oPredict_nan hn eos geom dt _ _ _ ?_ side a b
  rcases h with ⟨i, h⟩ | h
  · refine Or.inl ⟨i, fun side a => ?_⟩
    show oRecon lim _ _ _ _ ((UP c).u i) _ side = nan
    rw [h, oRecon_nan hn]
  · refine Or.inr fun side a => ?_
    show oRecon lim _ _ _ _ (UP c).P _ side = nan
    rw [h, oRecon_nan hn]

omit hn in
theorem kStepVal_rho (C : Cell) : (kStepVal (orderedKernels lim sol eos geom fix) geom' p dt W UP C).rho =
    (oUpdate sol eos geom dt (fun a => p.kDirGeo geom' a C) (p.grav C) (W C)
      (fun a => kRecVal (orderedKernels lim sol eos geom fix) geom' p (dt / lit 2) W UP (nb C (ax a) (-1)))
      (kRecVal (orderedKernels lim sol eos geom fix) geom' p (dt / lit 2) W UP C)
      (fun a => kRecVal (orderedKernels lim sol eos geom fix) geom' p (dt / lit 2) W UP (nb C (ax a) 1))).rho := by
  unfold kStepVal kFixVal
  split <;> rfl

theorem oUpdate_nan (dg : Fin d → DirGeo F) (gr : Fin d → F) (s : Fields d n F) {rm : Fin d → Fin 2 → Fin d → Fields d n F}
    {r0 : Fin 2 → Fin d → Fields d n F} {rp : Fin d → Fin 2 → Fin d → Fields d n F} (a : Fin d)
    (h : (oFlux sol eos (rm a 1 a).cons (r0 0 a).cons a).rho = nan ∨ (oFlux sol eos (r0 1 a).cons (rp a 0 a).cons a).rho = nan) :
    (oUpdate sol eos geom dt dg gr s rm r0 rp).rho = nan := by
  unfold oUpdate
  dsimp only
  refine foldl_reach (P := fun w : Fields d n F => w.rho = nan) (fun w c hw => ?_) (List.mem_finRange a) (fun w => ?_) _
  · exact oDirection_keep_rho hn _ _ _ _ _ _ _ _ _ _ _ _ w hw
  · exact oDirection_rho hn _ _ _ _ _ _ _ _ _ _ _ _ h w

theorem kStepVal_nan_self (a : Fin d) (h : BadPrim nan (UP c)) :
    (kStepVal (orderedKernels lim sol eos geom fix) geom' p dt W UP c).rho = nan := by
  rw [kStepVal_rho]
  exact oUpdate_nan hn _ _ _ a (Or.inl (oFlux_nan_right hn sol (kRecVal_nan hn h 0 a a)))

theorem kStepVal_nan_up (a : Fin d) (h : BadPrim nan (UP (nb c (ax a) 1))) :
    (kStepVal (orderedKernels lim sol eos geom fix) geom' p dt W UP c).rho = nan := by
  rw [kStepVal_rho]
  exact oUpdate_nan hn _ _ _ a (Or.inr (oFlux_nan_right hn sol (kRecVal_nan hn h 0 a a)))

theorem kStepVal_nan_down (hs : sol ≠ .hllc) (a : Fin d) (h : BadPrim nan (UP (nb c (ax a) (-1)))) :
    (kStepVal (orderedKernels lim sol eos geom fix) geom' p dt W UP c).rho = nan := by
  rw [kStepVal_rho]
  exact oUpdate_nan hn _ _ _ a (Or.inl (oFlux_nan_left hn hs (kRecVal_nan hn h 1 a a)))

/-- A NaN density makes the velocities NaN. -/
theorem badPrim_of_rho {C : Cell} (a : Fin d) (h : (W C).rho = nan) : BadPrim nan (kPrimGlob (orderedKernels lim sol eos geom fix) W C) :=
  Or.inl ⟨a, by show (W C).rhou a / (W C).rho = nan; rw [h, hn.div_right]⟩

/-- The rate of a cell with NaN density is NaN. -/
theorem kRateVal_nan (hd : 0 < d) {X : Fin 3 → ℤ → F} {C : Cell} (h : (W C).rho = nan) :
    kRateVal (orderedKernels lim sol eos geom fix) geom' X W (kPrimGlob (orderedKernels lim sol eos geom fix) W) C = nan := by
  unfold kRateVal
  show sumUp _ = nan
  unfold sumUp
  refine foldl_reach (P := fun s : F => s = nan) (fun s i hs => ?_) (List.mem_finRange ⟨0, hd⟩) (fun s => ?_) _
  · rw [hs, hn.add_left]
  · have : (kPrimGlob (orderedKernels (n := n) lim sol eos geom fix) W C).u ⟨0, hd⟩ = nan := by
      show (W C).rhou _ / (W C).rho = nan
      rw [h, hn.div_right]
    dsimp only
    rw [this, hn.fabs, hn.add_left, hn.div_left, hn.add_right]

end Step

/-- The volumic internal energy of a cell with NaN density is NaN. -/
theorem oEvol_nan {c : Cons d F} (h : c.rho = nan) : oEvol c = nan := by
  unfold oEvol oEkCons
  rw [h, hn.div_right, hn.div_left, hn.sub_right]

end Heracles
