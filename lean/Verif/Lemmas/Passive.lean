import Verif.Spec.Passive
import Verif.Lemmas.Locality
import Verif.Props.KernelRun
import Verif.Model.Ordered

/-!
# Runs with part of the mass fractions
-/

namespace Heracles

variable {d n m : ℕ} {F : Type} {σ : Fin m → Fin n}

/-- The kernels `k'` do with part of the mass fractions what `k` does with all of them. -/
structure Kernels.Picks (k : Kernels d n F) (σ : Fin m → Fin n) (k' : Kernels d m F) : Prop where
  size : k'.size = k.size
  center : k'.center = k.center
  areaCart : k'.areaCart = k.areaCart
  volCart : k'.volCart = k.volCart
  areaSph1 : k'.areaSph1 = k.areaSph1
  volSph1 : k'.volSph1 = k.volSph1
  areaSph2 : k'.areaSph2 = k.areaSph2
  volSph2 : k'.volSph2 = k.volSph2
  areaSph3 : k'.areaSph3 = k.areaSph3
  volSph3 : k'.volSph3 = k.volSph3
  prim : k'.prim = k.prim
  rate : k'.rate = k.rate
  inv : k'.inv = k.inv
  half : k'.half = k.half
  len : k'.len = k.len
  recon : k'.recon = k.recon
  cons : k'.cons = k.cons
  predict : ∀ dt dg gr up old side a,
    k'.predict dt dg gr up (fun s a => (old s a).pick σ) side a = (k.predict dt dg gr up old side a).pick σ
  predictFx : ∀ f, k'.predictFx (f.pick σ) = (k.predictFx f).pick σ
  update : ∀ dt dg gr s rm r0 rp,
    k'.update dt dg gr (s.pick σ) (fun b s a => (rm b s a).pick σ) (fun s a => (r0 s a).pick σ) (fun b s a => (rp b s a).pick σ) =
      (k.update dt dg gr s rm r0 rp).pick σ
  updateFx : ∀ f, k'.updateFx (f.pick σ) = (k.updateFx f).pick σ
  fixOn : ∀ f, k'.fixOn (f.pick σ) = k.fixOn f
  fixE : ∀ dt s q um uPl r0 rm rp ds dsp dv,
    k'.fixE dt (s.pick σ) (q.pick σ) (fun a => (um a).pick σ) (fun a => (uPl a).pick σ) (fun s a => (r0 s a).pick σ)
      (fun b s a => (rm b s a).pick σ) (fun b s a => (rp b s a).pick σ) ds dsp dv = k.fixE dt s q um uPl r0 rm rp ds dsp dv

section Kernel
variable [Arith F]

open Arith

theorem oDirection_pick (geom : Geom) (dt : F) (g : DirGeo F) (gr : F) (s : Fields d n F) (pL pR : Prim d F) (fL fR : Flux d F)
    (fxL fxR : Fin n → F) (idim : Fin d) (w : Fields d n F) :
    oDirection geom dt g gr (s.pick σ) pL pR fL fR (fun i => fxL (σ i)) (fun i => fxR (σ i)) idim (w.pick σ) =
      (oDirection geom dt g gr s pL pR fL fR fxL fxR idim w).pick σ := rfl

theorem foldl_pick {ι : Type} {f : Fields d n F → ι → Fields d n F} {f' : Fields d m F → ι → Fields d m F}
    (h : ∀ w i, f' (w.pick σ) i = (f w i).pick σ) (l : List ι) (w : Fields d n F) : l.foldl f' (w.pick σ) = (l.foldl f w).pick σ := by
  induction l generalizing w with
  | nil => rfl
  | cons i l ih => rw [List.foldl_cons, List.foldl_cons, h]; exact ih _

/-- The kernels of the code treat each mass fraction on its own, whatever the operations on numbers. -/
theorem orderedKernels_picks (lim : Limiter) (sol : Solver) (eos : EoS F) (geom : Geom) (fix : Option F) (σ : Fin m → Fin n) :
    (orderedKernels lim sol eos geom fix : Kernels d n F).Picks σ (orderedKernels lim sol eos geom fix) where
  size := rfl
  center := rfl
  areaCart := rfl
  volCart := rfl
  areaSph1 := rfl
  volSph1 := rfl
  areaSph2 := rfl
  volSph2 := rfl
  areaSph3 := rfl
  volSph3 := rfl
  prim := rfl
  rate := rfl
  inv := rfl
  half := rfl
  len := rfl
  recon := rfl
  cons := rfl
  predict dt dg gr up old side a := by
    show oPredict eos geom dt dg gr up (fun s a => (old s a).pick σ) side a = (oPredict eos geom dt dg gr up old side a).pick σ
    unfold oPredict
    exact foldl_pick (w := { old side a with fx := fun ifx => (old side a).fx ifx * (old side a).rho }) (fun w i => rfl) (List.finRange d)
  predictFx f := rfl
  update dt dg gr s rm r0 rp := by
    refine foldl_pick (w := { s with fx := fun ifx => s.fx ifx * s.rho }) (fun w i => ?_) (List.finRange d)
    refine Eq.trans ?_ (oDirection_pick (σ := σ) ..)
    congr 1 <;> (funext j; split_ifs <;> rfl)
  updateFx f := rfl
  fixOn f := rfl
  fixE dt s q um uPl r0 rm rp ds dsp dv := rfl

end Kernel

section Values
variable [Zero F] {k : Kernels d n F} {k' : Kernels d m F}

theorem kGrid_pick (h : k.Picks σ k') (geom : Geom) (X : Fin 3 → ℤ → F) (Gr : Cell → Fin d → F) : kGrid k' geom X Gr = kGrid k geom X Gr := by
  unfold kGrid kDsFun kDvFun
  rw [h.size, h.areaCart, h.volCart, h.areaSph1, h.volSph1, h.areaSph2, h.volSph2, h.areaSph3, h.volSph3]

omit [Zero F] in
theorem kReconVal_pick (h : k.Picks σ k') (p : PGrid d F) (var : Cell → F) (c : Cell) (side : Fin 2) (a : Fin d) :
    kReconVal k' p var c side a = kReconVal k p var c side a := by
  unfold kReconVal kLen
  rw [h.recon, h.len]

omit [Zero F] in
theorem kFaceUP_pick (h : k.Picks σ k') (p : PGrid d F) (UP : Cell → VelPres d F) : kFaceUP k' p UP = kFaceUP k p UP := by
  funext c side a
  unfold kFaceUP
  simp only [kReconVal_pick h]

omit [Zero F] in
theorem kFaceFields_pick (h : k.Picks σ k') (p : PGrid d F) (W : Cell → Fields d n F) (UP : Cell → VelPres d F) (c : Cell) (side : Fin 2)
    (a : Fin d) : kFaceFields k' p (fun c => (W c).pick σ) UP c side a = (kFaceFields k p W UP c side a).pick σ := by
  unfold kFaceFields Fields.pick
  simp only [kReconVal_pick h, kFaceUP_pick h, h.cons]

theorem kRecVal_pick (h : k.Picks σ k') (geom : Geom) (p : PGrid d F) (dt : F) (W : Cell → Fields d n F) (UP : Cell → VelPres d F) (c : Cell)
    (side : Fin 2) (a : Fin d) : kRecVal k' geom p dt (fun c => (W c).pick σ) UP c side a = (kRecVal k geom p dt W UP c side a).pick σ := by
  unfold kRecVal
  rw [← h.predictFx, ← h.predict, kFaceUP_pick h]
  congr 2
  funext s b
  exact kFaceFields_pick h ..

theorem kStepVal_pick (h : k.Picks σ k') (geom : Geom) (p : PGrid d F) (dt : F) (W : Cell → Fields d n F) (UP : Cell → VelPres d F) (c : Cell) :
    kStepVal k' geom p dt (fun c => (W c).pick σ) UP c = (kStepVal k geom p dt W UP c).pick σ := by
  have hR : kRecVal k' geom p (k'.half dt) (fun c => (W c).pick σ) UP = fun c s a => (kRecVal k geom p (k.half dt) W UP c s a).pick σ := by
    funext c s a
    rw [kRecVal_pick h, h.half]
  have hG : ∀ R c, kGodVal k' geom p dt (fun c => (W c).pick σ) (fun c s a => (R c s a).pick σ) c = (kGodVal k geom p dt W R c).pick σ := by
    intro R c
    unfold kGodVal
    rw [← h.updateFx, ← h.update]
  unfold kStepVal
  rw [hR]
  unfold kFixVal
  rw [h.fixOn, hG, h.fixE]
  split_ifs <;> rfl

omit [Zero F] in
theorem kPrimGlob_pick (h : k.Picks σ k') (W : Cell → Fields d n F) : kPrimGlob k' (fun c => (W c).pick σ) = kPrimGlob k W := by
  unfold kPrimGlob
  rw [h.prim]
  rfl

omit [Zero F] in
theorem kRateVal_pick (h : k.Picks σ k') (geom : Geom) (X : Fin 3 → ℤ → F) (W : Cell → Fields d n F) (UP : Cell → VelPres d F) (C : Cell) :
    kRateVal k' geom X (fun c => (W c).pick σ) UP C = kRateVal k geom X W UP C := by
  unfold kRateVal
  rw [h.rate, h.size, h.center]
  rfl

end Values

section Bc
variable [Neg F]

theorem condPure_pick (kind : BcKind) (ext : Cell) (ng : ℤ) (a : Fin d) (f : Fin 2) (val : Cell → Fields d n F) :
    condPure kind ext ng a f (fun c => (val c).pick σ) = fun c => (condPure kind ext ng a f val c).pick σ := by
  funext c
  rw [condPure_eq, condPure_eq]
  split_ifs
  · cases kind <;> rfl
  · rfl

theorem bcGlob_pick (bcs : Fin d → Fin 2 → BcKind) (nx nghost : Cell) (order : List ℕ) (G : Cell → Fields d n F) :
    bcGlob bcs nx nghost order (fun g => (G g).pick σ) = fun C => (bcGlob bcs nx nghost order G C).pick σ := by
  unfold bcGlob
  suffices h : ∀ V : Cell → Fields d n F, order.foldl (bcPure bcs (fun _ _ => true) (globExt nx nghost) nghost) (fun C => (V C).pick σ) =
      fun C => (order.foldl (bcPure bcs (fun _ _ => true) (globExt nx nghost) nghost) V C).pick σ from h fun C => G (wrap nx (C - nghost))
  induction order with
  | nil => exact fun V => rfl
  | cons id l ih =>
    intro V
    rw [List.foldl_cons, List.foldl_cons]
    have : bcPure bcs (fun _ _ => true) (globExt nx nghost) nghost (fun c => (V c).pick σ) id =
        fun c => (bcPure bcs (fun _ _ => true) (globExt nx nghost) nghost V id c).pick σ := by
      unfold bcPure
      by_cases h : id / 2 < d
      · simp only [dif_pos h, if_true]
        exact condPure_pick ..
      · simp only [dif_neg h]
    rw [this]
    exact ih _

end Bc

/-- What the reduction of the time step returns, for the rates `rate` of the cells of the ranks. -/
theorem kTimeStep_value [LT F] [DecidableLT F] {R : Type} {lo : F} (k : Kernels d n F) {ranks : List R} {parts : R → List (List Cell)}
    {g : R → GridData F} {rho : R → View Cell F} {up : R → View Cell (VelPres d F)} {rate : R → Cell → F}
    (h : ∀ r ∈ ranks, ∀ c ∈ (parts r).flatten, kCellInverseDt k (g r) (rho r) (up r) c = some (rate r c)) (hne : ranks ≠ []) :
    ∃ m, kTimeStep lo k ranks parts g rho up = some (k.inv m) ∧
      allReduce kmax (ranks.map fun r => ((parts r).map fun l => l.foldl (fun s c => kmax s (rate r c)) lo).foldl kmax lo) = some m := by
  have h1 := fun r (hr : r ∈ ranks) => parReduce_eq (e := lo) (join := kmax) (op := kmax) (h r hr)
  obtain ⟨v, vs, e, e'⟩ := allReduce_some (op := kmax) (l := ranks.map fun r =>
    ((parts r).map fun l => l.foldl (fun s c => kmax s (rate r c)) lo).foldl kmax lo) (fun h => hne (List.map_eq_nil_iff.1 h))
  refine ⟨vs.foldl kmax v, ?_, e'⟩
  unfold kTimeStep
  rw [mapM_some ranks h1]
  simp only [Option.bind_eq_bind, Option.bind_some]
  rw [e']
  rfl

end Heracles
