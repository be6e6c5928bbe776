import Verif.Model.DoubleArith
import Verif.Props.KernelRun

/-!
# One step of a uniform flow, operation by operation
-/

namespace Heracles

open Arith

/-- The few laws of arithmetic used for a uniform flow; rounded operations have them. `fin x` says that `x` is a number, not an
infinity or NaN. -/
structure ZeroLaws (F : Type) [Arith F] (fin : F → Prop) : Prop where
  fin_zero : fin 0
  lit_zero : lit 0 = (0 : F)
  sub_self : ∀ x : F, fin x → x - x = 0
  sub_zero : ∀ x : F, x - 0 = x
  add_zero : ∀ x : F, x + 0 = x
  zero_add : ∀ x : F, 0 + x = x
  one_mul : ∀ x : F, lit 1 * x = x
  mul_zero : ∀ x : F, fin x → x * 0 = 0
  zero_mul : ∀ x : F, fin x → 0 * x = 0
  zero_div : ∀ x : F, fin x → x ≠ 0 → 0 / x = 0
  lt_irrefl : ¬ (0 : F) < 0

variable {d n : ℕ} {F : Type} [Arith F]

/-- Cell sizes of the Cartesian grid with nodes `X`. -/
def cartSize (X : Fin 3 → ℤ → F) (a : Fin 3) (i : ℤ) : F := X a (i + 1) - X a i

/-- Areas of its faces. -/
def cartArea (X : Fin 3 → ℤ → F) (c : Cell) (a : Fin 3) : F :=
  (if a = 0 then lit 1 else cartSize X 0 (c 0)) * (if a = 1 then lit 1 else cartSize X 1 (c 1)) *
    (if a = 2 then lit 1 else cartSize X 2 (c 2))

/-- Volumes of its cells. -/
def cartVol (X : Fin 3 → ℤ → F) (c : Cell) : F := cartSize X 0 (c 0) * cartSize X 1 (c 1) * cartSize X 2 (c 2)

/-- The grid of extents `E` is made of numbers, and the distances of centres are not 0. -/
structure FiniteGrid (fin : F → Prop) (E : Cell) (X : Fin 3 → ℤ → F) : Prop where
  size : ∀ a i, 0 ≤ i → i < E a → fin (cartSize X a i)
  half : ∀ a i, 0 ≤ i → i < E a → fin (cartSize X a i / lit 2)
  dist : ∀ a i, 0 ≤ i → i + 1 < E a → fin ((cartSize X a i + cartSize X a (i + 1)) / lit 2) ∧
    (cartSize X a i + cartSize X a (i + 1)) / lit 2 ≠ 0

/-- A flux through faces of all areas of the grid, carrying scalars `fx`, is made of numbers. -/
structure FiniteFlux (fin : F → Prop) (E : Cell) (X : Fin 3 → ℤ → F) (a : Fin d) (f : Flux d F) (fx : Fin n → F) : Prop where
  rho : ∀ c, inExt E c = true → fin (f.rho * cartArea X c (ax a))
  rhou : ∀ c, inExt E c = true → ∀ i, fin (f.rhou i * cartArea X c (ax a))
  energy : ∀ c, inExt E c = true → fin (f.E * cartArea X c (ax a))
  fx : ∀ c, inExt E c = true → ∀ i, fin (fx i * f.rho * cartArea X c (ax a))

/-- `fx * rho / rho`, the scalars of a uniform flow after the predictor. -/
def carried (s : Fields d n F) (i : Fin n) : F := s.fx i * s.rho / s.rho

/-- A uniform state whose variables and fluxes are numbers. -/
structure FiniteState (fin : F → Prop) (eos : EoS F) (sol : Solver) (E : Cell) (X : Fin 3 → ℤ → F) (s : Fields d n F) : Prop where
  rho : fin s.rho
  mom : ∀ i, fin (s.rhou i)
  u : ∀ i, fin ((oToPrim eos s.cons).u i)
  P : fin (oToPrim eos s.cons).P
  fx : ∀ i, fin (s.fx i)
  face : ∀ i, fin ((oToCons eos (oToPrim eos s.cons)).rhou i)
  prim : ∀ a, FiniteFlux fin E X a (oFluxPrim eos (oToPrim eos s.cons) a) s.fx
  riemann : ∀ a, FiniteFlux fin E X a
    (oFlux sol eos (oToCons eos (oToPrim eos s.cons)) (oToCons eos (oToPrim eos s.cons)) a) (carried s)

/-- A time step that is a number, also when divided by volumes. -/
structure FiniteStep (fin : F → Prop) (E : Cell) (X : Fin 3 → ℤ → F) (dt : F) : Prop where
  num : fin dt
  vol : ∀ c, inExt E c = true → fin (dt / cartVol X c)

/-- What a step does to a uniform flow: the scalars are multiplied by the density, divided by it and clamped. -/
def calm (s : Fields d n F) : Fields d n F := { s with fx := fun i => oClamp (carried s i) 0 (lit 1) }

variable {fin : F → Prop} (hz : ZeroLaws F fin)
include hz

theorem oSlope_zero (lim : Limiter) : oSlope lim (0 : F) 0 = 0 := by
  have h : ¬ (0 : F) < 0 * 0 := by rw [hz.mul_zero 0 hz.fin_zero]; exact hz.lt_irrefl
  cases lim <;> simp only [oSlope, if_neg h]

theorem oRecon_const (lim : Limiter) {dlm dl dlp v : F} (hv : fin v) (h : fin (dl / lit 2))
    (h1 : fin ((dl + dlp) / lit 2) ∧ (dl + dlp) / lit 2 ≠ 0) (h2 : fin ((dlm + dl) / lit 2) ∧ (dlm + dl) / lit 2 ≠ 0) (side : Fin 2) :
    oRecon lim dlm dl dlp v v v side = v := by
  unfold oRecon
  rw [hz.sub_self v hv, hz.zero_div _ h1.1 h1.2, hz.zero_div _ h2.1 h2.2]
  dsimp only
  rw [oSlope_zero hz, hz.mul_zero _ h, hz.sub_zero, hz.add_zero, ite_self]

theorem oLen_eq (hd : d ≤ 3) (a : Fin d) (D : Fin 3 → F) (h : ∀ b, fin (D b)) : oLen a (D 0) (D 1) (D 2) = D (ax a) := by
  have hl0 := hz.lit_zero
  obtain ⟨a, ha⟩ := a
  unfold oLen
  have : a = 0 ∨ a = 1 ∨ a = 2 := by omega
  rcases this with rfl | rfl | rfl
  · simp only [hl0, hz.one_mul, hz.zero_mul _ (h _), hz.add_zero, hz.zero_add, if_true, show (0 : ℕ) ≠ 1 by decide,
      show (0 : ℕ) ≠ 2 by decide, if_false]
    rfl
  · simp only [hl0, hz.one_mul, hz.zero_mul _ (h _), hz.add_zero, hz.zero_add, if_true, show (1 : ℕ) ≠ 0 by decide,
      show (1 : ℕ) ≠ 2 by decide, if_false]
    rfl
  · simp only [hl0, hz.one_mul, hz.zero_mul _ (h _), hz.add_zero, hz.zero_add, if_true, show (2 : ℕ) ≠ 0 by decide,
      show (2 : ℕ) ≠ 1 by decide, if_false]
    rfl

theorem oFluxDiff_zero {g : DirGeo F} {dtodv f : F} (hds : g.dsR = g.dsL) (h : fin (f * g.dsL)) (ht : fin dtodv) :
    oFluxDiff g dtodv f f = 0 := by
  unfold oFluxDiff
  rw [hds, hz.sub_self _ h, hz.mul_zero _ ht]

theorem oDirection_id {dt : F} {g : DirGeo F} {s : Fields d n F} (pL pR : Prim d F) {f : Flux d F} {fx : Fin n → F} {idim : Fin d}
    (w : Fields d n F) (hds : g.dsR = g.dsL) (hdt : fin dt) (hv : fin (dt / g.dv)) (h1 : fin (f.rho * g.dsL))
    (h2 : ∀ i, fin (f.rhou i * g.dsL)) (h3 : fin (f.E * g.dsL)) (h4 : ∀ i, fin (fx i * f.rho * g.dsL)) (hs : fin s.rho)
    (hs' : fin (s.rhou idim)) : oDirection .cartesian dt g 0 s pL pR f f fx fx idim w = w := by
  unfold oDirection
  dsimp only
  simp only [reduceCtorEq, if_false]
  rw [oFluxDiff_zero hz hds h1 hv, oFluxDiff_zero hz hds h3 hv, hz.mul_zero _ hdt, hz.zero_mul _ hs, hz.zero_mul _ hs', hz.add_zero,
    hz.add_zero, hz.add_zero]
  have e2 : (fun i => w.rhou i + oFluxDiff g (dt / g.dv) (f.rhou i) (f.rhou i)) = w.rhou := funext fun i => by
    rw [oFluxDiff_zero hz hds (h2 i) hv, hz.add_zero]
  have e4 : (fun i => w.fx i + oFluxDiff g (dt / g.dv) (fx i * f.rho) (fx i * f.rho)) = w.fx := funext fun i => by
    rw [oFluxDiff_zero hz hds (h4 i) hv, hz.add_zero]
  have e5 : onEntry idim.val (fun x => x + 0) w.rhou = w.rhou := funext fun i => by
    unfold onEntry
    split
    · exact hz.add_zero _
    · rfl
  rw [e2, e4, e5]

omit hz in
theorem foldl_id {α β : Type} (f : α → β → α) (h : ∀ a b, f a b = a) (l : List β) (a : α) : l.foldl f a = a := by
  induction l generalizing a with
  | nil => rfl
  | cons b l ih => rw [List.foldl_cons, h, ih]

variable (lim : Limiter) {sol : Solver} {eos : EoS F} {E : Cell} {X : Fin 3 → ℤ → F} (hg : FiniteGrid fin E X)

omit hz in
theorem cartGeo (a : Fin d) (c : Cell) (Gr : Cell → Fin d → F) :
    (kGrid (orderedKernels (n := n) lim sol eos .cartesian none) .cartesian X Gr).kDirGeo .cartesian a c =
      { dv := cartVol X c, dsL := cartArea X c (ax a), dsR := cartArea X c (ax a), x0 := 0, x0p := 0, x1 := 0, x1p := 0 } := by
  have : cartArea X (nb c (ax a) 1) (ax a) = cartArea X c (ax a) := by
    unfold cartArea
    have hn : ∀ b : Fin 3, ax a ≠ b → nb c (ax a) 1 b = c b := fun b hb => by
      unfold nb
      rw [Function.update_of_ne (Ne.symm hb)]
    congr 1
    · congr 1
      · split
        · rfl
        · rw [hn 0 (by assumption)]
      · split
        · rfl
        · rw [hn 1 (by assumption)]
    · split
      · rfl
      · rw [hn 2 (by assumption)]
  show DirGeo.mk _ _ _ _ _ _ _ = _
  rw [← this]
  rw [this]
  congr 1

include hg in
theorem kReconVal_const (hd : d ≤ 3) (Gr : Cell → Fin d → F) {v : F} (hv : fin v) {c : Cell} (hc : inExt E c = true)
    (hst : StencilIn d E c) (side : Fin 2) (a : Fin d) :
    kReconVal (orderedKernels (n := n) lim sol eos .cartesian none)
      (kGrid (orderedKernels (n := n) lim sol eos .cartesian none) .cartesian X Gr) (fun _ => v) c side a = v := by
  have hl : ∀ c : Cell, inExt E c = true → kLen (orderedKernels (n := n) lim sol eos .cartesian none)
      (kGrid (orderedKernels (n := n) lim sol eos .cartesian none) .cartesian X Gr) a c = cartSize X (ax a) (c (ax a)) := fun c hc =>
    oLen_eq hz hd a (fun b => cartSize X b (c b)) fun b => hg.size b (c b) (inExt_iff.1 hc b).1 (inExt_iff.1 hc b).2
  have hm := hst a (-1) (by norm_num) (by norm_num)
  have hp := hst a 1 (by norm_num) (by norm_num)
  unfold kReconVal
  rw [hl _ hc, hl _ hm, hl _ hp]
  have e1 : nb c (ax a) (-1) (ax a) = c (ax a) - 1 := by simp [nb]; ring
  have e2 : nb c (ax a) 1 (ax a) = c (ax a) + 1 := by simp [nb]
  have i0 := inExt_iff.1 hc (ax a)
  have i1 := inExt_iff.1 hm (ax a)
  have i2 := inExt_iff.1 hp (ax a)
  rw [e1] at i1
  rw [e2] at i2
  rw [e1, e2]
  have h3 := hg.dist (ax a) (c (ax a) - 1) i1.1 (by omega)
  rw [sub_add_cancel] at h3
  exact oRecon_const hz lim hv (hg.half _ _ i0.1 i0.2) (hg.dist _ _ i0.1 i2.2) h3 side

variable {s : Fields d n F}

/-- The face states of a uniform flow. -/
theorem kRecVal_const (hd : d ≤ 3) {dt : F} (hdt : FiniteStep fin E X dt) (hs : FiniteState fin eos sol E X s) (hg : FiniteGrid fin E X)
    {c : Cell} (hc : inExt E c = true) (hst : StencilIn d E c) (side : Fin 2) (a : Fin d) :
    kRecVal (orderedKernels lim sol eos .cartesian none) .cartesian
      (kGrid (orderedKernels (n := n) lim sol eos .cartesian none) .cartesian X fun _ _ => 0) dt (fun _ => s)
      (kPrimGlob (orderedKernels lim sol eos .cartesian none) fun _ => s) c side a =
    { rho := s.rho, rhou := (oToCons eos (oToPrim eos s.cons)).rhou, E := (oToCons eos (oToPrim eos s.cons)).E, fx := carried s } := by
  set k : Kernels d n F := orderedKernels lim sol eos .cartesian none with hk
  have hup : ∀ side a, kFaceUP k (kGrid k .cartesian X fun _ _ => 0) (kPrimGlob k fun _ => s) c side a =
      { u := (oToPrim eos s.cons).u, P := (oToPrim eos s.cons).P } := by
    intro side a
    unfold kFaceUP
    congr 1
    · funext i
      exact kReconVal_const hz lim hg hd _ (hs.u i) hc hst side a
    · exact kReconVal_const hz lim hg hd _ hs.P hc hst side a
  have hff : ∀ side a, kFaceFields k (kGrid k .cartesian X fun _ _ => 0) (fun _ => s) (kPrimGlob k fun _ => s) c side a =
      { rho := s.rho, rhou := (oToCons eos (oToPrim eos s.cons)).rhou, E := (oToCons eos (oToPrim eos s.cons)).E, fx := s.fx } := by
    intro side a
    unfold kFaceFields
    rw [hup]
    have e1 : kReconVal k (kGrid k .cartesian X fun _ _ => 0) (fun _ => s.rho) c side a = s.rho :=
      kReconVal_const hz lim hg hd _ hs.rho hc hst side a
    have e2 : (fun i => kReconVal k (kGrid k .cartesian X fun _ _ => 0) (fun _ => s.fx i) c side a) = s.fx := funext fun i =>
      kReconVal_const hz lim hg hd _ (hs.fx i) hc hst side a
    simp only [e1, e2]
    rfl
  unfold kRecVal
  have e1 : kFaceUP k (kGrid k .cartesian X fun _ _ => 0) (kPrimGlob k fun _ => s) c = fun _ _ =>
      { u := (oToPrim eos s.cons).u, P := (oToPrim eos s.cons).P } := funext fun side => funext fun a => hup side a
  have e2 : kFaceFields k (kGrid k .cartesian X fun _ _ => 0) (fun _ => s) (kPrimGlob k fun _ => s) c = fun _ _ =>
      { rho := s.rho, rhou := (oToCons eos (oToPrim eos s.cons)).rhou, E := (oToCons eos (oToPrim eos s.cons)).E, fx := s.fx } :=
    funext fun side => funext fun a => hff side a
  rw [e1, e2]
  have e3 : (fun a => (kGrid k .cartesian X fun (_ : Cell) (_ : Fin d) => (0 : F)).kDirGeo .cartesian a c) = fun a =>
      { dv := cartVol X c, dsL := cartArea X c (ax a), dsR := cartArea X c (ax a), x0 := 0, x0p := 0, x1 := 0, x1p := 0 } :=
    funext fun a => cartGeo lim a c _
  rw [e3]
  show (let f := oPredict eos .cartesian dt _ (fun _ => 0) _ _ side a; ({ f with fx := fun i => f.fx i / f.rho } : Fields d n F)) = _
  unfold oPredict
  dsimp only
  rw [foldl_id _ fun w b => oDirection_id hz
    (s := { rho := s.rho, rhou := (oToCons eos (oToPrim eos s.cons)).rhou, E := (oToCons eos (oToPrim eos s.cons)).E, fx := s.fx })
    _ _ w rfl hdt.num (hdt.vol c hc) ((hs.prim b).rho c hc) ((hs.prim b).rhou c hc)
    ((hs.prim b).energy c hc) ((hs.prim b).fx c hc) hs.rho (hs.face b)]
  rfl

theorem oUpdate_const {dt : F} (hdt : FiniteStep fin E X dt) (hs : FiniteState fin eos sol E X s) {c : Cell} (hc : inExt E c = true) :
    oUpdate sol eos .cartesian dt (fun a =>
      { dv := cartVol X c, dsL := cartArea X c (ax a), dsR := cartArea X c (ax a), x0 := 0, x0p := 0, x1 := 0, x1p := 0 })
      (fun _ => 0) s
      (fun _ _ _ => { rho := s.rho, rhou := (oToCons eos (oToPrim eos s.cons)).rhou, E := (oToCons eos (oToPrim eos s.cons)).E
                      fx := carried s })
      (fun _ _ => { rho := s.rho, rhou := (oToCons eos (oToPrim eos s.cons)).rhou, E := (oToCons eos (oToPrim eos s.cons)).E
                    fx := carried s })
      (fun _ _ _ => { rho := s.rho, rhou := (oToCons eos (oToPrim eos s.cons)).rhou, E := (oToCons eos (oToPrim eos s.cons)).E
                      fx := carried s }) = { s with fx := fun i => s.fx i * s.rho } := by
  unfold oUpdate
  dsimp only
  simp only [ite_self]
  rw [foldl_id _ fun w b => oDirection_id hz (s := s) _ _ w rfl hdt.num (hdt.vol c hc) ((hs.riemann b).rho c hc) ((hs.riemann b).rhou c hc)
    ((hs.riemann b).energy c hc) ((hs.riemann b).fx c hc) hs.rho (hs.mom b)]

/-- A step of a uniform flow, in a cell two cells away from the border of the array. -/
theorem kStepVal_const (hd : d ≤ 3) {dt : F} (hdt : FiniteStep fin E X dt) (hdt2 : FiniteStep fin E X (dt / lit 2))
    (hs : FiniteState fin eos sol E X s) (hg : FiniteGrid fin E X) {c : Cell} (hc : inExt E c = true) (hst : StencilIn d E c)
    (hst2 : ∀ (a : Fin d) (t : ℤ), -1 ≤ t → t ≤ 1 → StencilIn d E (nb c (ax a) t)) :
    kStepVal (orderedKernels lim sol eos .cartesian none) .cartesian
      (kGrid (orderedKernels (n := n) lim sol eos .cartesian none) .cartesian X fun _ _ => 0) dt (fun _ => s)
      (kPrimGlob (orderedKernels lim sol eos .cartesian none) fun _ => s) c = calm s := by
  have hr : ∀ c, inExt E c = true → StencilIn d E c → kRecVal (orderedKernels lim sol eos .cartesian none) .cartesian
      (kGrid (orderedKernels (n := n) lim sol eos .cartesian none) .cartesian X fun _ _ => 0) (dt / lit 2) (fun _ => s)
      (kPrimGlob (orderedKernels lim sol eos .cartesian none) fun _ => s) c = fun _ _ =>
    { rho := s.rho, rhou := (oToCons eos (oToPrim eos s.cons)).rhou, E := (oToCons eos (oToPrim eos s.cons)).E, fx := carried s } :=
    fun c hc hst => funext fun side => funext fun a => kRecVal_const hz lim hd hdt2 hs hg hc hst side a
  unfold kStepVal kFixVal
  show (if false = true then _ else _) = _
  rw [if_neg (by decide)]
  unfold kGodVal
  have hr' : (orderedKernels (d := d) (n := n) lim sol eos .cartesian none).half dt = dt / lit 2 := rfl
  rw [hr', hr c hc hst]
  have em : (fun a : Fin d => kRecVal (orderedKernels lim sol eos .cartesian none) .cartesian
      (kGrid (orderedKernels (n := n) lim sol eos .cartesian none) .cartesian X fun _ _ => 0) (dt / lit 2) (fun _ => s)
      (kPrimGlob (orderedKernels lim sol eos .cartesian none) fun _ => s) (nb c (ax a) (-1))) = fun _ _ _ =>
      { rho := s.rho, rhou := (oToCons eos (oToPrim eos s.cons)).rhou, E := (oToCons eos (oToPrim eos s.cons)).E, fx := carried s } :=
    funext fun a => hr _ (hst a (-1) (by norm_num) (by norm_num)) (hst2 a (-1) (by norm_num) (by norm_num))
  have ep : (fun a : Fin d => kRecVal (orderedKernels lim sol eos .cartesian none) .cartesian
      (kGrid (orderedKernels (n := n) lim sol eos .cartesian none) .cartesian X fun _ _ => 0) (dt / lit 2) (fun _ => s)
      (kPrimGlob (orderedKernels lim sol eos .cartesian none) fun _ => s) (nb c (ax a) 1)) = fun _ _ _ =>
      { rho := s.rho, rhou := (oToCons eos (oToPrim eos s.cons)).rhou, E := (oToCons eos (oToPrim eos s.cons)).E, fx := carried s } :=
    funext fun a => hr _ (hst a 1 (by norm_num) (by norm_num)) (hst2 a 1 (by norm_num) (by norm_num))
  rw [em, ep]
  have e3 : (fun a => (kGrid (orderedKernels (n := n) lim sol eos .cartesian none) .cartesian X
      fun (_ : Cell) (_ : Fin d) => (0 : F)).kDirGeo .cartesian a c) = fun a =>
      { dv := cartVol X c, dsL := cartArea X c (ax a), dsR := cartArea X c (ax a), x0 := 0, x0p := 0, x1 := 0, x1p := 0 } :=
    funext fun a => cartGeo lim a c _
  rw [e3]
  exact congrArg (orderedKernels (n := n) lim sol eos .cartesian none).updateFx (oUpdate_const hz hdt hs hc)

end Heracles
