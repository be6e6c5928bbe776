import Verif.Model.Ordered

/-!
# With exact operations, the kernels of `Model/Ordered.lean` are those of the exact model
-/

namespace Heracles

variable {d n : ℕ} {K : Type} [Field K] [LinearOrder K] (tr : Trig K)

theorem lit_exact (m : ℕ) : @Arith.lit K (exactArith K tr) m = (m : K) := rfl

theorem lit1 : @Arith.lit K (exactArith K tr) 1 = (1 : K) := Nat.cast_one
theorem lit2 : @Arith.lit K (exactArith K tr) 2 = (2 : K) := Nat.cast_ofNat
theorem lit3 : @Arith.lit K (exactArith K tr) 3 = (3 : K) := Nat.cast_ofNat
theorem lit4 : @Arith.lit K (exactArith K tr) 4 = (4 : K) := Nat.cast_ofNat
theorem lit10 : @Arith.lit K (exactArith K tr) 10 = (10 : K) := Nat.cast_ofNat

omit [LinearOrder K] in
theorem foldl_add_sum (f : Fin d → K) (e : K) : (List.finRange d).foldl (fun s i => s + f i) e = e + ∑ i, f i := by
  rw [Fin.sum_univ_def]
  generalize List.finRange d = l
  induction l generalizing e with
  | nil => simp
  | cons i l ih => rw [List.foldl_cons, ih, List.map_cons, List.sum_cons, add_assoc]

theorem sumUp_exact (f : Fin d → K) : @sumUp d K (exactArith K tr) f = ∑ i, f i :=
  (foldl_add_sum f 0).trans (zero_add _)

theorem oEkCons_exact (c : Cons d K) : @oEkCons d K (exactArith K tr) c = c.ek := by
  unfold oEkCons Cons.ek
  rw [sumUp_exact, lit2]

theorem oEkPrim_exact (p : Prim d K) : @oEkPrim d K (exactArith K tr) p = p.ek := by
  unfold oEkPrim Prim.ek
  rw [sumUp_exact, lit2]

theorem oToPrim_exact (eos : EoS K) (c : Cons d K) : @oToPrim d K (exactArith K tr) eos c = toPrim eos c := by
  unfold oToPrim toPrim oEvol Cons.evol
  rw [oEkCons_exact]

theorem oToCons_exact (eos : EoS K) (p : Prim d K) : @oToCons d K (exactArith K tr) eos p = toCons eos p := by
  unfold oToCons toCons
  rw [oEkPrim_exact]

theorem oFluxPrim_exact (eos : EoS K) (p : Prim d K) (a : Fin d) :
    @oFluxPrim d K (exactArith K tr) eos p a = fluxPrim eos p a := by
  unfold oFluxPrim fluxPrim
  rw [oEkPrim_exact]

theorem oSlope_exact (lim : Limiter) (x y : K) : @oSlope K (exactArith K tr) lim x y = lim.slope x y := by
  cases lim <;> simp only [oSlope, Limiter.slope, lit1, lit2, lit4] <;> rfl

theorem oRecon_exact (lim : Limiter) (a b c x y z : K) (side : Fin 2) :
    @oRecon K (exactArith K tr) lim a b c x y z side = reconFace lim a b c x y z side := by
  simp only [oRecon, reconFace, lit2, oSlope_exact]

theorem oLen_exact (a : Fin d) (x y z : K) :
    @oLen d K (exactArith K tr) a x y z = (kron a.val 0 : ℤ) * x + (kron a.val 1 : ℤ) * y + (kron a.val 2 : ℤ) * z := by
  unfold oLen kron
  simp only [lit_exact]
  have h : ∀ m : ℕ, (((if a.val = m then 1 else 0 : ℕ) : K)) = ((if (a.val : ℤ) = (m : ℤ) then 1 else 0 : ℤ) : K) := by
    intro m
    by_cases h : a.val = m <;> simp [h]
  have h0 := h 0
  have h1 := h 1
  have h2 := h 2
  simp only [Nat.cast_zero, Nat.cast_one, Nat.cast_ofNat] at h0 h1 h2
  rw [← h0, ← h1, ← h2]

theorem oFlux_exact (sol : Solver) (eos : EoS K) (cL cR : Cons d K) (a : Fin d) :
    @oFlux d K (exactArith K tr) sol eos cL cR a = sol.flux eos cL cR a := by
  cases sol
  · simp only [oFlux, Solver.flux, oHll, hllFlux, oToPrim_exact, oFluxPrim_exact]
    rfl
  · simp only [oFlux, Solver.flux, oHllc, hllcFlux, oToPrim_exact, oFluxPrim_exact, lit1, lit2]
    rfl
  · simp only [oFlux, Solver.flux, oSplitting, splittingFlux, oToPrim_exact, lit1, lit2]
    rfl

theorem oDxGeom_exact (geom : Geom) (dx : Fin 3 → K) (x y : K) (i : Fin 3) :
    @oDxGeom K (exactArith K tr) geom d dx x y i = dxGeom tr geom d dx x y i := rfl

theorem oClamp_exact (v lo hi : K) : @oClamp K (exactArith K tr) v lo hi = clamp v lo hi := rfl

theorem oAt_exact (p : Prim d K) (m : ℕ) : @oAt d K (exactArith K tr) p m = p.uAt m := rfl

theorem oGradPres_exact (a b c e f : K) : @oGradPres K (exactArith K tr) a b c e f = sourceGradPres a b c e f := by
  unfold oGradPres sourceGradPres; rw [lit2]

theorem oGradUr_exact (a b c e f g h : K) : @oGradUr K (exactArith K tr) a b c e f g h = sourceGradUr a b c e f g h := by
  unfold oGradUr sourceGradUr; rw [lit2]

theorem oGradUidirR_exact (a b c e f g h i j k l : K) :
    @oGradUidirR K (exactArith K tr) a b c e f g h i j k l = sourceGradUidirR a b c e f g h i j k l := rfl

theorem oGradUth_exact (a b c e f g h i j : K) :
    @oGradUth K (exactArith K tr) a b c e f g h i j = sourceGradUth tr a b c e f g h i j := by
  unfold oGradUth sourceGradUth; simp only [lit2]; rfl

theorem oGradUphi_exact (a b c e f g h i j k l : K) :
    @oGradUphi K (exactArith K tr) a b c e f g h i j k l = sourceGradUphi tr a b c e f g h i j k l := rfl

theorem oSpherical_exact (hd : d ≤ 3) (g : DirGeo K) (dtodv : K) (pL pR : Prim d K) (idim : Fin d) (v : Fin d → K) (i : Fin d) :
    @oSpherical d K (exactArith K tr) g dtodv pL pR idim v i = v i + sphSource tr g dtodv pL pR idim i := by
  have hi := i.isLt
  have hd' := idim.isLt
  unfold oSpherical sphSource
  simp only [oAt_exact, oGradPres_exact, oGradUr_exact, oGradUidirR_exact, oGradUth_exact, oGradUphi_exact]
  generalize sourceGradPres dtodv pL.P pR.P g.dsL g.dsR = s1
  generalize sourceGradUr dtodv pL.rho pR.rho (pL.uAt 1) (pR.uAt 1) g.dsL g.dsR = s2
  generalize sourceGradUr dtodv pL.rho pR.rho (pL.uAt 2) (pR.uAt 2) g.dsL g.dsR = s3
  generalize sourceGradUidirR dtodv g.x0 g.x0p pL.rho pR.rho (pL.uAt 0) (pR.uAt 0) (pL.uAt 1) (pR.uAt 1) g.dsL g.dsR = s4
  generalize sourceGradUidirR dtodv g.x0 g.x0p pL.rho pR.rho (pL.uAt 0) (pR.uAt 0) (pL.uAt 2) (pR.uAt 2) g.dsL g.dsR = s5
  generalize sourceGradUth tr dtodv g.x1 g.x1p pL.rho pR.rho (pL.uAt 2) (pR.uAt 2) g.dsL g.dsR = s6
  generalize sourceGradUphi tr dtodv g.x1 g.x1p pL.rho pR.rho (pL.uAt 1) (pR.uAt 1) (pL.uAt 2) (pR.uAt 2) g.dsL g.dsR = s7
  have h : i.val = 0 ∨ i.val = 1 ∨ i.val = 2 := by omega
  have h' : idim.val = 0 ∨ idim.val = 1 ∨ idim.val = 2 := by omega
  have hdd : d = 1 ∨ d = 2 ∨ d = 3 := by omega
  rcases hdd with e | e | e <;> rcases h with h | h | h <;> rcases h' with h' | h' | h' <;>
    first
    | (exfalso; omega)
    | (simp [e, h, h', onEntry] <;> ring)

/-- A loop over the directions that adds to every variable. -/
theorem foldl_fields (A : Fin d → K) (B : Fin d → Fin d → K) (C : Fin d → K) (D : Fin d → Fin n → K) (w : Fields d n K) :
    (List.finRange d).foldl (fun w idim => ({ rho := w.rho + A idim, rhou := fun i => w.rhou i + B idim i, E := w.E + C idim
                                              fx := fun i => w.fx i + D idim i } : Fields d n K)) w =
      { rho := w.rho + ∑ idim, A idim, rhou := fun i => w.rhou i + ∑ idim, B idim i, E := w.E + ∑ idim, C idim
        fx := fun i => w.fx i + ∑ idim, D idim i } := by
  simp only [Fin.sum_univ_def]
  generalize List.finRange d = l
  induction l generalizing w with
  | nil => simp
  | cons i l ih =>
    rw [List.foldl_cons, ih]
    simp only [List.map_cons, List.sum_cons, add_assoc]

theorem oDirection_exact (hd : d ≤ 3) (geom : Geom) (dt : K) (g : DirGeo K) (gr : K) (s : Fields d n K) (pL pR : Prim d K)
    (fL fR : Flux d K) (fxL fxR : Fin n → K) (idim : Fin d) (w : Fields d n K) :
    @oDirection d n K (exactArith K tr) geom dt g gr s pL pR fL fR fxL fxR idim w =
      { rho := w.rho + fluxDiff g (dt / g.dv) fL.rho fR.rho
        rhou := fun i => w.rhou i + (momDiff tr geom g (dt / g.dv) pL pR fL fR idim i + if i = idim then dt * gr * s.rho else 0)
        E := w.E + (fluxDiff g (dt / g.dv) fL.E fR.E + dt * gr * s.rhou idim)
        fx := fun i => w.fx i + fluxDiff g (dt / g.dv) (fxL i * fL.rho) (fxR i * fR.rho) } := by
  unfold oDirection
  refine Fields.ext rfl ?_ (add_assoc ..) rfl
  funext i
  have key : (if geom = .spherical then @oSpherical d K (exactArith K tr) g (dt / g.dv) pL pR idim
      (fun i => w.rhou i + fluxDiff g (dt / g.dv) (fL.rhou i) (fR.rhou i)) else
      fun i => w.rhou i + fluxDiff g (dt / g.dv) (fL.rhou i) (fR.rhou i)) i =
      w.rhou i + momDiff tr geom g (dt / g.dv) pL pR fL fR idim i := by
    unfold momDiff
    cases geom
    · simp
    · rw [if_pos rfl, if_pos rfl, oSpherical_exact tr hd, add_assoc]
  by_cases h : i = idim
  · subst h
    refine (if_pos rfl).trans ?_
    dsimp only
    rw [if_pos rfl, ← add_assoc, ← key]
    rfl
  · refine (if_neg (fun e => h (Fin.ext e))).trans ?_
    dsimp only
    rw [if_neg h, add_zero, ← key]
    rfl

theorem oPredict_exact (hd : d ≤ 3) (eos : EoS K) (geom : Geom) (dt : K) (dg : Fin d → DirGeo K) (gr : Fin d → K)
    (up : Fin 2 → Fin d → VelPres d K) (old : Fin 2 → Fin d → Fields d n K) :
    @oPredict d n K (exactArith K tr) eos geom dt dg gr up old = hancockPure eos tr geom dt dg gr up old := by
  funext side ipos
  simp only [oPredict, hancockPure, oDirection_exact tr hd, oFluxPrim_exact]
  rw [foldl_fields]
  rfl

theorem oUpdate_exact (hd : d ≤ 3) (sol : Solver) (eos : EoS K) (geom : Geom) (dt : K) (dg : Fin d → DirGeo K) (gr : Fin d → K)
    (s : Fields d n K) (rm : Fin d → Fin 2 → Fin d → Fields d n K) (r0 : Fin 2 → Fin d → Fields d n K)
    (rp : Fin d → Fin 2 → Fin d → Fields d n K) :
    @oUpdate d n K (exactArith K tr) sol eos geom dt dg gr s rm r0 rp = godunovPure sol eos tr geom dt dg gr s rm r0 rp := by
  simp only [oUpdate, godunovPure, oDirection_exact tr hd, oToPrim_exact, oFlux_exact]
  rw [foldl_fields]

omit [LinearOrder K] in
theorem foldl_double (f : Fin d → Fin d → K) : (List.finRange d).foldl (fun t i => (List.finRange d).foldl (fun t j => t + f i j) t) 0 =
    ∑ i, ∑ j, f i j := by
  simp only [foldl_add_sum]
  rw [zero_add]

theorem oFixE_exact (eos : EoS K) (dt eps : K) (s q : Fields d n K) (um uPl : Fin d → Fields d n K)
    (r0 : Fin 2 → Fin d → Fields d n K) (rm rp : Fin d → Fin 2 → Fin d → Fields d n K) (ds : Fin 3 → K) (dsp : Fin d → Fin 3 → K)
    (dv : K) : @oFixE d n K (exactArith K tr) eos dt eps s q um uPl r0 rm rp ds dsp dv =
      pressureFixEnergy eos dt eps s q um uPl r0 rm rp ds dsp dv := by
  simp only [oFixE, pressureFixEnergy, oToPrim_exact, oEkCons_exact, sumUp_exact, lit1, lit2, lit10]
  simp only [← foldl_double]

/-- The kernels of the code, executed with exact operations, are the kernels of the exact model. -/
theorem orderedKernels_exact (hd : d ≤ 3) (lim : Limiter) (sol : Solver) (eos : EoS K) (geom : Geom) (fix : Option K) :
    @orderedKernels d n K (exactArith K tr) lim sol eos geom fix = exactKernels lim sol eos tr geom fix := by
  unfold orderedKernels exactKernels
  congr 1
  · funext x y z i; simp only [lit1]
  · funext r rp t tp d0 d1 d2; rw [lit1, lit2]; rfl
  · funext r rp t tp d2; rw [lit1, lit3]; rfl
  · funext rho q; rw [oToPrim_exact]
  · funext rho q dx x y; rw [sumUp_exact]; rfl
  · funext m; rw [lit1]
  · funext a x y z; exact oLen_exact tr a x y z
  · funext a b c x y z side; exact oRecon_exact tr lim a b c x y z side
  · funext rho q; rw [oToCons_exact]
  · funext dt dg gr up old; exact oPredict_exact tr hd eos geom dt dg gr up old
  · funext dt dg gr s rm r0 rp; exact oUpdate_exact tr hd sol eos geom dt dg gr s rm r0 rp
  · funext s; simp only [oClamp_exact, lit1]
  · funext s
    cases fix
    · rfl
    · simp only [oEkCons_exact]
  · funext dt s q um uPl r0 rm rp ds dsp dv; exact oFixE_exact tr eos dt _ s q um uPl r0 rm rp ds dsp dv

end Heracles
