import Verif.Model.Scheme
import Verif.Spec.Scheme
import Verif.Lemmas.Limiter
import Verif.Lemmas.Mesh

/-!
# The kernels of a step as functions of the cell

A step of the scheme, when no access is out of bounds, is described by pure functions of the cell.
-/

namespace Heracles

variable {d n : ℕ} {K : Type}

/-- Grid and gravity as plain functions of the indices. -/
structure PGrid (d : ℕ) (K : Type) where
  x : Fin 3 → ℤ → K
  dx : Fin 3 → ℤ → K
  ds : Cell → Fin 3 → K
  dv : Cell → K
  grav : Cell → Fin d → K

section
variable [Field K]

def PGrid.dirGeo (p : PGrid d K) (geom : Geom) (a : Fin d) (c : Cell) : DirGeo K :=
  match geom with
  | .cartesian => { dv := p.dv c, dsL := p.ds c (ax a), dsR := p.ds (nb c (ax a) 1) (ax a), x0 := 0, x0p := 0, x1 := 0, x1p := 0 }
  | .spherical => { dv := p.dv c, dsL := p.ds c (ax a), dsR := p.ds (nb c (ax a) 1) (ax a)
                    x0 := p.x 0 (c 0), x0p := p.x 0 (c 0 + 1), x1 := p.x 1 (c 1), x1p := p.x 1 (c 1 + 1) }

/-- The grid arrays cover an array of extents `ext` and hold the functions of `p`. -/
structure GridData.Fits (g : GridData K) (grav : GravField d K) (ext : Cell) (p : PGrid d K) : Prop where
  x : ∀ a, g.x a = View.line (ext a + 1) (p.x a)
  dx : ∀ a, g.dx a = View.line (ext a) (p.dx a)
  ds : g.ds = ⟨inExt ext, p.ds⟩
  dv : g.dv = ⟨inExt ext, p.dv⟩
  grav : ∀ c, inExt ext c = true → ∀ a, grav c a = some (p.grav c a)

theorem line_rd {m i : ℤ} {x : ℤ → K} (h0 : 0 ≤ i) (h1 : i < m) : (View.line m x).rd i = some (x i) :=
  View.rd_of_dom (v := View.line m x) (decide_eq_true ⟨h0, h1⟩)

theorem ext_rd {V : Type} {ext c : Cell} {f : Cell → V} (h : inExt ext c = true) :
    (⟨inExt ext, f⟩ : View Cell V).rd c = some (f c) :=
  View.rd_of_dom (v := (⟨inExt ext, f⟩ : View Cell V)) h

theorem dirGeo_eq (hd : d ≤ 3) {g : GridData K} {grav : GravField d K} {ext : Cell} {p : PGrid d K}
    (hg : g.Fits grav ext p) (geom : Geom) (a : Fin d) (c : Cell) (hc : inExt ext c = true)
    (hp : inExt ext (nb c (ax a) 1) = true) : g.dirGeo geom a c = some (p.dirGeo geom a c) := by
  have h := inExt_iff.1 hc
  have e : rindex a.val c = nb c (ax a) 1 := rindex_eq hd a c
  unfold GridData.dirGeo
  rw [e, hg.dv, hg.ds, ext_rd hc, ext_rd hc, ext_rd hp]
  simp only [Option.bind_eq_bind, Option.bind_some]
  cases geom
  · rfl
  · have h0 := h 0
    have h1 := h 1
    simp only [hg.x]
    rw [line_rd h0.1 (by omega), line_rd (by omega) (by omega), line_rd h1.1 (by omega), line_rd (by omega) (by omega)]
    rfl

/-- Pure version of `hancockCell`, with the division of the scalars. -/
def hanVal (eos : EoS K) (tr : Trig K) (geom : Geom) (p : PGrid d K) (dt : K) (up : Fin 2 → Fin d → VelPres d K)
    (old : Fin 2 → Fin d → Fields d n K) (c : Cell) (side : Fin 2) (ipos : Fin d) : Fields d n K :=
  let pL : Fin d → Prim d K := fun a => facePrim (old 0 a) (up 0 a)
  let pR : Fin d → Prim d K := fun a => facePrim (old 1 a) (up 1 a)
  let fL : Fin d → Flux d K := fun a => fluxPrim eos (pL a) a
  let fR : Fin d → Flux d K := fun a => fluxPrim eos (pR a) a
  let dg : Fin d → DirGeo K := fun a => p.dirGeo geom a c
  let rho := (old side ipos).rho + ∑ a, fluxDiff (dg a) (dt / p.dv c) (fL a).rho (fR a).rho
  { rho := rho
    rhou := fun i => (old side ipos).rhou i
      + ∑ a, (momDiff tr geom (dg a) (dt / p.dv c) (pL a) (pR a) (fL a) (fR a) a i
          + if i = a then dt * p.grav c a * (old side ipos).rho else 0)
    E := (old side ipos).E
      + ∑ a, (fluxDiff (dg a) (dt / p.dv c) (fL a).E (fR a).E + dt * p.grav c a * (old side ipos).rhou a)
    fx := fun ifx => ((old side ipos).fx ifx * (old side ipos).rho
      + ∑ a, fluxDiff (dg a) (dt / p.dv c) ((old 0 a).fx ifx * (fL a).rho) ((old 1 a).fx ifx * (fR a).rho)) / rho }

theorem PGrid.dirGeo_dv (p : PGrid d K) (geom : Geom) (a : Fin d) (c : Cell) : (p.dirGeo geom a c).dv = p.dv c := by
  cases geom <;> rfl

theorem hancock_eq (hd : d ≤ 3) (eos : EoS K) (tr : Trig K) (geom : Geom) {g : GridData K} {grav : GravField d K}
    {ext : Cell} {p : PGrid d K} (hg : g.Fits grav ext p) (dt : K) {l l' : List Cell} (hl : l.Nodup) (hl' : l'.Nodup)
    (hll : ∀ c, c ∈ l' ↔ c ∈ l) (hin : ∀ c ∈ l, inExt ext c = true)
    (hnb : ∀ c ∈ l, ∀ a : Fin d, inExt ext (nb c (ax a) 1) = true)
    (up : Cell → Fin 2 → Fin d → VelPres d K) (old : Cell → Fin 2 → Fin d → Fields d n K) :
    hancock eos tr geom g grav dt l l' ⟨inExt ext, up⟩ ⟨inExt ext, old⟩ =
      some ⟨inExt ext, fun c => if c ∈ l then hanVal eos tr geom p dt (up c) (old c) c else old c⟩ := by
  unfold hancock
  rw [parFor_update l hl _ _ (fun c side ipos =>
    let pL : Fin d → Prim d K := fun a => facePrim (old c 0 a) (up c 0 a)
    let pR : Fin d → Prim d K := fun a => facePrim (old c 1 a) (up c 1 a)
    let fL : Fin d → Flux d K := fun a => fluxPrim eos (pL a) a
    let fR : Fin d → Flux d K := fun a => fluxPrim eos (pR a) a
    let dg : Fin d → DirGeo K := fun a => p.dirGeo geom a c
    { hanVal eos tr geom p dt (up c) (old c) c side ipos with
      fx := fun ifx => (old c side ipos).fx ifx * (old c side ipos).rho
        + ∑ a, fluxDiff (dg a) (dt / p.dv c) ((old c 0 a).fx ifx * (fL a).rho) ((old c 1 a).fx ifx * (fR a).rho) }) ?_]
  · simp only [Option.bind_eq_bind, Option.bind_some]
    rw [parFor_update l' hl' _ _ (fun c side ipos => hanVal eos tr geom p dt (up c) (old c) c side ipos) ?_]
    · congr 1
      refine View.ext' rfl ?_
      funext c
      by_cases h : c ∈ l <;> simp [hll, h]
    · intro c hc w hw hv
      have hcl : c ∈ l := (hll c).1 hc
      have hdom : w.dom c = true := by rw [hw]; exact hin c hcl
      rw [View.rd_of_dom hdom, hv c (Or.inr rfl)]
      simp only [Option.bind_some, hcl, if_true]
      rw [View.wr_of_dom hdom]
      rfl
  · intro c hc w hw hv
    have hdom : w.dom c = true := by rw [hw]; exact hin c hc
    rw [ext_rd (hin c hc), View.rd_of_dom hdom, hv c (Or.inr rfl)]
    simp only [Option.bind_eq_bind, Option.bind_some]
    unfold hancockCell
    rw [seqFin_some (fun a => dirGeo_eq hd hg geom a c (hin c hc) (hnb c hc a)), seqFin_some (hg.grav c (hin c hc))]
    simp only [Option.bind_eq_bind, Option.bind_some, PGrid.dirGeo_dv]
    exact View.wr_of_dom hdom

end

section
variable [Field K] [LinearOrder K]

/-- Reconstructed velocity and pressure of a face. -/
def faceUP (lim : Limiter) (p : PGrid d K) (up : Cell → VelPres d K) (c : Cell) (side : Fin 2) (a : Fin d) : VelPres d K :=
  { u := fun i => reconVal lim p.dx (fun c => (up c).u i) c side a
    P := reconVal lim p.dx (fun c => (up c).P) c side a }

/-- Reconstructed fields of a face before the predictor. -/
def faceFields (lim : Limiter) (eos : EoS K) (p : PGrid d K) (U : Cell → Fields d n K) (up : Cell → VelPres d K) (c : Cell)
    (side : Fin 2) (a : Fin d) : Fields d n K :=
  let rho := reconVal lim p.dx (fun c => (U c).rho) c side a
  let q := faceUP lim p up c side a
  let s := toCons eos { rho := rho, u := q.u, P := q.P }
  { rho := rho, rhou := s.rhou, E := s.E, fx := fun i => reconVal lim p.dx (fun c => (U c).fx i) c side a }

/-- All orders of the reconstruction kernels traverse the box `[b, e)`. -/
structure RecScheds.Ok (sc : RecScheds d n) (b e : Cell) : Prop where
  rho : IsSchedule sc.rho b e
  u : ∀ i, IsSchedule (sc.u i) b e
  P : IsSchedule sc.P b e
  fx : ∀ i, IsSchedule (sc.fx i) b e
  conv : ∀ s a, IsSchedule (sc.conv s a) b e
  han : IsSchedule sc.han b e
  hanFx : IsSchedule sc.hanFx b e

/-- Face states after reconstruction and predictor. -/
def recVal (lim : Limiter) (eos : EoS K) (tr : Trig K) (geom : Geom) (p : PGrid d K) (dt : K) (U : Cell → Fields d n K)
    (up : Cell → VelPres d K) (c : Cell) (side : Fin 2) (a : Fin d) : Fields d n K :=
  hanVal eos tr geom p dt (faceUP lim p up c) (faceFields lim eos p U up c) c side a

/-- The stencil of the reconstruction at `c` is inside the arrays. -/
def StencilIn (d : ℕ) (ext c : Cell) : Prop := ∀ a : Fin d, ∀ s : ℤ, -1 ≤ s → s ≤ 1 → inExt ext (nb c (ax a) s) = true

theorem faceReconstruct_ext (lim : Limiter) {g : GridData K} {grav : GravField d K} {ext : Cell} {p : PGrid d K}
    (hg : g.Fits grav ext p) (hd : d ≤ 3) {l : List Cell} {b e : Cell} (hl : IsSchedule l b e)
    (hin : ∀ c, inBox b e c → inExt ext c = true)
    (hst : ∀ c, inBox b e c → StencilIn d ext c) (var : Cell → K) (out : Cell → Fin 2 → Fin d → K) :
    faceReconstruct lim g.dx l ⟨inExt ext, var⟩ ⟨inExt ext, out⟩ =
      some ⟨inExt ext, fun c => if inBox b e c then reconVal lim p.dx var c else out c⟩ := by
  have hin' : ∀ c ∈ l, inExt ext c = true := fun c hc => hin c ((hl.2 c).1 hc)
  have hst' : ∀ c ∈ l, StencilIn d ext c := fun c hc => hst c ((hl.2 c).1 hc)
  rw [faceReconstruct_eq lim g.dx _ hd hl.1]
  · simp only [hg.dx, View.line, hl.2]
  · intro c hc a s h1 h2
    exact hst' c hc a s h1 h2
  · exact hin'
  · exact hin'
  · intro c hc b
    rw [hg.dx]
    exact decide_eq_true (inExt_iff.1 (hin' c hc) b)
  · intro c hc a s h1 h2
    rw [hg.dx]
    have := inExt_iff.1 (hst' c hc a s h1 h2) (ax a)
    rw [nb, Function.update_self] at this
    exact decide_eq_true this

omit [LinearOrder K] in
theorem convPrimToCons_ext (eos : EoS K) {l : List Cell} {b e ext : Cell} (hl : IsSchedule l b e)
    (hin : ∀ c, inBox b e c → inExt ext c = true) (rho : Cell → K) (up : Cell → VelPres d K) (out : Cell → MomEn d K) :
    convPrimToCons eos l ⟨inExt ext, rho⟩ ⟨inExt ext, up⟩ ⟨inExt ext, out⟩ =
      some ⟨inExt ext, fun c => if inBox b e c then
        ⟨(toCons eos { rho := rho c, u := (up c).u, P := (up c).P }).rhou,
          (toCons eos { rho := rho c, u := (up c).u, P := (up c).P }).E⟩ else out c⟩ := by
  unfold convPrimToCons
  rw [parFor_update l hl.1 _ _ (fun c => ⟨(toCons eos { rho := rho c, u := (up c).u, P := (up c).P }).rhou,
          (toCons eos { rho := rho c, u := (up c).u, P := (up c).P }).E⟩) ?_]
  · simp only [hl.2]
  · intro c hc w hw _
    have h := hin c ((hl.2 c).1 hc)
    rw [ext_rd h, ext_rd h]
    simp only [Option.bind_eq_bind, Option.bind_some]
    exact View.wr_of_dom (by rw [hw]; exact h)

theorem hydroReconstruct_eq (hd : d ≤ 3) (lim : Limiter) (eos : EoS K) (tr : Trig K) (geom : Geom) {g : GridData K}
    {grav : GravField d K} {ext : Cell} {p : PGrid d K} (hg : g.Fits grav ext p) (dt : K) {sc : RecScheds d n} {b e : Cell}
    (hsc : sc.Ok b e) (hin : ∀ c, inBox b e c → inExt ext c = true) (hst : ∀ c, inBox b e c → StencilIn d ext c)
    (U : Cell → Fields d n K) (up : Cell → VelPres d K) (upRec : Cell → Fin 2 → Fin d → VelPres d K)
    (rec : Cell → Fin 2 → Fin d → Fields d n K) :
    hydroReconstruct lim eos tr geom g grav dt sc ⟨inExt ext, U⟩ ⟨inExt ext, up⟩ ⟨inExt ext, upRec⟩ ⟨inExt ext, rec⟩ =
      some ⟨inExt ext, fun c => if inBox b e c then recVal lim eos tr geom p dt U up c else rec c⟩ := by
  unfold hydroReconstruct
  simp only [View.comp]
  rw [faceReconstruct_ext lim hg hd hsc.rho hin hst,
    seqFin_some (fun i => faceReconstruct_ext lim hg hd (hsc.u i) hin hst _ _),
    faceReconstruct_ext lim hg hd hsc.P hin hst,
    seqFin_some (fun i => faceReconstruct_ext lim hg hd (hsc.fx i) hin hst _ _)]
  simp only [Option.bind_eq_bind, Option.bind_some]
  rw [seqFin_some (fun side => seqFin_some (fun a => convPrimToCons_ext eos (hsc.conv side a) hin _ _ _))]
  simp only [Option.bind_some]
  rw [hancock_eq hd eos tr geom hg dt hsc.han.1 hsc.hanFx.1 (fun c => by rw [hsc.han.2, hsc.hanFx.2])
    (fun c hc => hin c ((hsc.han.2 c).1 hc)) (fun c hc a => hst c ((hsc.han.2 c).1 hc) a 1 (by norm_num) (by norm_num))]
  congr 1
  refine View.ext' rfl (funext fun c => ?_)
  simp only [hsc.han.2]
  by_cases h : inBox b e c
  · simp only [h, if_true]
    rfl
  · simp only [h, if_false]

/-- Pure version of the Godunov update of one cell from the face states. -/
def godVal (sol : Solver) (eos : EoS K) (tr : Trig K) (geom : Geom) (p : PGrid d K) (dt : K) (s : Fields d n K)
    (R : Cell → Fin 2 → Fin d → Fields d n K) (c : Cell) : Fields d n K :=
  let fL : Fin d → Flux d K := fun a => sol.flux eos (R (nb c (ax a) (-1)) 1 a).cons (R c 0 a).cons a
  let fR : Fin d → Flux d K := fun a => sol.flux eos (R c 1 a).cons (R (nb c (ax a) 1) 0 a).cons a
  let pL : Fin d → Prim d K := fun a => toPrim eos (R c 0 a).cons
  let pR : Fin d → Prim d K := fun a => toPrim eos (R c 1 a).cons
  let fxL : Fin d → Fin n → K := fun a i => if (fL a).rho < 0 then (R c 0 a).fx i else (R (nb c (ax a) (-1)) 1 a).fx i
  let fxR : Fin d → Fin n → K := fun a i => if (fR a).rho < 0 then (R (nb c (ax a) 1) 0 a).fx i else (R c 1 a).fx i
  let dg : Fin d → DirGeo K := fun a => p.dirGeo geom a c
  let rho := s.rho + ∑ a, fluxDiff (dg a) (dt / p.dv c) (fL a).rho (fR a).rho
  { rho := rho
    rhou := fun i => s.rhou i
      + ∑ a, (momDiff tr geom (dg a) (dt / p.dv c) (pL a) (pR a) (fL a) (fR a) a i
          + if i = a then dt * p.grav c a * s.rho else 0)
    E := s.E + ∑ a, (fluxDiff (dg a) (dt / p.dv c) (fL a).E (fR a).E + dt * p.grav c a * s.rhou a)
    fx := fun i => clamp ((s.fx i * s.rho
      + ∑ a, fluxDiff (dg a) (dt / p.dv c) (fxL a i * (fL a).rho) (fxR a i * (fR a).rho)) / rho) 0 1 }

theorem godunov_eq (hd : d ≤ 3) (sol : Solver) (eos : EoS K) (tr : Trig K) (geom : Geom) {g : GridData K}
    {grav : GravField d K} {ext : Cell} {p : PGrid d K} (hg : g.Fits grav ext p) (dt : K) {l l' : List Cell} {b e : Cell}
    (hl : IsSchedule l b e) (hl' : IsSchedule l' b e) (hin : ∀ c, inBox b e c → inExt ext c = true)
    (hst : ∀ c, inBox b e c → StencilIn d ext c) (U : Cell → Fields d n K) (R : Cell → Fin 2 → Fin d → Fields d n K)
    (new : Cell → Fields d n K) :
    godunov sol eos tr geom g grav dt l l' ⟨inExt ext, U⟩ ⟨inExt ext, R⟩ ⟨inExt ext, new⟩ =
      some ⟨inExt ext, fun c => if inBox b e c then godVal sol eos tr geom p dt (U c) R c else new c⟩ := by
  have em : ∀ (a : Fin d) c, lindex a.val c = nb c (ax a) (-1) := fun a c => lindex_eq hd a c
  have ep : ∀ (a : Fin d) c, rindex a.val c = nb c (ax a) 1 := fun a c => rindex_eq hd a c
  unfold godunov
  rw [parFor_update l hl.1 _ _ (fun c =>
    let fL : Fin d → Flux d K := fun a => sol.flux eos (R (nb c (ax a) (-1)) 1 a).cons (R c 0 a).cons a
    let fR : Fin d → Flux d K := fun a => sol.flux eos (R c 1 a).cons (R (nb c (ax a) 1) 0 a).cons a
    let fxL : Fin d → Fin n → K := fun a i => if (fL a).rho < 0 then (R c 0 a).fx i else (R (nb c (ax a) (-1)) 1 a).fx i
    let fxR : Fin d → Fin n → K := fun a i => if (fR a).rho < 0 then (R (nb c (ax a) 1) 0 a).fx i else (R c 1 a).fx i
    let dg : Fin d → DirGeo K := fun a => p.dirGeo geom a c
    { godVal sol eos tr geom p dt (U c) R c with
      fx := fun i => (U c).fx i * (U c).rho
        + ∑ a, fluxDiff (dg a) (dt / p.dv c) (fxL a i * (fL a).rho) (fxR a i * (fR a).rho) }) ?_]
  · simp only [Option.bind_eq_bind, Option.bind_some]
    rw [parFor_update l' hl'.1 _ _ (fun c => godVal sol eos tr geom p dt (U c) R c) ?_]
    · congr 1
      refine View.ext' rfl ?_
      funext c
      by_cases h : inBox b e c <;> simp [hl.2, hl'.2, h]
    · intro c hc w hw hv
      have hcb : inBox b e c := (hl'.2 c).1 hc
      have hcl : c ∈ l := (hl.2 c).2 hcb
      have hdom : w.dom c = true := by rw [hw]; exact hin c hcb
      rw [View.rd_of_dom hdom, hv c (Or.inr rfl)]
      simp only [Option.bind_some, hcl, if_true]
      rw [View.wr_of_dom hdom]
      rfl
  · intro c hc w hw hv
    have hcb : inBox b e c := (hl.2 c).1 hc
    have hc0 := hin c hcb
    have hdom : w.dom c = true := by rw [hw]; exact hc0
    unfold godunovCell
    simp only [em, ep]
    rw [ext_rd hc0, ext_rd hc0,
      seqFin_some (fun a => dirGeo_eq hd hg geom a c hc0 (hst c hcb a 1 (by norm_num) (by norm_num))),
      seqFin_some (hg.grav c hc0),
      seqFin_some (fun a => ext_rd (hst c hcb a (-1) (by norm_num) (by norm_num))),
      seqFin_some (fun a => ext_rd (hst c hcb a 1 (by norm_num) (by norm_num)))]
    simp only [Option.bind_eq_bind, Option.bind_some, PGrid.dirGeo_dv]
    exact View.wr_of_dom hdom

/-- One hydrodynamic step of a cell. -/
def stepVal (lim : Limiter) (sol : Solver) (eos : EoS K) (tr : Trig K) (geom : Geom) (p : PGrid d K) (dt : K)
    (U : Cell → Fields d n K) (up : Cell → VelPres d K) (c : Cell) : Fields d n K :=
  godVal sol eos tr geom p dt (U c) (recVal lim eos tr geom p (dt / 2) U up) c

theorem ax_lt (hd : d ≤ 3) (a : Fin d) : (ax a).val < d := by
  have := a.isLt
  simp only [ax, Fin.ofNat]
  rw [Nat.mod_eq_of_lt (by omega)]
  exact this

theorem layer_nb (hd : d ≤ 3) {ext c : Cell} {m : ℤ} (h : layer d ext m c) (a : Fin d) {s : ℤ} (h1 : -1 ≤ s) (h2 : s ≤ 1) :
    layer d ext (m - 1) (nb c (ax a) s) := by
  intro b
  have hb := h b
  unfold nghostOf at *
  by_cases hba : b = ax a
  · subst hba
    simp only [nb, Function.update_self, if_pos (ax_lt hd a)] at *
    omega
  · simp only [nb, Function.update_of_ne hba]
    dsimp only at *
    split at hb <;> rename_i hlt
    · rw [if_pos hlt]; omega
    · rw [if_neg hlt]; omega

theorem layer_mono {ext c : Cell} {m k : ℤ} (h : layer d ext m c) (hk : k ≤ m) : layer d ext k c := by
  intro b
  have hb := h b
  unfold nghostOf at *
  dsimp only at *
  split at hb <;> rename_i hlt
  · rw [if_pos hlt]; omega
  · rw [if_neg hlt]; omega

theorem layer_inExt {ext c : Cell} {m : ℤ} (h : layer d ext m c) (hm : 0 ≤ m) : inExt ext c = true := by
  refine inExt_iff.2 fun b => ?_
  have hb := layer_mono h hm b
  simp only [nghostOf, ite_self] at hb
  omega

theorem layer_stencil (hd : d ≤ 3) {ext c : Cell} {m : ℤ} (h : layer d ext m c) (hm : 1 ≤ m) : StencilIn d ext c :=
  fun a _ h1 h2 => layer_inExt (layer_nb hd h a h1 h2) (by omega)

theorem godVal_congr (sol : Solver) (eos : EoS K) (tr : Trig K) (geom : Geom) (p : PGrid d K) (dt : K) (s : Fields d n K)
    {R R' : Cell → Fin 2 → Fin d → Fields d n K} {c : Cell} (h0 : R c = R' c)
    (hm : ∀ a : Fin d, R (nb c (ax a) (-1)) = R' (nb c (ax a) (-1)))
    (hp : ∀ a : Fin d, R (nb c (ax a) 1) = R' (nb c (ax a) 1)) :
    godVal sol eos tr geom p dt s R c = godVal sol eos tr geom p dt s R' c := by
  unfold godVal
  simp only [h0, hm, hp]

/-- With at least two ghost cells a whole step performs no access out of bounds and writes, in every interior cell,
the value of `stepVal`. -/
theorem hydroStep_eq (hd : d ≤ 3) (lim : Limiter) (sol : Solver) (eos : EoS K) (tr : Trig K) (geom : Geom) {g : GridData K}
    {grav : GravField d K} {ext : Cell} {p : PGrid d K} (hg : g.Fits grav ext p) (dt : K) {sc : RecScheds d n} {ng : ℤ}
    (hng : 2 ≤ ng) (hsc : sc.Ok (nghostOf d (ng - 1)) (fun a => ext a - nghostOf d (ng - 1) a)) {l l' : List Cell}
    (hl : IsSchedule l (nghostOf d ng) (fun a => ext a - nghostOf d ng a))
    (hl' : IsSchedule l' (nghostOf d ng) (fun a => ext a - nghostOf d ng a))
    (U : Cell → Fields d n K) (up : Cell → VelPres d K) (upRec : Cell → Fin 2 → Fin d → VelPres d K)
    (rec : Cell → Fin 2 → Fin d → Fields d n K) (new : Cell → Fields d n K) :
    hydroStep lim sol eos tr geom g grav dt sc l l' ⟨inExt ext, U⟩ ⟨inExt ext, up⟩ ⟨inExt ext, upRec⟩ ⟨inExt ext, rec⟩
        ⟨inExt ext, new⟩ =
      some ⟨inExt ext, fun c => if layer d ext ng c then stepVal lim sol eos tr geom p dt U up c else new c⟩ := by
  unfold hydroStep
  rw [hydroReconstruct_eq hd lim eos tr geom hg (dt / 2) hsc (fun c hc => layer_inExt (m := ng - 1) hc (by omega))
    (fun c hc => layer_stencil hd (m := ng - 1) hc (by omega))]
  simp only [Option.bind_eq_bind, Option.bind_some]
  rw [godunov_eq hd sol eos tr geom hg dt hl hl' (fun c hc => layer_inExt (m := ng) hc (by omega))
    (fun c hc => layer_stencil hd (m := ng) hc (by omega))]
  congr 1
  refine View.ext' rfl (funext fun c => ?_)
  simp only
  by_cases h : layer d ext ng c
  · have h' : inBox (nghostOf d ng) (fun a => ext a - nghostOf d ng a) c := h
    rw [if_pos h, if_pos h']
    unfold stepVal
    apply godVal_congr
    · exact if_pos (layer_mono h (by omega))
    · exact fun a => if_pos (layer_nb hd h a (by norm_num) (by norm_num))
    · exact fun a => if_pos (layer_nb hd h a (by norm_num) (by norm_num))
  · have h' : ¬ inBox (nghostOf d ng) (fun a => ext a - nghostOf d ng a) c := h
    rw [if_neg h, if_neg h']

end

end Heracles
