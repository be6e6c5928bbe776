import Verif.Model.KernelRun
import Verif.Lemmas.Distributed

/-!
# A decomposed run with open arithmetic follows a run on one global array

Same plan as `Lemmas/Scheme.lean`, `Lemmas/Geometry.lean` and `Lemmas/Distributed.lean`; the computations are opaque here.
-/

namespace Heracles

variable {d n : ℕ} {F : Type}

theorem lineRd {m i : ℤ} {x : ℤ → F} (h0 : 0 ≤ i) (h1 : i < m) : (View.line m x).rd i = some (x i) :=
  View.rd_of_dom (v := View.line m x) (decide_eq_true ⟨h0, h1⟩)

section Grid
variable [Zero F]

/-- Pure version of `kDsCell`. -/
def kDsFun (k : Kernels d n F) (geom : Geom) (x dx : Fin 3 → ℤ → F) (old : Fin 3 → F) (c : Cell) : Fin 3 → F :=
  match geom with
  | .cartesian => k.areaCart (dx 0 (c 0)) (dx 1 (c 1)) (dx 2 (c 2))
  | .spherical =>
    if d = 1 then ![k.areaSph1 (x 0 (c 0)), old 1, old 2]
    else if d = 2 then
      ![k.areaSph2 (x 0 (c 0)) (x 0 (c 0 + 1)) (x 1 (c 1)) (x 1 (c 1 + 1)) 0,
        k.areaSph2 (x 0 (c 0)) (x 0 (c 0 + 1)) (x 1 (c 1)) (x 1 (c 1 + 1)) 1, old 2]
    else if d = 3 then
      k.areaSph3 (x 0 (c 0)) (x 0 (c 0 + 1)) (x 1 (c 1)) (x 1 (c 1 + 1)) (dx 0 (c 0)) (dx 1 (c 1)) (dx 2 (c 2))
    else old

/-- Pure version of `kDvCell`. -/
def kDvFun (k : Kernels d n F) (geom : Geom) (x dx : Fin 3 → ℤ → F) (old : F) (c : Cell) : F :=
  match geom with
  | .cartesian => k.volCart (dx 0 (c 0)) (dx 1 (c 1)) (dx 2 (c 2))
  | .spherical =>
    if d = 1 then k.volSph1 (x 0 (c 0)) (x 0 (c 0 + 1))
    else if d = 2 then k.volSph2 (x 0 (c 0)) (x 0 (c 0 + 1)) (x 1 (c 1)) (x 1 (c 1 + 1))
    else if d = 3 then k.volSph3 (x 0 (c 0)) (x 0 (c 0 + 1)) (x 1 (c 1)) (x 1 (c 1 + 1)) (dx 2 (c 2))
    else old

omit [Zero F] in
theorem kDsCell_eq (k : Kernels d n F) (geom : Geom) (ext : Cell) (x dx : Fin 3 → ℤ → F) (old : Fin 3 → F) (c : Cell)
    (hc : inExt ext c = true) :
    kDsCell k geom (fun a => View.line (ext a + 1) (x a)) (fun a => View.line (ext a) (dx a)) old c =
      some (kDsFun k geom x dx old c) := by
  have h := inExt_iff.1 hc
  have h0 := h 0
  have h1 := h 1
  have h2 := h 2
  unfold kDsCell kDsFun
  cases geom
  · simp only [lineRd h0.1 h0.2, lineRd h1.1 h1.2, lineRd h2.1 h2.2, Option.bind_eq_bind, Option.bind_some]
    rfl
  · simp only [lineRd h0.1 h0.2, lineRd h1.1 h1.2, lineRd h2.1 h2.2,
      lineRd h0.1 (show c 0 < ext 0 + 1 by omega), lineRd h1.1 (show c 1 < ext 1 + 1 by omega),
      lineRd (show 0 ≤ c 0 + 1 by omega) (show c 0 + 1 < ext 0 + 1 by omega),
      lineRd (show 0 ≤ c 1 + 1 by omega) (show c 1 + 1 < ext 1 + 1 by omega), Option.bind_eq_bind, Option.bind_some]
    split
    · rfl
    · split
      · rfl
      · split <;> rfl

omit [Zero F] in
theorem kDvCell_eq (k : Kernels d n F) (geom : Geom) (ext : Cell) (x dx : Fin 3 → ℤ → F) (old : F) (c : Cell)
    (hc : inExt ext c = true) :
    kDvCell k geom (fun a => View.line (ext a + 1) (x a)) (fun a => View.line (ext a) (dx a)) old c =
      some (kDvFun k geom x dx old c) := by
  have h := inExt_iff.1 hc
  have h0 := h 0
  have h1 := h 1
  have h2 := h 2
  unfold kDvCell kDvFun
  cases geom
  · simp only [lineRd h0.1 h0.2, lineRd h1.1 h1.2, lineRd h2.1 h2.2, Option.bind_eq_bind, Option.bind_some]
    rfl
  · simp only [lineRd h2.1 h2.2,
      lineRd h0.1 (show c 0 < ext 0 + 1 by omega), lineRd h1.1 (show c 1 < ext 1 + 1 by omega),
      lineRd (show 0 ≤ c 0 + 1 by omega) (show c 0 + 1 < ext 0 + 1 by omega),
      lineRd (show 0 ≤ c 1 + 1 by omega) (show c 1 + 1 < ext 1 + 1 by omega), Option.bind_eq_bind, Option.bind_some]
    split
    · rfl
    · split
      · rfl
      · split <;> rfl

/-- Grid of the global array. -/
def kGrid (k : Kernels d n F) (geom : Geom) (X : Fin 3 → ℤ → F) (Gr : Cell → Fin d → F) : PGrid d F where
  x := X
  dx := fun a i => k.size (X a (i + 1)) (X a i)
  ds := kDsFun k geom X (fun a i => k.size (X a (i + 1)) (X a i)) 0
  dv := kDvFun k geom X (fun a i => k.size (X a (i + 1)) (X a i)) 0
  grav := Gr

/-- The arrays of a rank of extents `ext` hold the part of the global grid that starts at `s`. -/
structure GridData.KFits (g : GridData F) (grav : GravField d F) (k : Kernels d n F) (geom : Geom) (X : Fin 3 → ℤ → F)
    (Gr : Cell → Fin d → F) (ext s : Cell) : Prop where
  x : ∀ a, g.x a = View.line (ext a + 1) fun i => X a (i + s a)
  dx : ∀ a i, 0 ≤ i → i < ext a → (g.dx a).rd i = some ((kGrid k geom X Gr).dx a (i + s a))
  xc : ∀ a i, 0 ≤ i → i < ext a → (g.xc a).rd i = some (k.center (X a (i + s a)) (X a (i + s a + 1)))
  ds : ∀ c, inExt ext c = true → g.ds.rd c = some ((kGrid k geom X Gr).ds (c + s))
  dv : ∀ c, inExt ext c = true → g.dv.rd c = some ((kGrid k geom X Gr).dv (c + s))
  grav : ∀ c, inExt ext c = true → ∀ a, grav c a = some (Gr (c + s) a)

omit [Zero F] in
/-- A loop over the cells that computes a value from other arrays and stores it. -/
theorem parFor_store {ι V : Type} [DecidableEq ι] (l : List ι) (hl : l.Nodup) (v : View ι V)
    (body : ι → View ι V → Option (View ι V)) (g : ι → V) (hdom : ∀ i ∈ l, v.dom i = true)
    (hf : ∀ i ∈ l, ∀ w : View ι V, w.rd i = some (v.val i) → body i w = w.wr i (g i)) :
    parFor l body v = some ⟨v.dom, fun i => if i ∈ l then g i else v.val i⟩ := by
  refine parFor_update l hl v _ g fun i hi w hw hv => ?_
  have hd : w.dom i = true := by rw [hw]; exact hdom i hi
  rw [hf i hi w (by rw [View.rd_of_dom hd, hv i (Or.inr rfl)]), View.wr_of_dom hd]

theorem kSetGrid_spec (k : Kernels d n F) (geom : Geom) {nx dims rank : Cell} {ng : ℤ} (hN : ∀ a, 0 ≤ nx a)
    (hdm : ∀ a, 0 < dims a) (hr : inBox 0 dims rank) {topo : GridTopo} (ht : GridTopo.mk? d nx dims rank ng = .ok topo)
    {l1 : Fin 3 → List ℤ} (h1 : ∀ a, IsLineSchedule (l1 a) (topo.nxLocalWg a)) {r : Range} (hrg : topo.range.allGhosts = .ok r)
    {l l' : List Cell} (hl : IsSchedule l (r.cellBegin d) (r.cellEnd d)) (hl' : IsSchedule l' (r.cellBegin d) (r.cellEnd d))
    (X : Fin 3 → ℤ → F) :
    ∃ g, kSetGrid k geom topo l1 l l' (fun a => View.line (nx a + 2 * topo.nghost a + 1) (X a)) (kAlloc topo.nxLocalWg) = some g ∧
      ∀ (grav : GravField d F) (Gr : Cell → Fin d → F),
        (∀ c, inExt (localExt nx dims (nghostOf d ng) rank) c = true → ∀ a, grav c a = some (Gr (c + startCell nx dims rank) a)) →
        g.KFits grav k geom X Gr (localExt nx dims (nghostOf d ng) rank) (startCell nx dims rank) := by
  obtain ⟨e1, e2, e3, e4, e5⟩ := range_box hN hdm hr ht
  obtain ⟨f1, f2⟩ := e5 ng r (by rw [← hrg, Range.allGhosts, e4])
  have fb : r.cellBegin d = 0 := by rw [f1]; funext a; simp [nghostOf]
  have fe : r.cellEnd d = topo.nxLocalWg := by rw [f2]; funext a; simp [nghostOf]
  rw [fb, fe, e1] at hl hl'
  rw [e1] at h1
  set E := localExt nx dims (nghostOf d ng) rank with hE
  set s := startCell nx dims rank with hs
  have hx : ∀ a, topo.setNodes a (View.line (nx a + 2 * topo.nghost a + 1) (X a)) =
      some (View.line (E a + 1) fun i => X a (i + s a)) := by
    intro a
    have q1 := localStart_nonneg (r := rank a) (hN a) (hdm a) (hr a).1
    have q2 := localStart_add_size_le (r := rank a) (hN a) (hdm a) (hr a).2
    unfold GridTopo.setNodes copySlice
    rw [if_pos]
    · rw [e1, e2]
      congr 2
      funext i
      rw [add_comm i]
      rfl
    · intro i hi
      rw [mem_intRange, e1] at hi
      refine decide_eq_true ?_
      rw [e2, e3]
      simp only [hE, localExt] at hi
      simp only at hi q1 q2 ⊢
      omega
  have hin : ∀ {l : List Cell}, IsSchedule l 0 E → ∀ c, c ∈ l ↔ inExt E c = true :=
    fun hl c => (hl.2 c).trans inExt_iff.symm
  have hdx : ∀ a, parFor (l1 a) (fun i dx => do
      let xr ← (View.line (E a + 1) fun i => X a (i + s a)).rd (i + 1)
      let xl ← (View.line (E a + 1) fun i => X a (i + s a)).rd i
      dx.wr i (k.size xr xl)) (View.line (E a) 0) =
      some (View.line (E a) fun i => if i ∈ l1 a then k.size (X a (i + s a + 1)) (X a (i + s a)) else 0) := by
    intro a
    rw [parFor_store (l1 a) (h1 a).1 _ _ (fun i => k.size (X a (i + s a + 1)) (X a (i + s a)))]
    · rfl
    · intro i hi; exact decide_eq_true (((h1 a).2 i).1 hi)
    · intro i hi w _
      have h := ((h1 a).2 i).1 hi
      rw [lineRd (by omega) (by omega), lineRd h.1 (by omega)]
      simp only [Option.bind_eq_bind, Option.bind_some, add_right_comm]
  have hxc : ∀ a, parFor (l1 a) (fun i xc => do
      let xl ← (View.line (E a + 1) fun i => X a (i + s a)).rd i
      let xr ← (View.line (E a + 1) fun i => X a (i + s a)).rd (i + 1)
      xc.wr i (k.center xl xr)) (View.line (E a) 0) =
      some (View.line (E a) fun i => if i ∈ l1 a then k.center (X a (i + s a)) (X a (i + s a + 1)) else 0) := by
    intro a
    rw [parFor_store (l1 a) (h1 a).1 _ _ (fun i => k.center (X a (i + s a)) (X a (i + s a + 1)))]
    · rfl
    · intro i hi; exact decide_eq_true (((h1 a).2 i).1 hi)
    · intro i hi w _
      have h := ((h1 a).2 i).1 hi
      rw [lineRd h.1 (by omega), lineRd (by omega) (by omega)]
      simp only [Option.bind_eq_bind, Option.bind_some, add_right_comm]
  unfold kSetGrid
  rw [seqFin_some hx]
  simp only [Option.bind_eq_bind, Option.bind_some, kAlloc, e1]
  simp only [Option.bind_eq_bind] at hdx hxc
  rw [seqFin_some hdx, seqFin_some hxc]
  simp only [Option.bind_some]
  rw [parFor_store l hl.1 ⟨inExt E, 0⟩ _ (fun c => kDsFun k geom (fun a i => X a (i + s a))
      (fun a i => if i ∈ l1 a then k.size (X a (i + s a + 1)) (X a (i + s a)) else 0) 0 c)
    (fun c hc => (hin hl c).1 hc) (by
      intro c hc w hw
      rw [hw]
      simp only [Option.bind_some]
      rw [kDsCell_eq k geom E _ _ _ c ((hin hl c).1 hc)]
      rfl)]
  simp only [Option.bind_some]
  rw [parFor_store l' hl'.1 ⟨inExt E, 0⟩ _ (fun c => kDvFun k geom (fun a i => X a (i + s a))
      (fun a i => if i ∈ l1 a then k.size (X a (i + s a + 1)) (X a (i + s a)) else 0) 0 c)
    (fun c hc => (hin hl' c).1 hc) (by
      intro c hc w hw
      rw [hw]
      simp only [Option.bind_some]
      rw [kDvCell_eq k geom E _ _ _ c ((hin hl' c).1 hc)]
      rfl)]
  simp only [Option.bind_some]
  refine ⟨_, rfl, fun grav Gr hG => ⟨fun a => rfl, fun a i h0 h2 => ?_, fun a i h0 h2 => ?_, fun c hc => ?_, fun c hc => ?_, hG⟩⟩
  · rw [lineRd h0 h2, if_pos (((h1 a).2 i).2 ⟨h0, h2⟩)]
    rfl
  · rw [lineRd h0 h2, if_pos (((h1 a).2 i).2 ⟨h0, h2⟩)]
  all_goals
    have h := inExt_iff.1 hc
    have d0 : (if c 0 ∈ l1 0 then k.size (X 0 (c 0 + s 0 + 1)) (X 0 (c 0 + s 0)) else 0) = _ := if_pos (((h1 0).2 (c 0)).2 (h 0))
    have d1 : (if c 1 ∈ l1 1 then k.size (X 1 (c 1 + s 1 + 1)) (X 1 (c 1 + s 1)) else 0) = _ := if_pos (((h1 1).2 (c 1)).2 (h 1))
    have d2 : (if c 2 ∈ l1 2 then k.size (X 2 (c 2 + s 2 + 1)) (X 2 (c 2 + s 2)) else 0) = _ := if_pos (((h1 2).2 (c 2)).2 (h 2))
    rw [ext_rd hc]
  · rw [if_pos ((hin hl c).2 hc)]
    simp only [kGrid, kDsFun, d0, d1, d2, Pi.add_apply, add_right_comm _ (1 : ℤ)]
  · rw [if_pos ((hin hl' c).2 hc)]
    simp only [kGrid, kDvFun, d0, d1, d2, Pi.add_apply, add_right_comm _ (1 : ℤ)]

end Grid

/-! ### Arrays that hold their part of a global function -/

/-- The array of extents `E` holds, in the cells of `B`, the part of `W` that starts at `s`. -/
structure On {V : Type} (E s : Cell) (B : Cell → Prop) (v : View Cell V) (W : Cell → V) : Prop where
  dom : v.dom = inExt E
  val : ∀ c, B c → v.val c = W (c + s)

section On
variable {V V' : Type} {E s : Cell} {B : Cell → Prop}

theorem On.rd {v : View Cell V} {W : Cell → V} (h : On E s B v W) {c : Cell} (hc : inExt E c = true) (hB : B c) :
    v.rd c = some (W (c + s)) := by
  rw [View.rd_of_dom (by rw [h.dom]; exact hc), h.val c hB]

theorem On.comp {v : View Cell V} {W : Cell → V} (h : On E s B v W) (f : V → V') :
    On E s B (v.comp f) fun c => f (W c) :=
  ⟨h.dom, fun c hc => congrArg f (h.val c hc)⟩

theorem seqFin_on {m : ℕ} {f : Fin m → Option V} {P : Fin m → V → Prop} (h : ∀ i, ∃ v, f i = some v ∧ P i v) :
    ∃ vs, seqFin f = some vs ∧ ∀ i, P i (vs i) := by
  choose g h1 h2 using h
  exact ⟨g, seqFin_some h1, h2⟩

/-- A loop that stores in each cell of a box what it computes there. -/
theorem parFor_on {l : List Cell} {b e : Cell} (hl : IsSchedule l b e) (hin : ∀ c, inBox b e c → inExt E c = true)
    {out : View Cell V} (hout : out.dom = inExt E) {body : Cell → View Cell V → Option (View Cell V)} {f : Cell → V}
    (hf : ∀ c, inBox b e c → ∀ w : View Cell V, w.rd c = some (out.val c) → body c w = w.wr c (f (c + s))) :
    ∃ v, parFor l body out = some v ∧ On E s (inBox b e) v f := by
  refine ⟨_, parFor_store l hl.1 out body (fun c => f (c + s)) (fun c hc => ?_) fun c hc => hf c ((hl.2 c).1 hc),
    hout, fun c hc => if_pos ((hl.2 c).2 hc)⟩
  rw [hout]
  exact hin c ((hl.2 c).1 hc)

end On

/-! ### The kernels of a step -/

section Step
variable [Zero F]

/-- Geometric data of a cell of the global array. -/
def PGrid.kDirGeo (p : PGrid d F) (geom : Geom) (a : Fin d) (c : Cell) : DirGeo F :=
  match geom with
  | .cartesian => { dv := p.dv c, dsL := p.ds c (ax a), dsR := p.ds (nb c (ax a) 1) (ax a), x0 := 0, x0p := 0, x1 := 0, x1p := 0 }
  | .spherical => { dv := p.dv c, dsL := p.ds c (ax a), dsR := p.ds (nb c (ax a) 1) (ax a)
                    x0 := p.x 0 (c 0), x0p := p.x 0 (c 0 + 1), x1 := p.x 1 (c 1), x1p := p.x 1 (c 1 + 1) }

variable {k : Kernels d n F} {geom : Geom} {X : Fin 3 → ℤ → F} {Gr : Cell → Fin d → F} {E s : Cell} {g : GridData F}
  {grav : GravField d F}

theorem kDirGeo_eq (hd : d ≤ 3) (hg : g.KFits grav k geom X Gr E s) (a : Fin d) (c : Cell) (hc : inExt E c = true)
    (hp : inExt E (nb c (ax a) 1) = true) : g.kDirGeo geom a c = some ((kGrid k geom X Gr).kDirGeo geom a (c + s)) := by
  have h := inExt_iff.1 hc
  have e : rindex a.val c = nb c (ax a) 1 := rindex_eq hd a c
  unfold GridData.kDirGeo
  rw [e, hg.dv c hc, hg.ds c hc, hg.ds _ hp, ← nb_add]
  simp only [Option.bind_eq_bind, Option.bind_some]
  cases geom
  · rfl
  · have h0 := h 0
    have h1 := h 1
    simp only [hg.x]
    rw [lineRd h0.1 (by omega), lineRd (by omega) (by omega), lineRd h1.1 (by omega), lineRd (by omega) (by omega)]
    simp only [add_right_comm _ (1 : ℤ)]
    rfl

omit [Zero F] in
/-- Size of a cell of the global array along a direction. -/
def kLen (k : Kernels d n F) (p : PGrid d F) (a : Fin d) (c : Cell) : F :=
  k.len a (p.dx 0 (c 0)) (p.dx 1 (c 1)) (p.dx 2 (c 2))

theorem kCellLen_eq (hg : g.KFits grav k geom X Gr E s) (a : Fin d) {c : Cell} (hc : inExt E c = true) :
    kCellLen k g.dx a c = some (kLen k (kGrid k geom X Gr) a (c + s)) := by
  have h := inExt_iff.1 hc
  unfold kCellLen
  rw [hg.dx 0 _ (h 0).1 (h 0).2, hg.dx 1 _ (h 1).1 (h 1).2, hg.dx 2 _ (h 2).1 (h 2).2]
  rfl

/-- Reconstructed values of a variable on the faces of a cell of the global array. -/
def kReconVal (k : Kernels d n F) (p : PGrid d F) (var : Cell → F) (c : Cell) (side : Fin 2) (a : Fin d) : F :=
  k.recon (kLen k p a (nb c (ax a) (-1))) (kLen k p a c) (kLen k p a (nb c (ax a) 1)) (var (nb c (ax a) (-1))) (var c)
    (var (nb c (ax a) 1)) side

theorem kFaceReconstruct_on (hd : d ≤ 3) (hg : g.KFits grav k geom X Gr E s) {l : List Cell} {b e : Cell}
    (hl : IsSchedule l b e) (hst : ∀ c, inBox b e c → inExt E c = true ∧ StencilIn d E c) {var : View Cell F} {W : Cell → F}
    (hv : On E s (fun c => inExt E c = true) var W) {out : FaceArr d F} (hout : out.dom = inExt E) :
    ∃ v, kFaceReconstruct k g.dx l var out = some v ∧ On E s (inBox b e) v (kReconVal k (kGrid k geom X Gr) W) := by
  refine parFor_on hl (fun c hc => (hst c hc).1) hout fun c hc w _ => ?_
  obtain ⟨h0, hs⟩ := hst c hc
  have hm := fun a => hs a (-1) (by norm_num) (by norm_num)
  have hp := fun a => hs a 1 (by norm_num) (by norm_num)
  have em : ∀ a : Fin d, lindex a.val c = nb c (ax a) (-1) := fun a => lindex_eq hd a c
  have ep : ∀ a : Fin d, rindex a.val c = nb c (ax a) 1 := fun a => rindex_eq hd a c
  unfold kReconCell
  rw [seqFin_some (g := fun a side => kReconVal k (kGrid k geom X Gr) W (c + s) side a) (fun a => by
    simp only [em, ep]
    rw [kCellLen_eq hg a h0, kCellLen_eq hg a (hm a), kCellLen_eq hg a (hp a), hv.rd (hp a) (hp a), hv.rd h0 h0,
      hv.rd (hm a) (hm a)]
    simp only [← nb_add]
    rfl)]
  rfl

/-- Reconstructed velocity and pressure. -/
def kFaceUP (k : Kernels d n F) (p : PGrid d F) (UP : Cell → VelPres d F) (c : Cell) (side : Fin 2) (a : Fin d) : VelPres d F :=
  { u := fun i => kReconVal k p (fun c => (UP c).u i) c side a
    P := kReconVal k p (fun c => (UP c).P) c side a }

/-- Reconstructed fields before the predictor. -/
def kFaceFields (k : Kernels d n F) (p : PGrid d F) (W : Cell → Fields d n F) (UP : Cell → VelPres d F) (c : Cell)
    (side : Fin 2) (a : Fin d) : Fields d n F :=
  let q := k.cons (kReconVal k p (fun c => (W c).rho) c side a) (kFaceUP k p UP c side a)
  { rho := kReconVal k p (fun c => (W c).rho) c side a, rhou := q.rhou, E := q.E
    fx := fun i => kReconVal k p (fun c => (W c).fx i) c side a }

/-- Face states after reconstruction and predictor. -/
def kRecVal (k : Kernels d n F) (geom : Geom) (p : PGrid d F) (dt : F) (W : Cell → Fields d n F) (UP : Cell → VelPres d F)
    (c : Cell) (side : Fin 2) (a : Fin d) : Fields d n F :=
  k.predictFx (k.predict dt (fun a => p.kDirGeo geom a c) (p.grav c) (kFaceUP k p UP c) (kFaceFields k p W UP c) side a)

theorem kHancock_on (hd : d ≤ 3) (hg : g.KFits grav k geom X Gr E s) (dt : F) {l l' : List Cell} {b e : Cell}
    (hl : IsSchedule l b e) (hl' : IsSchedule l' b e) (hst : ∀ c, inBox b e c → inExt E c = true ∧ StencilIn d E c)
    {up : FaceArr d (VelPres d F)} {rec : FaceArr d (Fields d n F)} {UR : Cell → Fin 2 → Fin d → VelPres d F}
    {R : Cell → Fin 2 → Fin d → Fields d n F} (hup : On E s (inBox b e) up UR) (hrec : On E s (inBox b e) rec R) :
    ∃ v, kHancock k geom g grav dt l l' up rec = some v ∧ On E s (inBox b e) v fun c side a =>
      k.predictFx (k.predict dt (fun a => (kGrid k geom X Gr).kDirGeo geom a c) (Gr c) (UR c) (R c) side a) := by
  obtain ⟨v, h1, h2⟩ := parFor_on (s := s) hl (fun c hc => (hst c hc).1) hrec.dom (body := fun c w => do
      let q ← up.rd c
      let old ← w.rd c
      let dg ← seqFin fun idim : Fin d => g.kDirGeo geom idim c
      let gr ← seqFin fun idim : Fin d => grav c idim
      w.wr c (k.predict dt dg gr q old))
    (f := fun c => k.predict dt (fun a => (kGrid k geom X Gr).kDirGeo geom a c) (Gr c) (UR c) (R c)) (by
      intro c hc w hw
      obtain ⟨h0, hs⟩ := hst c hc
      rw [hup.rd h0 hc, hw, hrec.val c hc, seqFin_some fun a => kDirGeo_eq hd hg a c h0 (hs a 1 (by norm_num) (by norm_num)),
        seqFin_some (hg.grav c h0)]
      rfl)
  obtain ⟨v', h1', h2'⟩ := parFor_on (s := s) hl' (fun c hc => (hst c hc).1) h2.dom (body := fun c w => do
      let old ← w.rd c
      w.wr c fun side idim => k.predictFx (old side idim))
    (f := fun c side a =>
      k.predictFx (k.predict dt (fun a => (kGrid k geom X Gr).kDirGeo geom a c) (Gr c) (UR c) (R c) side a)) (by
      intro c hc w hw
      rw [hw, h2.val c hc]
      rfl)
  refine ⟨v', ?_, h2'⟩
  unfold kHancock
  rw [h1]
  exact h1'

theorem kReconstruct_on (hd : d ≤ 3) (hg : g.KFits grav k geom X Gr E s) (dt : F) {sc : RecScheds d n} {b e : Cell}
    (hsc : sc.Ok b e) (hst : ∀ c, inBox b e c → inExt E c = true ∧ StencilIn d E c) {U : View Cell (Fields d n F)}
    {up : View Cell (VelPres d F)} {upRec : FaceArr d (VelPres d F)} {rec : FaceArr d (Fields d n F)}
    {W : Cell → Fields d n F} {UP : Cell → VelPres d F} (hU : On E s (fun c => inExt E c = true) U W)
    (hup : On E s (fun c => inExt E c = true) up UP) (hur : upRec.dom = inExt E) (hr : rec.dom = inExt E) :
    ∃ v, kReconstruct k geom g grav dt sc U up upRec rec = some v ∧
      On E s (inBox b e) v (kRecVal k geom (kGrid k geom X Gr) dt W UP) := by
  obtain ⟨rho, r1, r2⟩ := kFaceReconstruct_on hd hg hsc.rho hst (hU.comp (·.rho))
    (out := rec.comp fun f side a => (f side a).rho) hr
  obtain ⟨u, u1, u2⟩ := seqFin_on fun i : Fin d => kFaceReconstruct_on hd hg (hsc.u i) hst (hup.comp (·.u i))
    (out := upRec.comp fun f side a => (f side a).u i) hur
  obtain ⟨p, p1, p2⟩ := kFaceReconstruct_on hd hg hsc.P hst (hup.comp (·.P))
    (out := upRec.comp fun f side a => (f side a).P) hur
  obtain ⟨fx, f1, f2⟩ := seqFin_on fun i : Fin n => kFaceReconstruct_on hd hg (hsc.fx i) hst (hU.comp (·.fx i))
    (out := rec.comp fun f side a => (f side a).fx i) hr
  have hq : On E s (inBox b e) (⟨upRec.dom, fun c side a => { u := fun i => (u i).val c side a, P := p.val c side a }⟩ :
      FaceArr d (VelPres d F)) (kFaceUP k (kGrid k geom X Gr) UP) := by
    refine ⟨hur, fun c hc => ?_⟩
    funext side a
    simp only [kFaceUP, p2.val c hc, fun i => (u2 i).val c hc]
  obtain ⟨me, m1, m2⟩ := seqFin_on (P := fun (side : Fin 2) (v : Fin d → View Cell (MomEn d F)) => ∀ a, On E s (inBox b e) (v a)
      fun c => k.cons (kReconVal k (kGrid k geom X Gr) (fun c => (W c).rho) c side a) (kFaceUP k (kGrid k geom X Gr) UP c side a))
    (fun side : Fin 2 => seqFin_on (fun a : Fin d => by
      refine parFor_on (s := s) (hsc.conv side a) (fun c hc => (hst c hc).1) (out := rec.comp fun f =>
          ({ rhou := (f side a).rhou, E := (f side a).E } : MomEn d F)) hr (body := fun c out => do
        let r ← (rho.comp fun f => f side a).rd c
        let q ← (View.comp (⟨upRec.dom, fun c side a => { u := fun i => (u i).val c side a, P := p.val c side a }⟩ :
          FaceArr d (VelPres d F)) fun f => f side a).rd c
        out.wr c (k.cons r q))
        (f := fun c => k.cons (kReconVal k (kGrid k geom X Gr) (fun c => (W c).rho) c side a)
          (kFaceUP k (kGrid k geom X Gr) UP c side a)) (fun c hc w _ => ?_)
      have h0 := (hst c hc).1
      rw [(r2.comp fun f => f side a).rd h0 hc, (hq.comp fun f => f side a).rd h0 hc]
      rfl))
  have hR : On E s (inBox b e) (⟨rec.dom, fun c side a =>
      { rho := rho.val c side a, rhou := ((me side a).val c).rhou, E := ((me side a).val c).E
        fx := fun i => (fx i).val c side a }⟩ : FaceArr d (Fields d n F)) (kFaceFields k (kGrid k geom X Gr) W UP) := by
    refine ⟨hr, fun c hc => ?_⟩
    funext side a
    simp only [kFaceFields, r2.val c hc, fun side a => (m2 side a).val c hc, fun i => (f2 i).val c hc]
  obtain ⟨v, v1, v2⟩ := kHancock_on hd hg dt hsc.han hsc.hanFx hst hq hR
  refine ⟨v, ?_, v2⟩
  unfold kReconstruct
  rw [r1]
  simp only [Option.bind_eq_bind, Option.bind_some]
  rw [u1, p1, f1]
  simp only [Option.bind_some]
  unfold kPrimToCons
  rw [m1]
  exact v1

/-- The Godunov update of a cell of the global array. -/
def kGodVal (k : Kernels d n F) (geom : Geom) (p : PGrid d F) (dt : F) (W : Cell → Fields d n F)
    (R : Cell → Fin 2 → Fin d → Fields d n F) (c : Cell) : Fields d n F :=
  k.updateFx (k.update dt (fun a => p.kDirGeo geom a c) (p.grav c) (W c) (fun a => R (nb c (ax a) (-1))) (R c)
    (fun a => R (nb c (ax a) 1)))

theorem kGodunov_on (hd : d ≤ 3) (hg : g.KFits grav k geom X Gr E s) (dt : F) {l l' : List Cell} {b e : Cell} {B : Cell → Prop}
    (hl : IsSchedule l b e) (hl' : IsSchedule l' b e) (hst : ∀ c, inBox b e c → inExt E c = true ∧ StencilIn d E c)
    (hB : ∀ c, inBox b e c → B c ∧ ∀ a : Fin d, B (nb c (ax a) (-1)) ∧ B (nb c (ax a) 1))
    {U new : View Cell (Fields d n F)} {rec : FaceArr d (Fields d n F)} {W : Cell → Fields d n F}
    {R : Cell → Fin 2 → Fin d → Fields d n F} (hU : On E s (fun c => inExt E c = true) U W) (hrec : On E s B rec R)
    (hnew : new.dom = inExt E) :
    ∃ v, kGodunov k geom g grav dt l l' U rec new = some v ∧ On E s (inBox b e) v (kGodVal k geom (kGrid k geom X Gr) dt W R) := by
  obtain ⟨v, h1, h2⟩ := parFor_on (s := s) hl (fun c hc => (hst c hc).1) hnew (body := fun c w => do
      let t ← U.rd c
      let dg ← seqFin fun idim : Fin d => g.kDirGeo geom idim c
      let gr ← seqFin fun idim : Fin d => grav c idim
      let rm ← seqFin fun idim : Fin d => rec.rd (lindex idim.val c)
      let r0 ← rec.rd c
      let rp ← seqFin fun idim : Fin d => rec.rd (rindex idim.val c)
      w.wr c (k.update dt dg gr t rm r0 rp))
    (f := fun c => k.update dt (fun a => (kGrid k geom X Gr).kDirGeo geom a c) (Gr c) (W c) (fun a => R (nb c (ax a) (-1))) (R c)
      (fun a => R (nb c (ax a) 1))) (by
      intro c hc w hw
      obtain ⟨h0, hs⟩ := hst c hc
      obtain ⟨b0, bs⟩ := hB c hc
      have em : ∀ a : Fin d, lindex a.val c = nb c (ax a) (-1) := fun a => lindex_eq hd a c
      have ep : ∀ a : Fin d, rindex a.val c = nb c (ax a) 1 := fun a => rindex_eq hd a c
      simp only [em, ep]
      rw [hU.rd h0 h0, seqFin_some fun a => kDirGeo_eq hd hg a c h0 (hs a 1 (by norm_num) (by norm_num)),
        seqFin_some (hg.grav c h0), seqFin_some fun a => hrec.rd (hs a (-1) (by norm_num) (by norm_num)) (bs a).1,
        hrec.rd h0 b0, seqFin_some fun a => hrec.rd (hs a 1 (by norm_num) (by norm_num)) (bs a).2]
      simp only [← nb_add]
      rfl)
  obtain ⟨v', h1', h2'⟩ := parFor_on (s := s) hl' (fun c hc => (hst c hc).1) h2.dom (body := fun c w => do
      let t ← w.rd c
      w.wr c (k.updateFx t))
    (f := kGodVal k geom (kGrid k geom X Gr) dt W R) (by
      intro c hc w hw
      rw [hw, h2.val c hc]
      rfl)
  refine ⟨v', ?_, h2'⟩
  unfold kGodunov
  rw [h1]
  exact h1'

/-- The pressure fix in a cell of the global array. -/
def kFixVal (k : Kernels d n F) (p : PGrid d F) (dt : F) (W : Cell → Fields d n F) (R : Cell → Fin 2 → Fin d → Fields d n F)
    (Q : Cell → Fields d n F) (c : Cell) : Fields d n F :=
  if k.fixOn (W c) then
    { Q c with
      E := k.fixE dt (W c) (Q c) (fun a => W (nb c (ax a) (-1))) (fun a => W (nb c (ax a) 1)) (R c)
        (fun a => R (nb c (ax a) (-1))) (fun a => R (nb c (ax a) 1)) (p.ds c) (fun a => p.ds (nb c (ax a) 1)) (p.dv c) }
  else Q c

theorem kPressureFix_on (hd : d ≤ 3) (hg : g.KFits grav k geom X Gr E s) (dt : F) {l : List Cell} {b e : Cell} {B : Cell → Prop}
    (hl : IsSchedule l b e) (hst : ∀ c, inBox b e c → inExt E c = true ∧ StencilIn d E c)
    (hB : ∀ c, inBox b e c → B c ∧ ∀ a : Fin d, B (nb c (ax a) (-1)) ∧ B (nb c (ax a) 1))
    {U new : View Cell (Fields d n F)} {rec : FaceArr d (Fields d n F)} {W Q : Cell → Fields d n F}
    {R : Cell → Fin 2 → Fin d → Fields d n F} (hU : On E s (fun c => inExt E c = true) U W) (hrec : On E s B rec R)
    (hnew : On E s (inBox b e) new Q) :
    ∃ v, kPressureFix k g dt l U rec new = some v ∧ On E s (inBox b e) v (kFixVal k (kGrid k geom X Gr) dt W R Q) := by
  refine parFor_on hl (fun c hc => (hst c hc).1) hnew.dom fun c hc w hw => ?_
  obtain ⟨h0, hs⟩ := hst c hc
  obtain ⟨b0, bs⟩ := hB c hc
  have em : ∀ a : Fin d, lindex a.val c = nb c (ax a) (-1) := fun a => lindex_eq hd a c
  have ep : ∀ a : Fin d, rindex a.val c = nb c (ax a) 1 := fun a => rindex_eq hd a c
  have sm := fun a => hs a (-1) (by norm_num) (by norm_num)
  have sp := fun a => hs a 1 (by norm_num) (by norm_num)
  simp only [em, ep]
  rw [hw, hU.rd h0 h0, hnew.val c hc]
  simp only [Option.bind_eq_bind, Option.bind_some]
  unfold kFixVal
  by_cases hf : k.fixOn (W (c + s)) = true
  · rw [if_pos hf, if_pos hf, hrec.rd h0 b0, seqFin_some fun a => hrec.rd (sm a) (bs a).1,
      seqFin_some fun a => hrec.rd (sp a) (bs a).2, seqFin_some fun a => hU.rd (sm a) (sm a),
      seqFin_some fun a => hU.rd (sp a) (sp a), hg.ds c h0, seqFin_some fun a => hg.ds _ (sp a), hg.dv c h0]
    simp only [Option.bind_some, ← nb_add]
  · rw [if_neg hf, if_neg hf]

/-- A step of a cell of the global array. -/
def kStepVal (k : Kernels d n F) (geom : Geom) (p : PGrid d F) (dt : F) (W : Cell → Fields d n F) (UP : Cell → VelPres d F) :
    Cell → Fields d n F :=
  kFixVal k p dt W (kRecVal k geom p (k.half dt) W UP) (kGodVal k geom p dt W (kRecVal k geom p (k.half dt) W UP))

theorem kStep_on (hd : d ≤ 3) (hg : g.KFits grav k geom X Gr E s) (dt : F) {ng : ℤ} (hng : 2 ≤ ng) {sc : RecScheds d n}
    (hsc : sc.Ok (nghostOf d (ng - 1)) (fun a => E a - nghostOf d (ng - 1) a)) {l l' lf : List Cell}
    (hl : IsSchedule l (nghostOf d ng) (fun a => E a - nghostOf d ng a))
    (hl' : IsSchedule l' (nghostOf d ng) (fun a => E a - nghostOf d ng a))
    (hlf : IsSchedule lf (nghostOf d ng) (fun a => E a - nghostOf d ng a)) {U new : View Cell (Fields d n F)}
    {up : View Cell (VelPres d F)} {upRec : FaceArr d (VelPres d F)} {rec : FaceArr d (Fields d n F)}
    {W : Cell → Fields d n F} {UP : Cell → VelPres d F} (hU : On E s (fun c => inExt E c = true) U W)
    (hup : On E s (fun c => inExt E c = true) up UP) (hur : upRec.dom = inExt E) (hr : rec.dom = inExt E)
    (hnew : new.dom = inExt E) :
    ∃ v, kStep k geom g grav dt sc l l' lf U up upRec rec new = some v ∧
      On E s (layer d E ng) v (kStepVal k geom (kGrid k geom X Gr) dt W UP) := by
  have hst : ∀ m, 1 ≤ m → ∀ c, layer d E m c → inExt E c = true ∧ StencilIn d E c := fun m hm c hc =>
    ⟨layer_inExt hc (by omega), layer_stencil hd hc hm⟩
  have hB : ∀ c, layer d E ng c → layer d E (ng - 1) c ∧
      ∀ a : Fin d, layer d E (ng - 1) (nb c (ax a) (-1)) ∧ layer d E (ng - 1) (nb c (ax a) 1) := fun c hc =>
    ⟨layer_mono hc (by omega), fun a =>
      ⟨layer_nb hd hc a (by norm_num) (by norm_num), layer_nb hd hc a (by norm_num) (by norm_num)⟩⟩
  obtain ⟨v, v1, v2⟩ := kReconstruct_on hd hg (k.half dt) hsc (hst (ng - 1) (by omega)) hU hup hur hr
  obtain ⟨v', v1', v2'⟩ := kGodunov_on hd hg dt hl hl' (hst ng (by omega)) hB hU v2 hnew
  obtain ⟨v'', v1'', v2''⟩ := kPressureFix_on hd hg dt hlf (hst ng (by omega)) hB hU v2 v2'
  refine ⟨v'', ?_, v2''⟩
  unfold kStep
  rw [v1]
  simp only [Option.bind_eq_bind, Option.bind_some]
  rw [v1']
  exact v1''

end Step

/-! ### Time step -/

section TimeStep
variable [Zero F] [LinearOrder F]

/-- Rate of a cell of the global array. -/
def kRateVal (k : Kernels d n F) (geom : Geom) (X : Fin 3 → ℤ → F) (W : Cell → Fields d n F) (UP : Cell → VelPres d F)
    (c : Cell) : F :=
  k.rate (W c).rho (UP c) ![k.size (X 0 (c 0 + 1)) (X 0 (c 0)), k.size (X 1 (c 1 + 1)) (X 1 (c 1)),
    k.size (X 2 (c 2 + 1)) (X 2 (c 2))] (k.center (X 0 (c 0)) (X 0 (c 0 + 1))) (k.center (X 1 (c 1)) (X 1 (c 1 + 1)))

omit [LinearOrder F] in
theorem kCellInverseDt_eq {k : Kernels d n F} {geom : Geom} {X : Fin 3 → ℤ → F} {Gr : Cell → Fin d → F} {E s : Cell}
    {g : GridData F} {grav : GravField d F} (hg : g.KFits grav k geom X Gr E s) {U : View Cell (Fields d n F)}
    {up : View Cell (VelPres d F)} {W : Cell → Fields d n F} {UP : Cell → VelPres d F}
    (hU : On E s (fun c => inExt E c = true) U W) (hup : On E s (fun c => inExt E c = true) up UP) {c : Cell}
    (hc : inExt E c = true) :
    kCellInverseDt k g (U.comp Fields.rho) up c = some (kRateVal k geom X W UP (c + s)) := by
  have h := inExt_iff.1 hc
  unfold kCellInverseDt
  rw [(hU.comp Fields.rho).rd hc hc, hup.rd hc hc, hg.dx 0 _ (h 0).1 (h 0).2, hg.dx 1 _ (h 1).1 (h 1).2,
    hg.dx 2 _ (h 2).1 (h 2).2, hg.xc 0 _ (h 0).1 (h 0).2, hg.xc 1 _ (h 1).1 (h 1).2]
  rfl

omit [Zero F] in
/-- The global maximum is one of the values and an upper bound of all of them. -/
theorem kTimeStep_max {R : Type} {lo : F} (k : Kernels d n F) {ranks : List R} {parts : R → List (List Cell)}
    {g : R → GridData F} {rho : R → View Cell F} {up : R → View Cell (VelPres d F)} {rate : R → Cell → F}
    (h : ∀ r ∈ ranks, ∀ c ∈ (parts r).flatten, kCellInverseDt k (g r) (rho r) (up r) c = some (rate r c)) (hne : ranks ≠ []) :
    ∃ m, kTimeStep lo k ranks parts g rho up = some (k.inv m) ∧ lo ≤ m ∧
      (∀ r ∈ ranks, ∀ c ∈ (parts r).flatten, rate r c ≤ m) ∧
      (m = lo ∨ ∃ r ∈ ranks, ∃ c ∈ (parts r).flatten, m = rate r c) := by
  have h1 := fun r (hr : r ∈ ranks) => parReduce_eq (e := lo) (join := kmax) (op := kmax) (h r hr)
  obtain ⟨v, vs, e, e'⟩ := allReduce_some (op := kmax) (l := ranks.map fun r =>
    ((parts r).map fun l => l.foldl (fun s c => kmax s (rate r c)) lo).foldl kmax lo) (fun h => hne (List.map_eq_nil_iff.1 h))
  obtain ⟨f1, f2, f3⟩ := foldl_max vs id v
  simp only [id] at f1 f2 f3
  have hall : ∀ r ∈ ranks, ((parts r).map fun l => l.foldl (fun s c => kmax s (rate r c)) lo).foldl kmax lo ≤
      vs.foldl kmax v := by
    intro r hr
    have hm : ((parts r).map fun l => l.foldl (fun s c => kmax s (rate r c)) lo).foldl kmax lo ∈ v :: vs := by
      rw [← e]; exact List.mem_map.2 ⟨r, hr, rfl⟩
    rcases List.mem_cons.1 hm with h | h
    · exact h.le.trans f1
    · exact f2 _ h
  have hmem : vs.foldl kmax v ∈ v :: vs := by
    rcases f3 with h | ⟨i, hi, h⟩
    · exact List.mem_cons.2 (Or.inl h)
    · exact List.mem_cons.2 (Or.inr (by rw [h]; exact hi))
  rw [← e] at hmem
  obtain ⟨r, hr, er⟩ := List.mem_map.1 hmem
  refine ⟨vs.foldl kmax v, ?_, ?_, fun r hr c hc => ?_, ?_⟩
  · unfold kTimeStep
    rw [mapM_some ranks h1]
    simp only [Option.bind_eq_bind, Option.bind_some]
    rw [e']
    rfl
  · rw [← er]
    exact (parReduce_max (e := lo) (parts := parts r) (rate r)).1
  · exact ((parReduce_max (e := lo) (parts := parts r) (rate r)).2.1 c hc).trans (hall r hr)
  · rcases (parReduce_max (e := lo) (parts := parts r) (rate r)).2.2 with h | ⟨c, hc, h⟩
    · exact Or.inl (er.symm.trans h)
    · exact Or.inr ⟨r, hr, c, hc, er.symm.trans h⟩

end TimeStep

end Heracles
