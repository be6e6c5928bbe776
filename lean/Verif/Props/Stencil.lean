import Verif.Lemmas.Geometry

/-!
# C23 Memory safety of a step
-/

namespace Heracles

variable {d n : ℕ} {K : Type} [Field K] [LinearOrder K]

/-- The grid arrays have the extents given to them by the constructor of `Grid`. -/
structure GridData.Sized (g : GridData K) (ext : Cell) : Prop where
  x : ∀ a i, (g.x a).dom i = true ↔ 0 ≤ i ∧ i < ext a + 1
  dx : ∀ a i, (g.dx a).dom i = true ↔ 0 ≤ i ∧ i < ext a
  ds : ∀ c, g.ds.dom c = true ↔ inExt ext c = true
  dv : ∀ c, g.dv.dom c = true ↔ inExt ext c = true

omit [LinearOrder K] in
/-- Arrays of the right extents fit the functions they contain. -/
theorem GridData.Sized.fits {g : GridData K} {ext : Cell} (h : g.Sized ext) (grav : GravField d K)
    (hg : ∀ c, inExt ext c = true → ∀ a, (grav c a).isSome) :
    g.Fits grav ext ⟨fun a => (g.x a).val, fun a => (g.dx a).val, g.ds.val, g.dv.val, fun c a => (grav c a).getD 0⟩ := by
  refine ⟨fun a => View.ext' (funext fun i => ?_) rfl, fun a => View.ext' (funext fun i => ?_) rfl,
    View.ext' (funext fun c => ?_) rfl, View.ext' (funext fun c => ?_) rfl, fun c hc a => ?_⟩
  · exact Bool.eq_iff_iff.2 ((h.x a i).trans (by simp [View.line]))
  · exact Bool.eq_iff_iff.2 ((h.dx a i).trans (by simp [View.line]))
  · exact Bool.eq_iff_iff.2 (h.ds c)
  · exact Bool.eq_iff_iff.2 (h.dv c)
  · have := hg c hc a
    rw [Option.isSome_iff_exists] at this
    obtain ⟨y, hy⟩ := this
    show grav c a = some ((grav c a).getD 0)
    rw [hy]
    rfl

theorem eq_ext {V : Type} {ext : Cell} {v : View Cell V} (h : ∀ c, v.dom c = true ↔ inExt ext c = true) :
    v = ⟨inExt ext, v.val⟩ := View.ext' (funext fun c => Bool.eq_iff_iff.2 (h c)) rfl

/-- C23: with at least two ghost layers the reconstruction (on `range.with_ghosts(1)`) and the Godunov update (on
`range.no_ghosts()`) of any rank read and write inside the arrays, for every solver, limiter, geometry, data and
execution order. -/
theorem C23_in_bounds (hd : d ≤ 3) {nx dims rank : Cell} {ng : ℤ} (hng : 2 ≤ ng) (hN : ∀ a, 0 ≤ nx a)
    (hdm : ∀ a, 0 < dims a) (hr : inBox 0 dims rank) {topo : GridTopo} (ht : GridTopo.mk? d nx dims rank ng = .ok topo)
    (lim : Limiter) (sol : Solver) (eos : EoS K) (tr : Trig K) (geom : Geom) {g : GridData K} (hg : g.Sized topo.nxLocalWg)
    {grav : GravField d K} (hgr : ∀ c, inExt topo.nxLocalWg c = true → ∀ a, (grav c a).isSome) (dt : K)
    (U new : View Cell (Fields d n K)) (up : View Cell (VelPres d K)) (upRec : FaceArr d (VelPres d K))
    (rec : FaceArr d (Fields d n K)) (hU : ∀ c, U.dom c = true ↔ inExt topo.nxLocalWg c = true)
    (hnew : ∀ c, new.dom c = true ↔ inExt topo.nxLocalWg c = true)
    (hup : ∀ c, up.dom c = true ↔ inExt topo.nxLocalWg c = true)
    (hupr : ∀ c, upRec.dom c = true ↔ inExt topo.nxLocalWg c = true)
    (hrec : ∀ c, rec.dom c = true ↔ inExt topo.nxLocalWg c = true) :
    ∃ r1 r0, topo.range.withGhosts 1 = .ok r1 ∧ topo.range.noGhosts = .ok r0 ∧
      ∀ (sc : RecScheds d n) (l l' : List Cell), sc.Ok (r1.cellBegin d) (r1.cellEnd d) →
        IsSchedule l (r0.cellBegin d) (r0.cellEnd d) → IsSchedule l' (r0.cellBegin d) (r0.cellEnd d) →
        ∃ out, hydroStep lim sol eos tr geom g grav dt sc l l' U up upRec rec new = some out := by
  obtain ⟨e1, e2, e3, e4, e5⟩ := range_box hN hdm hr ht
  have h1 : topo.range.withGhosts 1 = .ok { topo.range with ngEff := 1 } := by
    rw [Range.withGhosts, if_neg (by omega)]
  have h0 : topo.range.noGhosts = .ok { topo.range with ngEff := 0 } := by
    rw [Range.noGhosts, Range.withGhosts, if_neg (by omega)]
  refine ⟨_, _, h1, h0, fun sc l l' hsc hl hl' => ?_⟩
  obtain ⟨f1, f2⟩ := e5 1 _ h1
  obtain ⟨f3, f4⟩ := e5 0 _ h0
  rw [f1, f2] at hsc
  rw [f3, f4, sub_zero] at hl hl'
  rw [eq_ext hU, eq_ext hnew, eq_ext hup, eq_ext hupr, eq_ext hrec]
  exact ⟨_, hydroStep_eq hd lim sol eos tr geom (hg.fits grav hgr) dt hng hsc hl hl' _ _ _ _ _⟩

omit [Field K] [LinearOrder K] in
/-- A loop fails if one of its iterations fails whatever the state. -/
theorem parFor_none {ι S : Type} (l : List ι) (body : ι → S → Option S) {i : ι} (hi : i ∈ l) (h : ∀ s, body i s = none)
    (s : S) : parFor l body s = none := by
  induction l generalizing s with
  | nil => cases hi
  | cons j l ih =>
    rw [parFor_cons]
    rcases List.mem_cons.1 hi with rfl | hj
    · rw [h]; rfl
    · cases body j s with
      | none => rfl
      | some t => exact ih hj t

omit [LinearOrder K] in
private theorem cellLen_none (dx : Fin 3 → View ℤ K) (a : Fin d) {c : Cell} {b : Fin 3} (h : (dx b).dom (c b) = false) :
    cellLen dx a c = none := by
  unfold cellLen
  have hb := View.rd_eq_none h
  have : b = 0 ∨ b = 1 ∨ b = 2 := by clear h hb; revert b; decide
  rcases this with rfl | rfl | rfl
  · rw [hb]; rfl
  · rw [hb]; cases (dx 0).rd (c 0) <;> rfl
  · rw [hb]; cases (dx 0).rd (c 0) <;> [rfl; (cases (dx 1).rd (c 1) <;> rfl)]

/-- C23: with a single ghost layer, any rank that owns cells reads outside the arrays in the first kernel of the step,
in every execution order. -/
theorem C23_one_ghost_reads_out_of_bounds (hd : d ≤ 3) (hd1 : 1 ≤ d) {nx dims rank : Cell} (hN : ∀ a, 0 ≤ nx a)
    (hdm : ∀ a, 0 < dims a) (hr : inBox 0 dims rank) {topo : GridTopo} (ht : GridTopo.mk? d nx dims rank 1 = .ok topo)
    (hne : ∀ a, 1 ≤ topo.nxLocal a) (lim : Limiter) (sol : Solver) (eos : EoS K) (tr : Trig K) (geom : Geom)
    {g : GridData K} (hg : g.Sized topo.nxLocalWg) (grav : GravField d K) (dt : K)
    (U new : View Cell (Fields d n K)) (up : View Cell (VelPres d K)) (upRec : FaceArr d (VelPres d K))
    (rec : FaceArr d (Fields d n K)) :
    ∃ r1, topo.range.withGhosts 1 = .ok r1 ∧
      ∀ (sc : RecScheds d n) (l l' : List Cell), sc.Ok (r1.cellBegin d) (r1.cellEnd d) →
        hydroStep lim sol eos tr geom g grav dt sc l l' U up upRec rec new = none := by
  obtain ⟨t', ht', -, -, q3, q4, q5, -⟩ := GridTopo.mk?_ok (ndim := d) (ng := 1) hN hdm (fun a => (hr a).1)
  rw [ht] at ht'
  cases ht'
  obtain ⟨e1, e2, e3, e4, e5⟩ := range_box hN hdm hr ht
  have h1 : topo.range.withGhosts 1 = .ok { topo.range with ngEff := 1 } := by
    rw [Range.withGhosts, if_neg (by omega)]
  refine ⟨_, h1, fun sc l l' hsc => ?_⟩
  obtain ⟨f1, f2⟩ := e5 1 _ h1
  have hs := hsc.rho
  rw [f1, f2] at hs
  have hmem : (0 : Cell) ∈ sc.rho := by
    rw [hs.2]
    intro a
    have h := hne a
    rw [q3] at h
    simp only [nghostOf, sub_self, ite_self, Pi.zero_apply, q5, sub_zero, le_refl, true_and]
    simp only at h
    split <;> omega
  have hfail : faceReconstruct (d := d) lim g.dx sc.rho (U.comp (·.rho)) (rec.comp fun f side a => (f side a).rho) = none := by
    refine parFor_none _ _ hmem (fun w => ?_) _
    have : reconCell (d := d) lim g.dx (U.comp (·.rho)) 0 = none := by
      unfold reconCell seqFin
      rw [dif_neg]
      intro h
      have h0 := h ⟨0, hd1⟩
      have hl : cellLen (d := d) g.dx ⟨0, hd1⟩ (lindex ((⟨0, hd1⟩ : Fin d) : ℕ) 0) = none := by
        refine cellLen_none g.dx _ (b := 0) ?_
        rw [Bool.eq_false_iff, Ne, hg.dx]
        simp [lindex, kron]
      dsimp only at h0 hl
      rw [hl] at h0
      cases h' : cellLen (d := d) g.dx ⟨0, hd1⟩ 0 <;> rw [h'] at h0 <;> simp at h0
    rw [this]
    rfl
  unfold hydroStep hydroReconstruct
  rw [hfail]
  rfl

omit [Field K] [LinearOrder K] in
/-- C23: without ghost cells the step is rejected when the range of the reconstruction is requested. -/
theorem C23_no_ghost_rejected {nx dims rank : Cell} (hN : ∀ a, 0 ≤ nx a) (hdm : ∀ a, 0 < dims a) (hr : inBox 0 dims rank)
    {topo : GridTopo} (ht : GridTopo.mk? d nx dims rank 0 = .ok topo) : ∃ e, topo.range.withGhosts 1 = .error e := by
  obtain ⟨-, -, -, e4, -⟩ := range_box hN hdm hr ht
  exact ⟨_, by rw [Range.withGhosts, if_pos (by omega)]⟩

omit [LinearOrder K] in
/-- C23: the gravity functors read inside their arrays (3 components for a uniform field, one value per radial index
including ghosts for the radial fields). -/
theorem C23_gravity_in_bounds (hd : d ≤ 3) (ext : Cell) (g3 gr : ℤ → K) (c : Cell) (hc : inExt ext c = true) (a : Fin d) :
    (uniformGravity (View.line 3 g3) c a : Option K) = some (g3 a.val) ∧
    (radialGravity (View.line (ext 0) gr) c a : Option K) = some (if a.val = 0 then gr (c 0) else 0) := by
  have h0 := inExt_iff.1 hc 0
  have := a.isLt
  refine ⟨line_rd (by omega) (by omega), ?_⟩
  unfold radialGravity
  split
  · exact line_rd h0.1 h0.2
  · rfl

/-- A grid of extents `ext` containing given functions, for the examples. -/
def gridOf (ext : Cell) (p : PGrid d K) : GridData K :=
  { x := fun a => View.line (ext a + 1) (p.x a), xc := fun a => View.line (ext a) 0, dx := fun a => View.line (ext a) (p.dx a)
    ds := ⟨inExt ext, p.ds⟩, dv := ⟨inExt ext, p.dv⟩ }

omit [LinearOrder K] in
theorem gridOf_sized (ext : Cell) (p : PGrid d K) : (gridOf ext p).Sized ext :=
  ⟨fun a i => by simp [gridOf, View.line], fun a i => by simp [gridOf, View.line], fun _ => Iff.rfl, fun _ => Iff.rfl⟩

omit [LinearOrder K] in
theorem gridOf_fits (ext : Cell) (p : PGrid d K) : (gridOf ext p).Fits (fun c a => some (p.grav c a)) ext p :=
  ⟨fun _ => rfl, fun _ => rfl, rfl, rfl, fun _ _ _ => rfl⟩

/-- Non-trivial instance: two ranks in 2D, 10 × 7 cells, 2 ghosts. -/
example : ∃ topo, GridTopo.mk? 2 ![10, 7, 1] ![2, 1, 1] ![1, 0, 0] 2 = .ok topo ∧ (2 : ℤ) ≤ 2 ∧
    (gridOf (d := 2) topo.nxLocalWg ⟨fun _ i => (i : ℚ), 1, 1, 1, 0⟩).Sized topo.nxLocalWg := by
  obtain ⟨topo, h, _⟩ := GridTopo.mk?_ok (ndim := 2) (nx := ![10, 7, 1])
    (dims := ![2, 1, 1]) (rank := ![1, 0, 0]) (ng := 2) (by decide) (by decide) (by decide)
  exact ⟨topo, h, le_refl _, gridOf_sized _ _⟩

example : ∃ topo, GridTopo.mk? 1 ![10, 1, 1] ![3, 1, 1] ![1, 0, 0] 1 = .ok topo ∧ ∀ a, 1 ≤ topo.nxLocal a := by
  obtain ⟨topo, h, _, _, e3, _⟩ := GridTopo.mk?_ok (ndim := 1) (nx := ![10, 1, 1])
    (dims := ![3, 1, 1]) (rank := ![1, 0, 0]) (ng := 1) (by decide) (by decide) (by decide)
  exact ⟨topo, h, by rw [e3]; decide⟩

example : ∃ topo, GridTopo.mk? 1 ![10, 1, 1] ![3, 1, 1] ![1, 0, 0] 0 = .ok topo := by
  obtain ⟨topo, h, _⟩ := GridTopo.mk?_ok (ndim := 1) (nx := ![10, 1, 1])
    (dims := ![3, 1, 1]) (rank := ![1, 0, 0]) (ng := 0) (by decide) (by decide) (by decide)
  exact ⟨topo, h⟩

example : inExt ![14, 5, 1] ![13, 4, 0] = true := by decide

end Heracles
