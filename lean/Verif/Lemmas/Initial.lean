import Verif.Spec.Initial
import Verif.Lemmas.Distributed
import Verif.Lemmas.Kokkos

/-!
# Initialisations that depend on the position only
-/

namespace Heracles

variable {d n : ℕ}

/-- What the arrays of a rank hold in the cell `c`. -/
structure CellData (g : GridData ℝ) (grav : GravField d ℝ) (c : Cell) (xl xm : Fin 3 → ℝ) (dv : ℝ) (gr : Fin d → ℝ) : Prop where
  x : ∀ a, (g.x a).rd (c a) = some (xl a)
  xc : ∀ a, (g.xc a).rd (c a) = some (xm a)
  dv : g.dv.rd c = some dv
  grav : ∀ a, grav c a = some (gr a)

/-- A rank sees in each of its cells, ghosts included, the data of the global cell. -/
theorem RankGrid.cell {tr : Trig ℝ} {geom : Geom} {nx dims : Cell} {ng : ℤ} {X : Fin 3 → ℤ → ℝ} {Gr : Cell → Fin d → ℝ} {rank : Cell}
    {topo : GridTopo} {g : GridData ℝ} {grav : GravField d ℝ} (hN : ∀ a, 0 ≤ nx a) (hdm : ∀ a, 0 < dims a) (hr : inBox 0 dims rank)
    (h : RankGrid tr geom nx dims ng X Gr rank topo g grav) {c : Cell} (hc : inExt (localExt nx dims (nghostOf d ng) rank) c = true) :
    CellData g grav c
      (fun a => X a (globalOf nx dims (nghostOf d ng) rank c a + nghostOf d ng a))
      (fun a => (X a (globalOf nx dims (nghostOf d ng) rank c a + nghostOf d ng a) +
        X a (globalOf nx dims (nghostOf d ng) rank c a + nghostOf d ng a + 1)) / 2)
      ((globGrid tr geom X Gr).dv (globalOf nx dims (nghostOf d ng) rank c + nghostOf d ng))
      (Gr (globalOf nx dims (nghostOf d ng) rank c)) := by
  obtain ⟨e1, e2, e3, e4, e5⟩ := range_box hN hdm hr h.ok
  obtain ⟨l1, r, l, l', h1, hrg, hl, hl', hg⟩ := h.grid
  obtain ⟨g', hg', hxc, hp⟩ := setGrid_spec tr geom hN hdm hr h.ok h1 hrg hl hl' X
  rw [hg] at hg'
  cases hg'
  rw [e1] at hp hxc
  obtain ⟨p, q1, q2, q3, q4⟩ := hp (fun c => Gr (globalOf nx dims (nghostOf d ng) rank c)) grav h.grav
  have hx : ∀ a i, p.x a i = X a (i + startCell nx dims rank a) := fun a i => by rw [q4, e2, add_comm]; rfl
  have hs : c + startCell nx dims rank = globalOf nx dims (nghostOf d ng) rank c + nghostOf d ng := by
    funext a
    simp only [globalOf, startCell, Pi.add_apply]
    ring
  have hsa : ∀ a, c a + startCell nx dims rank a = globalOf nx dims (nghostOf d ng) rank c a + nghostOf d ng a := fun a => congrFun hs a
  have hb := inExt_iff.1 hc
  refine ⟨fun a => ?_, fun a => ?_, ?_, h.grav c hc⟩
  · rw [q1.x a, line_rd (hb a).1 (by linarith [(hb a).2]), hx, hsa]
  · rw [hxc a, line_rd (hb a).1 (hb a).2, if_pos ⟨(hb a).1, (hb a).2⟩, e2]
    have : localStart (nx a) (dims a) (rank a) + c a = globalOf nx dims (nghostOf d ng) rank c a + nghostOf d ng a := by
      simp only [globalOf]; ring
    simp only [← add_assoc, this]
  · rw [q1.dv, ext_rd hc, (geo_shift (Gr := Gr) q2 hx).2.2 c hc, hs]

/-- The interior of a rank lies in its arrays. -/
theorem rank_interior_inExt {nx dims rank : Cell} {ng : ℤ} (hng : 0 ≤ ng) {c : Cell}
    (hc : inBox (nghostOf d ng) (fun a => localExt nx dims (nghostOf d ng) rank a - nghostOf d ng a) c) :
    inExt (localExt nx dims (nghostOf d ng) rank) c = true := by
  refine inExt_iff.2 fun a => ?_
  have h0 : 0 ≤ nghostOf d ng a := by unfold nghostOf; split <;> omega
  have h2 := (hc a).2
  have h1 := (hc a).1
  dsimp only at h2
  omega

/-- A loop whose body writes `W c` in every cell. -/
theorem initLoop_eq {l : List Cell} (hl : l.Nodup) {k : InitKernel d n} {ext : Cell} {W : Cell → InitCell d n}
    (hdom : ∀ c ∈ l, inExt ext c = true) (hk : ∀ c ∈ l, k c ⟨0, 0, 0, 0⟩ = some (W c)) :
    initLoop l k ⟨inExt ext, fun _ => ⟨0, 0, 0, 0⟩⟩ = some ⟨inExt ext, fun c => if c ∈ l then W c else ⟨0, 0, 0, 0⟩⟩ := by
  unfold initLoop
  refine parFor_update l hl _ _ W fun c hc w hw1 hw2 => ?_
  have h1 : w.rd c = some ⟨0, 0, 0, 0⟩ := by rw [View.rd_of_dom (by rw [hw1]; exact hdom c hc), hw2 c (Or.inr rfl)]
  simp only [h1, Option.bind_eq_bind, Option.bind_some, hk c hc]
  exact View.wr_of_dom (by rw [hw1]; exact hdom c hc)

/-- The value written in a cell depends on the data of that cell only. -/
def Positional (S : Setup d n) : Prop := ∃ F : (Fin 3 → ℝ) → (Fin 3 → ℝ) → ℝ → (Fin d → ℝ) → InitCell d n,
  ∀ q topo g grav c xl xm dv gr, CellData g grav c xl xm dv gr → S q topo g grav c ⟨0, 0, 0, 0⟩ = some (F xl xm dv gr)

theorem rank_noGhosts_box {nx dims rank : Cell} {ng : ℤ} (hN : ∀ a, 0 ≤ nx a) (hdm : ∀ a, 0 < dims a) (hr : inBox 0 dims rank)
    {topo : GridTopo} (ht : GridTopo.mk? d nx dims rank ng = .ok topo) {r : Range} (h : topo.range.noGhosts = .ok r) :
    topo.nxLocalWg = localExt nx dims (nghostOf d ng) rank ∧ r.cellBegin d = nghostOf d ng ∧
    r.cellEnd d = fun a => localExt nx dims (nghostOf d ng) rank a - nghostOf d ng a := by
  obtain ⟨e1, e2, e3, e4, e5⟩ := range_box hN hdm hr ht
  obtain ⟨f1, f2⟩ := e5 0 r h
  rw [sub_zero] at f1 f2
  exact ⟨e1, f1, by rw [f2, e1]⟩

/-- It is enough that the body of the loop writes the values of one global state. -/
theorem initialState_of_kernel {D : Cell → Prop} {S : Setup d n} {tr : Trig ℝ} {geom : Geom} {nx : Cell} {ng : ℤ} {X : Fin 3 → ℤ → ℝ}
    {Gr : Cell → Fin d → ℝ} (hN : ∀ a, 0 ≤ nx a) (hng : 0 ≤ ng) (W : Cell → InitCell d n)
    (h : ∀ dims rank topo g grav, D dims → (∀ a, 0 < dims a) → inBox 0 dims rank → RankGrid tr geom nx dims ng X Gr rank topo g grav →
      ∀ c, inBox (nghostOf d ng) (fun a => localExt nx dims (nghostOf d ng) rank a - nghostOf d ng a) c →
        S (cartRank dims rank) topo g grav c ⟨0, 0, 0, 0⟩ = some (W (globalOf nx dims (nghostOf d ng) rank c))) :
    InitialState D S tr geom nx ng X Gr W := by
  intro dims rank topo g grav r l hD hdm hr hg hrg hl
  obtain ⟨e1, f1, f2⟩ := rank_noGhosts_box hN hdm hr hg.ok hrg
  rw [f1, f2] at hl ⊢
  rw [e1]
  have hin : ∀ c ∈ l, inExt (localExt nx dims (nghostOf d ng) rank) c = true := fun c hc => rank_interior_inExt hng ((hl.2 c).1 hc)
  refine ⟨_, initLoop_eq hl.1 hin fun c hc => h dims rank topo g grav hD hdm hr hg c ((hl.2 c).1 hc), rfl, fun c hc => ?_⟩
  exact if_pos ((hl.2 c).2 hc)

theorem sameInitial_of_kernel {D : Cell → Prop} {S : Setup d n} {tr : Trig ℝ} {geom : Geom} {nx : Cell} {ng : ℤ} {X : Fin 3 → ℤ → ℝ}
    {Gr : Cell → Fin d → ℝ} (hN : ∀ a, 0 ≤ nx a) (hng : 0 ≤ ng) (W : Cell → InitCell d n)
    (h : ∀ dims rank topo g grav, D dims → (∀ a, 0 < dims a) → inBox 0 dims rank → RankGrid tr geom nx dims ng X Gr rank topo g grav →
      ∀ c, inBox (nghostOf d ng) (fun a => localExt nx dims (nghostOf d ng) rank a - nghostOf d ng a) c →
        S (cartRank dims rank) topo g grav c ⟨0, 0, 0, 0⟩ = some (W (globalOf nx dims (nghostOf d ng) rank c))) :
    SameInitialOn D S tr geom nx ng X Gr := ⟨W, initialState_of_kernel hN hng W h⟩

theorem Positional.free {S : Setup d n} (h : Positional S) : DecompositionFree S := by
  obtain ⟨F, hF⟩ := h
  intro tr geom nx ng X Gr hN hng
  refine sameInitial_of_kernel hN hng (fun C => F (fun a => X a (C a + nghostOf d ng a))
    (fun a => (X a (C a + nghostOf d ng a) + X a (C a + nghostOf d ng a + 1)) / 2)
    ((globGrid tr geom X Gr).dv (C + nghostOf d ng)) (Gr C)) ?_
  intro dims rank topo g grav _ hdm hr hg c hc
  exact hF _ _ _ _ c _ _ _ _ (hg.cell hN hdm hr (rank_interior_inExt hng hc))

/-- Every rank has such a grid. -/
theorem exists_rankGrid (tr : Trig ℝ) (geom : Geom) {nx dims rank : Cell} {ng : ℤ} (hN : ∀ a, 0 ≤ nx a) (hdm : ∀ a, 0 < dims a)
    (hng : 0 ≤ ng) (hr : inBox 0 dims rank) (X : Fin 3 → ℤ → ℝ) (Gr : Cell → Fin d → ℝ) :
    ∃ topo g r, RankGrid tr geom nx dims ng X Gr rank topo g
      (fun c a => some (Gr (globalOf nx dims (nghostOf d ng) rank c) a)) ∧ topo.range.noGhosts = .ok r := by
  obtain ⟨topo, ht, -, -, -, -, -, -, -, -, -, -, e11, -⟩ :=
    GridTopo.mk?_ok (ndim := d) (ng := ng) hN hdm (fun a => (hr a).1)
  obtain ⟨r, hrg⟩ : ∃ r, topo.range.allGhosts = .ok r := by
    unfold Range.allGhosts Range.withGhosts
    rw [if_neg (by omega)]
    exact ⟨_, rfl⟩
  obtain ⟨r', hrg'⟩ : ∃ r, topo.range.noGhosts = .ok r := by
    unfold Range.noGhosts Range.withGhosts
    rw [if_neg (by omega)]
    exact ⟨_, rfl⟩
  obtain ⟨g, hg, -⟩ := setGrid_spec tr geom hN hdm hr ht (l1 := fun a => intRange 0 (topo.nxLocalWg a))
    (fun a => ⟨intRange_nodup _ _, fun i => mem_intRange⟩) hrg (boxList_isSchedule _ _) (boxList_isSchedule _ _) X
  exact ⟨topo, g, r', ⟨ht, ⟨_, r, _, _, fun a => ⟨intRange_nodup _ _, fun i => mem_intRange⟩, hrg, boxList_isSchedule _ _,
    boxList_isSchedule _ _, hg⟩, fun c hc a => rfl⟩, hrg'⟩

/-- What a decomposition independent initialisation writes in a cell, seen from any rank that owns it. -/
theorem SameInitial.value {S : Setup d n} {tr : Trig ℝ} {geom : Geom} {nx : Cell} {ng : ℤ} {X : Fin 3 → ℤ → ℝ} {Gr : Cell → Fin d → ℝ}
    (h : SameInitial S tr geom nx ng X Gr) (hN : ∀ a, 0 ≤ nx a) (hng : 0 ≤ ng) : ∃ W : Cell → InitCell d n,
    ∀ dims rank, (∀ a, 0 < dims a) → inBox 0 dims rank → ∃ topo g, RankGrid tr geom nx dims ng X Gr rank topo g
      (fun c a => some (Gr (globalOf nx dims (nghostOf d ng) rank c) a)) ∧
      ∀ T : Cell → InitCell d n, (∀ c, inBox (nghostOf d ng) (fun a => localExt nx dims (nghostOf d ng) rank a - nghostOf d ng a) c →
        S (cartRank dims rank) topo g (fun c a => some (Gr (globalOf nx dims (nghostOf d ng) rank c) a)) c ⟨0, 0, 0, 0⟩ = some (T c)) →
        ∀ c, inBox (nghostOf d ng) (fun a => localExt nx dims (nghostOf d ng) rank a - nghostOf d ng a) c →
          T c = W (globalOf nx dims (nghostOf d ng) rank c) := by
  obtain ⟨W, hW⟩ := h
  refine ⟨W, fun dims rank hdm hr => ?_⟩
  obtain ⟨topo, g, r, hg, hrg⟩ := exists_rankGrid tr geom hN hdm hng hr X Gr
  refine ⟨topo, g, hg, fun T hT c hc => ?_⟩
  obtain ⟨v, h1, h2, h3⟩ := hW dims rank topo g _ r _ trivial hdm hr hg hrg (boxList_isSchedule _ _)
  obtain ⟨e1, f1, f2⟩ := rank_noGhosts_box hN hdm hr hg.ok hrg
  rw [f1, f2, e1] at h1
  rw [f1, f2] at h3
  have hl := boxList_isSchedule (nghostOf d ng) (fun a => localExt nx dims (nghostOf d ng) rank a - nghostOf d ng a)
  rw [initLoop_eq hl.1 (fun c hc => rank_interior_inExt hng ((hl.2 c).1 hc)) (fun c hc => hT c ((hl.2 c).1 hc))] at h1
  cases h1
  rw [← h3 c hc]
  exact (if_pos ((hl.2 c).2 hc)).symm

/-- The process grid determines the initial state of the domain. -/
theorem InitialState.unique {D : Cell → Prop} {S : Setup d n} {tr : Trig ℝ} {geom : Geom} {nx : Cell} {ng : ℤ} {X : Fin 3 → ℤ → ℝ}
    {Gr : Cell → Fin d → ℝ} {W W' : Cell → InitCell d n} (h : InitialState D S tr geom nx ng X Gr W)
    (h' : InitialState D S tr geom nx ng X Gr W') (hN : ∀ a, 0 ≤ nx a) (hng : 0 ≤ ng) {dims : Cell} (hD : D dims) (hdm : ∀ a, 0 < dims a)
    {C : Cell} (hC : inBox 0 nx C) : W C = W' C := by
  choose rank r1 r2 r3 r4 using fun a => exists_owner (hN a) (hdm a) (hC a).1 (hC a).2
  have hr : inBox 0 dims rank := fun a => ⟨r1 a, r2 a⟩
  obtain ⟨topo, g, r, hg, hrg⟩ := exists_rankGrid tr geom hN hdm hng hr X Gr
  obtain ⟨v, h1, h2, h3⟩ := h dims rank topo g _ r _ hD hdm hr hg hrg (boxList_isSchedule _ _)
  obtain ⟨v', h1', h2', h3'⟩ := h' dims rank topo g _ r _ hD hdm hr hg hrg (boxList_isSchedule _ _)
  rw [h1] at h1'
  cases h1'
  obtain ⟨e1, f1, f2⟩ := rank_noGhosts_box hN hdm hr hg.ok hrg
  rw [f1, f2] at h3 h3'
  have hc : inBox (nghostOf d ng) (fun a => localExt nx dims (nghostOf d ng) rank a - nghostOf d ng a)
      (fun a => C a - localStart (nx a) (dims a) (rank a) + nghostOf d ng a) := fun a => by
    have := r3 a
    have := r4 a
    simp only [localExt]
    omega
  have hg' : globalOf nx dims (nghostOf d ng) rank (fun a => C a - localStart (nx a) (dims a) (rank a) + nghostOf d ng a) = C := by
    funext a
    simp only [globalOf]
    ring
  have := h3 _ hc
  rw [h3' _ hc, hg'] at this
  exact this.symm

end Heracles
