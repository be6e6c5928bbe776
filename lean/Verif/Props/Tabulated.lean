import Verif.Model.Tabulated
import Verif.Props.Restart
import Verif.Lemmas.Initial
import Mathlib.Data.List.ProdSigma

/-!
# C70: the setup `v1d` starts from the tabulated profile, on every process grid
-/

namespace Heracles

variable {d n : ℕ}

/-! ### Transfers -/

theorem indices1 (b m : ℤ) : indices [b] [m] = (intRange 0 m).map fun i => [b + i] := by
  simp [indices, intRange_shift b, List.flatMap_map, ← List.map_eq_flatMap]

theorem indices2 (a b k m : ℤ) : indices [a, b] [k, m] = ((intRange 0 k) ×ˢ (intRange 0 m)).map fun p => [a + p.1, b + p.2] := by
  simp [indices, intRange_shift a, intRange_shift b, List.flatMap_map, ← List.map_eq_flatMap, List.map_flatMap, Function.comp_def,
    SProd.sprod, List.product]

/-- A reading whose selections are the images of one list of positions. -/
theorem h5Read_scatter {α V : Type} (l : List α) {sizes : List ℤ} {ms ds : Hyperslab} {im id : α → List ℤ}
    (hm : indices ms.start ms.size = l.map im) (hd : indices ds.start ds.size = l.map id) {dset : View (List ℤ) V} {mem : View ℤ V}
    (h1 : ∀ a ∈ l, dset.dom (id a) = true) (h2 : ∀ a ∈ l, mem.dom (rowMajor sizes (im a)) = true)
    (hinj : ∀ a ∈ l, ∀ b ∈ l, rowMajor sizes (im a) = rowMajor sizes (im b) → dset.val (id a) = dset.val (id b)) :
    ∃ w, h5Read sizes ms ds dset mem = some w ∧ w.dom = mem.dom ∧ ∀ a ∈ l, w.val (rowMajor sizes (im a)) = dset.val (id a) := by
  unfold h5Read
  simp only [hm, hd, List.length_map, if_true, List.zip_map', parFor_map]
  obtain ⟨w, e1, e2, -, e4⟩ := parFor_scatter l (fun a => rowMajor sizes (im a)) (fun a => dset.val (id a))
    (fun a mem => (dset.rd (id a)).bind fun v => mem.wr (rowMajor sizes (im a)) v) mem
    (fun a ha w hw => by rw [View.rd_of_dom (h1 a ha), Option.bind_some, View.wr_of_dom (by rw [hw]; exact h2 a ha)]) hinj
  exact ⟨w, e1, e2, e4⟩

theorem readProfile_eq {t : GridTopo} {s : H5Dataset} {N : ℤ} (hs : s.sizes = [N]) (h0 : 0 ≤ t.range.cornerMin 0)
    (h1 : t.range.cornerMin 0 + t.nxLocal 0 ≤ N) :
    ∃ w, readProfile t s = some w ∧ ∀ i, 0 ≤ i → i < t.nxLocal 0 → w.rd i = some (s.val [t.range.cornerMin 0 + i]) := by
  have k1 : ∀ i ∈ intRange 0 (t.nxLocal 0), s.view.dom [t.range.cornerMin 0 + i] = true := fun i hi => by
    have := mem_intRange.1 hi
    simp [H5Dataset.view, hs, datasetDom]
    omega
  have k2 : ∀ i ∈ intRange 0 (t.nxLocal 0), (View.line (t.nxLocal 0) fun _ => (0 : ℝ)).dom (rowMajor [t.nxLocal 0] [0 + i]) = true := fun i hi => by
    have := mem_intRange.1 hi
    simp [rowMajor, View.line]
    omega
  obtain ⟨w, e1, e2, e3⟩ := h5Read_scatter (intRange 0 (t.nxLocal 0)) (sizes := [t.nxLocal 0]) (ms := ⟨[0], [t.nxLocal 0]⟩)
    (ds := ⟨[t.range.cornerMin 0], [t.nxLocal 0]⟩) (dset := s.view) (mem := View.line (t.nxLocal 0) fun _ => 0)
    (indices1 _ _) (indices1 _ _) k1 k2 (fun i hi j hj e => by simp [rowMajor] at e; rw [e])
  refine ⟨w, e1, fun i hi hi' => ?_⟩
  have h := e3 i (mem_intRange.2 ⟨hi, hi'⟩)
  have hr : rowMajor [t.nxLocal 0] [0 + i] = i := by simp [rowMajor]
  rw [hr] at h
  rw [View.rd_of_dom (by rw [e2]; simp [View.line, hi, hi']), h]
  rfl

theorem readScalars_eq {t : GridTopo} {s : H5Dataset} {N : ℤ} (hs : s.sizes = [(n : ℤ), N]) (h0 : 0 ≤ t.range.cornerMin 0)
    (h1 : t.range.cornerMin 0 + t.nxLocal 0 ≤ N) :
    ∃ w, readScalars n t s = some w ∧ ∀ l : Fin n, ∀ i, 0 ≤ i → i < t.nxLocal 0 →
      (column (t.nxLocal 0) w l.val).rd i = some (s.val [(l.val : ℤ), t.range.cornerMin 0 + i]) := by
  unfold readScalars
  by_cases hn : 0 < n
  swap
  · rw [if_neg hn]
    exact ⟨_, rfl, fun l => absurd (lt_of_le_of_lt (Nat.zero_le _) l.isLt) hn⟩
  rw [if_pos hn]
  have hrow : ∀ k i : ℤ, rowMajor [(n : ℤ), t.nxLocal 0] [0 + k, 0 + i] = offsetLeft ![t.nxLocal 0, 1, 1] ![i, 0, 0] k := by
    intro k i
    simp [rowMajor, offsetLeft]
    ring
  have hb : ∀ {i : ℤ}, 0 ≤ i ∧ i < t.nxLocal 0 → ∀ a, 0 ≤ (![i, 0, 0] : Cell) a ∧ (![i, 0, 0] : Cell) a < (![t.nxLocal 0, 1, 1] : Cell) a := by
    intro i hi a
    fin_cases a
    · exact hi
    · exact ⟨le_rfl, one_pos⟩
    · exact ⟨le_rfl, one_pos⟩
  have hmem : ∀ p ∈ (intRange 0 (n : ℤ)) ×ˢ (intRange 0 (t.nxLocal 0)), (0 ≤ p.1 ∧ p.1 < n) ∧ 0 ≤ p.2 ∧ p.2 < t.nxLocal 0 := by
    intro p hp
    have := List.mem_product.1 hp
    exact ⟨mem_intRange.1 this.1, mem_intRange.1 this.2⟩
  have k1 : ∀ p ∈ (intRange 0 (n : ℤ)) ×ˢ (intRange 0 (t.nxLocal 0)), s.view.dom [0 + p.1, t.range.cornerMin 0 + p.2] = true := fun p hp => by
    have := hmem p hp
    simp [H5Dataset.view, hs, datasetDom]
    omega
  have k2 : ∀ p ∈ (intRange 0 (n : ℤ)) ×ˢ (intRange 0 (t.nxLocal 0)),
      (View.line ((n : ℤ) * t.nxLocal 0) fun _ => (0 : ℝ)).dom (rowMajor [(n : ℤ), t.nxLocal 0] [0 + p.1, 0 + p.2]) = true := fun p hp => by
    have hob := offset_bounds (hb (hmem p hp).2) (hmem p hp).1
    rw [hrow]
    simp only [Matrix.cons_val_zero, Matrix.cons_val_one, Matrix.cons_val, one_mul] at hob
    simp only [View.line, decide_eq_true_eq]
    rw [mul_comm (n : ℤ)]
    exact hob
  obtain ⟨w, e1, e2, e3⟩ := h5Read_scatter ((intRange 0 (n : ℤ)) ×ˢ (intRange 0 (t.nxLocal 0))) (sizes := [(n : ℤ), t.nxLocal 0])
    (ms := ⟨[0, 0], [(n : ℤ), t.nxLocal 0]⟩) (ds := ⟨[0, t.range.cornerMin 0], [(n : ℤ), t.nxLocal 0]⟩) (dset := s.view)
    (mem := View.line ((n : ℤ) * t.nxLocal 0) fun _ => 0) (indices2 _ _ _ _) (indices2 _ _ _ _) k1 k2 (fun p hp q hq e => by
      rw [hrow, hrow] at e
      obtain ⟨e1, e2⟩ := offset_inj (hb (hmem p hp).2) (hb (hmem q hq).2) e
      have : p.2 = q.2 := congrFun e1 0
      rw [e2, this])
  refine ⟨w, e1, fun l i hi hi' => ?_⟩
  have h := e3 ((l.val : ℤ), i) (List.mem_product.2 ⟨mem_intRange.2 ⟨by positivity, by exact_mod_cast l.isLt⟩, mem_intRange.2 ⟨hi, hi'⟩⟩)
  have hob := offset_bounds (L := (n : ℤ)) (hb ⟨hi, hi'⟩) ⟨(by positivity : (0 : ℤ) ≤ l.val), by exact_mod_cast l.isLt⟩
  rw [hrow] at h
  have ho : offsetLeft ![t.nxLocal 0, 1, 1] ![i, 0, 0] (l.val : ℤ) = i + t.nxLocal 0 * l.val := by simp [offsetLeft]
  rw [ho] at h hob
  rw [View.rd_of_dom]
  · simp only [column, h]
    simp [H5Dataset.view]
  · simp only [column, e2, View.line]
    simp only [Matrix.cons_val_zero, Matrix.cons_val_one, Matrix.cons_val, one_mul] at hob
    rw [mul_comm (n : ℤ)]
    simp only [hi, hi', hob.1, hob.2, and_self, decide_true, Bool.and_self]

/-! ### Broadcasts -/

theorem broadcastLine_rank {l : List Cell} {b e ext : Cell} (hl : IsSchedule l b e) (hin : ∀ c, inBox b e c → inExt ext c = true) {g : ℤ}
    {v : View ℤ ℝ} {f : Cell → ℝ} (hv : ∀ c, inBox b e c → v.rd (c 0 - g) = some (f c)) {out : View Cell ℝ} (ho : out.dom = inExt ext) :
    ∃ w, broadcastLine g l v out = some w ∧ w.dom = out.dom ∧ (∀ c, inBox b e c → w.val c = f c) ∧ ∀ c, ¬ inBox b e c → w.val c = out.val c := by
  refine ⟨_, parFor_update l hl.1 out _ f fun c hc w hw _ => ?_, rfl, fun c hc => if_pos ((hl.2 c).2 hc), fun c hc => if_neg fun h => hc ((hl.2 c).1 h)⟩
  have hc' := (hl.2 c).1 hc
  simp only [hv c hc', Option.bind_eq_bind, Option.bind_some]
  exact View.wr_of_dom (by rw [hw, ho]; exact hin c hc')

theorem broadcastScalar_rank {l : List Cell} {b e ext : Cell} (hl : IsSchedule l b e) (hin : ∀ c, inBox b e c → inExt ext c = true) (x : ℝ)
    {out : View Cell ℝ} (ho : out.dom = inExt ext) :
    ∃ w, broadcastScalar l x out = some w ∧ w.dom = out.dom ∧ (∀ c, inBox b e c → w.val c = x) ∧ ∀ c, ¬ inBox b e c → w.val c = out.val c := by
  refine ⟨_, parFor_update l hl.1 out _ (fun _ => x) fun c hc w hw _ => ?_, rfl, fun c hc => if_pos ((hl.2 c).2 hc), fun c hc => if_neg fun h => hc ((hl.2 c).1 h)⟩
  exact View.wr_of_dom (by rw [hw, ho]; exact hin c ((hl.2 c).1 hc))

/-! ### The property -/

/-- The state of the cell of global index `C`: the profiles at the first index, whatever the others; the flow is along the first axis. -/
noncomputable def profileState (rho u P : ℤ → ℝ) (fx : Fin n → ℤ → ℝ) (C : Cell) : InitCell d n :=
  ⟨rho (C 0), fun i => if i.val = 0 then u (C 0) else 0, P (C 0), fun l => fx l (C 0)⟩

/-- A file with the profiles of a domain of `N` cells along the first direction. -/
structure TabFile.Holds (f : TabFile) (N : ℤ) (rho u P : ℤ → ℝ) (fx : Fin n → ℤ → ℝ) : Prop where
  rho : ∃ s, f.rho = some s ∧ s.sizes = [N] ∧ ∀ i, 0 ≤ i → i < N → s.val [i] = rho i
  u : ∃ s, f.u = some s ∧ s.sizes = [N] ∧ ∀ i, 0 ≤ i → i < N → s.val [i] = u i
  P : ∃ s, f.P = some s ∧ s.sizes = [N] ∧ ∀ i, 0 ≤ i → i < N → s.val [i] = P i
  fx : ∃ s, f.fx = some s ∧ s.sizes = [(n : ℤ), N] ∧ ∀ l : Fin n, ∀ i, 0 ≤ i → i < N → s.val [(l.val : ℤ), i] = fx l i

/-- Arrays of a rank. -/
structure InitArrays.Fits (v : InitArrays d n) (ext : Cell) : Prop where
  rho : v.rho.dom = inExt ext
  u : ∀ i, (v.u i).dom = inExt ext
  P : v.P.dom = inExt ext
  fx : ∀ i, (v.fx i).dom = inExt ext

/-- The contents of a cell. -/
def InitArrays.at (v : InitArrays d n) (c : Cell) : InitCell d n :=
  ⟨v.rho.val c, fun i => (v.u i).val c, v.P.val c, fun i => (v.fx i).val c⟩

/-- The orders of all loops are orders of the box `[b, e)`. -/
structure TabScheds.Ok (l : TabScheds d n) (b e : Cell) : Prop where
  rho : IsSchedule l.rho b e
  u : ∀ i, IsSchedule (l.u i) b e
  P : IsSchedule l.P b e
  fx : ∀ i, IsSchedule (l.fx i) b e

theorem checkExtent_ok {s : H5Dataset} {sizes : List ℤ} (h : s.sizes = sizes) : checkExtent (some s) sizes = .ok s := by
  simp [checkExtent, h5Open, h, bind, Except.bind]

/-- **C70.** Every rank of every process grid finds in each interior cell the values of the profiles at the index of the cell in the whole
domain; no other cell is changed; nothing is read or written out of bounds. Any number of directions and of passive scalars, any ghost
width, any order of the loops. -/
theorem C70_profile {nx : Cell} {ng : ℤ} (hN : ∀ a, 0 ≤ nx a) (hng : 0 ≤ ng) {dims rank : Cell} (hdm : ∀ a, 0 < dims a)
    (hr : inBox 0 dims rank) {topo : GridTopo} (ht : GridTopo.mk? d nx dims rank ng = .ok topo) {r : Range} (hrg : topo.range.noGhosts = .ok r)
    {l : TabScheds d n} (hl : l.Ok (r.cellBegin d) (r.cellEnd d)) {f : TabFile} {rho u P : ℤ → ℝ} {fx : Fin n → ℤ → ℝ}
    (hf : f.Holds (nx 0) rho u P fx) {out : InitArrays d n} (ho : out.Fits topo.nxLocalWg) :
    ∃ v, tabInit (some f) topo l out = .ok (some v) ∧ v.Fits topo.nxLocalWg ∧
      (∀ c, inBox (r.cellBegin d) (r.cellEnd d) c → v.at c = profileState rho u P fx (globalOf nx dims (nghostOf d ng) rank c)) ∧
      ∀ c, ¬ inBox (r.cellBegin d) (r.cellEnd d) c → v.at c = out.at c := by
  obtain ⟨e1, f1, f2⟩ := rank_noGhosts_box hN hdm hr ht hrg
  obtain ⟨g', hg', q1, q2, q3, q4, q5, q6, q7, q8, q9, -, -, -, q13⟩ := GridTopo.mk?_ok (ndim := d) (ng := ng) hN hdm (fun a => (hr a).1)
  rw [ht] at hg'
  cases hg'
  rw [f1, f2] at hl ⊢
  rw [e1] at ho ⊢
  have hin : ∀ c, inBox (nghostOf d ng) (fun a => localExt nx dims (nghostOf d ng) rank a - nghostOf d ng a) c →
      inExt (localExt nx dims (nghostOf d ng) rank) c = true := fun c hc => rank_interior_inExt hng hc
  have hs0 : 0 ≤ topo.range.cornerMin 0 := by rw [q1]; exact localStart_nonneg (hN 0) (hdm 0) (hr 0).1
  have hs1 : topo.range.cornerMin 0 + topo.nxLocal 0 ≤ nx 0 := by
    rw [q1, q3]
    have h1 := localStart_succ (r := rank 0) (hN 0) (hdm 0)
    have h2 := localStart_mono (N := nx 0) (hN 0) (hdm 0) (show rank 0 + 1 ≤ dims 0 by have := (hr 0).2; omega)
    rw [localStart_top (hN 0) (hdm 0)] at h2
    dsimp only
    omega
  have hng0 : topo.range.nghost 0 = nghostOf d ng 0 := by rw [q13]; rfl
  have hidx : ∀ c, inBox (nghostOf d ng) (fun a => localExt nx dims (nghostOf d ng) rank a - nghostOf d ng a) c →
      0 ≤ c 0 - topo.range.nghost 0 ∧ c 0 - topo.range.nghost 0 < topo.nxLocal 0 ∧
      topo.range.cornerMin 0 + (c 0 - topo.range.nghost 0) = globalOf nx dims (nghostOf d ng) rank c 0 := by
    intro c hc
    have h1 := (hc 0).1
    have h2 := (hc 0).2
    simp only [localExt] at h2
    rw [hng0, q3, q1]
    simp only [globalOf]
    refine ⟨by omega, by omega, by ring⟩
  obtain ⟨⟨srho, a1, a2, a3⟩, ⟨su, b1, b2, b3⟩, ⟨sP, c1, c2, c3⟩, ⟨sf, d1, d2, d3⟩⟩ := hf
  obtain ⟨wr, hwr, hwr'⟩ := readProfile_eq a2 hs0 hs1
  obtain ⟨wu, hwu, hwu'⟩ := readProfile_eq b2 hs0 hs1
  obtain ⟨wP, hwP, hwP'⟩ := readProfile_eq c2 hs0 hs1
  obtain ⟨wf, hwf, hwf'⟩ := readScalars_eq d2 hs0 hs1
  have hgl : ∀ c, inBox (nghostOf d ng) (fun a => localExt nx dims (nghostOf d ng) rank a - nghostOf d ng a) c →
      0 ≤ globalOf nx dims (nghostOf d ng) rank c 0 ∧ globalOf nx dims (nghostOf d ng) rank c 0 < nx 0 := by
    intro c hc
    obtain ⟨i1, i2, i3⟩ := hidx c hc
    omega
  obtain ⟨orho, x1, x2, x3, x4⟩ := broadcastLine_rank hl.rho hin (g := topo.range.nghost 0) (v := wr)
    (f := fun c => rho (globalOf nx dims (nghostOf d ng) rank c 0))
    (fun c hc => by
      obtain ⟨i1, i2, i3⟩ := hidx c hc
      rw [hwr' _ i1 i2, i3, a3 _ (hgl c hc).1 (hgl c hc).2]) ho.rho
  obtain ⟨oP, y1, y2, y3, y4⟩ := broadcastLine_rank hl.P hin (g := topo.range.nghost 0) (v := wP)
    (f := fun c => P (globalOf nx dims (nghostOf d ng) rank c 0))
    (fun c hc => by
      obtain ⟨i1, i2, i3⟩ := hidx c hc
      rw [hwP' _ i1 i2, i3, c3 _ (hgl c hc).1 (hgl c hc).2]) ho.P
  have hu : ∀ i : Fin d, ∃ w, (if i.val = 0 then broadcastLine (topo.range.nghost 0) (l.u i) wu (out.u i) else broadcastScalar (l.u i) 0 (out.u i)) = some w ∧
      w.dom = (out.u i).dom ∧ (∀ c, inBox (nghostOf d ng) (fun a => localExt nx dims (nghostOf d ng) rank a - nghostOf d ng a) c →
        w.val c = if i.val = 0 then u (globalOf nx dims (nghostOf d ng) rank c 0) else 0) ∧
      ∀ c, ¬ inBox (nghostOf d ng) (fun a => localExt nx dims (nghostOf d ng) rank a - nghostOf d ng a) c → w.val c = (out.u i).val c := by
    intro i
    by_cases hi : i.val = 0
    · simp only [if_pos hi]
      exact broadcastLine_rank (hl.u i) hin (g := topo.range.nghost 0) (v := wu)
        (f := fun c => u (globalOf nx dims (nghostOf d ng) rank c 0))
        (fun c hc => by
          obtain ⟨i1, i2, i3⟩ := hidx c hc
          rw [hwu' _ i1 i2, i3, b3 _ (hgl c hc).1 (hgl c hc).2]) (ho.u i)
    · simp only [if_neg hi]
      exact broadcastScalar_rank (hl.u i) hin 0 (ho.u i)
  have hfx : ∀ i : Fin n, ∃ w, broadcastLine (topo.range.nghost 0) (l.fx i) (column (topo.nxLocal 0) wf i.val) (out.fx i) = some w ∧
      w.dom = (out.fx i).dom ∧ (∀ c, inBox (nghostOf d ng) (fun a => localExt nx dims (nghostOf d ng) rank a - nghostOf d ng a) c →
        w.val c = fx i (globalOf nx dims (nghostOf d ng) rank c 0)) ∧
      ∀ c, ¬ inBox (nghostOf d ng) (fun a => localExt nx dims (nghostOf d ng) rank a - nghostOf d ng a) c → w.val c = (out.fx i).val c := by
    intro i
    exact broadcastLine_rank (hl.fx i) hin (g := topo.range.nghost 0) (v := column (topo.nxLocal 0) wf i.val)
      (f := fun c => fx i (globalOf nx dims (nghostOf d ng) rank c 0))
      (fun c hc => by
        obtain ⟨i1, i2, i3⟩ := hidx c hc
        rw [hwf' i _ i1 i2, i3, d3 i _ (hgl c hc).1 (hgl c hc).2]) (ho.fx i)
  choose ou hu1 hu2 hu3 hu4 using hu
  choose ofx hf1 hf2 hf3 hf4 using hfx
  refine ⟨⟨orho, ou, oP, ofx⟩, ?_, ⟨by rw [x2]; exact ho.rho, fun i => by rw [hu2]; exact ho.u i, by rw [y2]; exact ho.P,
    fun i => by rw [hf2]; exact ho.fx i⟩, fun c hc => ?_, fun c hc => ?_⟩
  · have hi : tabInit (some f) topo l out = .ok (tabFill topo l srho su sP sf out) := by
      simp only [tabInit, h5Open, a1, b1, c1, d1, q9, checkExtent_ok a2, checkExtent_ok b2, checkExtent_ok c2, checkExtent_ok d2, bind,
        Except.bind, pure, Except.pure]
    rw [hi]
    refine congrArg Except.ok ?_
    unfold tabFill
    simp only [hwr, hwu, hwP, hwf, Option.bind_eq_bind, Option.bind_some, x1, y1]
    rw [seqFin_some hu1, seqFin_some hf1]
    rfl
  · simp only [InitArrays.at, profileState, x3 c hc, y3 c hc, hu3 _ c hc, hf3 _ c hc]
  · simp only [InitArrays.at, x4 c hc, y4 c hc, hu4 _ c hc, hf4 _ c hc]

theorem checkExtent_ok_iff {o : Option H5Dataset} {sizes : List ℤ} : (∃ s, checkExtent o sizes = .ok s) ↔ ∃ s, o = some s ∧ s.sizes = sizes := by
  constructor
  · rintro ⟨s, hs⟩
    cases o with
    | none => simp [checkExtent, h5Open, bind, Except.bind] at hs
    | some s' =>
      simp only [checkExtent, h5Open, bind, Except.bind] at hs
      split_ifs at hs with h1 h2
      exact ⟨s', rfl, not_not.1 h2⟩
  · rintro ⟨s, rfl, hs⟩
    exact ⟨s, checkExtent_ok hs⟩

theorem checkExtent_cases (o : Option H5Dataset) (sizes : List ℤ) :
    (∃ s, checkExtent o sizes = .ok s ∧ o = some s ∧ s.sizes = sizes) ∨ ((∃ e, checkExtent o sizes = .error e) ∧ ¬ ∃ s, o = some s ∧ s.sizes = sizes) := by
  by_cases h : ∃ s, o = some s ∧ s.sizes = sizes
  · obtain ⟨s, h1, h2⟩ := h
    exact Or.inl ⟨s, by rw [h1]; exact checkExtent_ok h2, h1, h2⟩
  · refine Or.inr ⟨?_, h⟩
    cases hc : checkExtent o sizes with
    | error e => exact ⟨e, rfl⟩
    | ok s => exact absurd (checkExtent_ok_iff.1 ⟨s, hc⟩) h

/-- **C70.** The setup accepts a file if and only if it holds the four datasets with the sizes of the global domain. The answer does not
depend on the rank, so that all ranks stop together. -/
theorem C70_accepts (file : Option TabFile) (t : GridTopo) (l : TabScheds d n) (out : InitArrays d n) :
    (∃ v, tabInit file t l out = .ok v) ↔ ∃ f, file = some f ∧ (∃ s, f.rho = some s ∧ s.sizes = [t.nxGlob 0]) ∧
      (∃ s, f.u = some s ∧ s.sizes = [t.nxGlob 0]) ∧ (∃ s, f.P = some s ∧ s.sizes = [t.nxGlob 0]) ∧
      ∃ s, f.fx = some s ∧ s.sizes = [(n : ℤ), t.nxGlob 0] := by
  cases file with
  | none => simp [tabInit, h5Open, bind, Except.bind]
  | some f =>
    rcases checkExtent_cases f.rho [t.nxGlob 0] with ⟨s1, e1, p1, q1⟩ | ⟨⟨w1, e1⟩, p1⟩
    · rcases checkExtent_cases f.u [t.nxGlob 0] with ⟨s2, e2, p2, q2⟩ | ⟨⟨w2, e2⟩, p2⟩
      · rcases checkExtent_cases f.P [t.nxGlob 0] with ⟨s3, e3, p3, q3⟩ | ⟨⟨w3, e3⟩, p3⟩
        · rcases checkExtent_cases f.fx [(n : ℤ), t.nxGlob 0] with ⟨s4, e4, p4, q4⟩ | ⟨⟨w4, e4⟩, p4⟩
          · refine ⟨fun _ => ⟨f, rfl, ⟨s1, p1, q1⟩, ⟨s2, p2, q2⟩, ⟨s3, p3, q3⟩, ⟨s4, p4, q4⟩⟩, fun _ => ?_⟩
            exact ⟨tabFill t l s1 s2 s3 s4 out, by simp only [tabInit, h5Open, e1, e2, e3, e4, bind, Except.bind, pure, Except.pure]⟩
          · refine ⟨?_, ?_⟩
            · rintro ⟨v, hv⟩
              simp only [tabInit, h5Open, e1, e2, e3, e4, bind, Except.bind, reduceCtorEq] at hv
            · rintro ⟨f', h, -, -, -, h'⟩
              cases h
              exact absurd h' p4
        · refine ⟨?_, ?_⟩
          · rintro ⟨v, hv⟩
            simp only [tabInit, h5Open, e1, e2, e3, bind, Except.bind, reduceCtorEq] at hv
          · rintro ⟨f', h, -, -, h', -⟩
            cases h
            exact absurd h' p3
      · refine ⟨?_, ?_⟩
        · rintro ⟨v, hv⟩
          simp only [tabInit, h5Open, e1, e2, bind, Except.bind, reduceCtorEq] at hv
        · rintro ⟨f', h, -, h', -, -⟩
          cases h
          exact absurd h' p2
    · refine ⟨?_, ?_⟩
      · rintro ⟨v, hv⟩
        simp only [tabInit, h5Open, e1, bind, Except.bind, reduceCtorEq] at hv
      · rintro ⟨f', h, h', -, -, -⟩
        cases h
        exact absurd h' p1

/-- A run without passive scalars still needs a dataset `/fx_1d`, with no row: the profile of the gas alone is refused. -/
theorem C70_needs_scalars (rho u P : H5Dataset) (x0 : Option H5Dataset) (t : GridTopo) (l : TabScheds d 0) (out : InitArrays d 0) :
    ∃ e, tabInit (some ⟨x0, some rho, some u, some P, none⟩) t l out = .error e := by
  cases h : tabInit (some ⟨x0, some rho, some u, some P, none⟩) t l out with
  | error e => exact ⟨e, rfl⟩
  | ok v =>
    obtain ⟨f, hf, -, -, -, s, hs, -⟩ := (C70_accepts _ t l out).1 ⟨v, h⟩
    cases hf
    cases hs

/-- **C70.** The nodes of the first direction are those of the file, ghosts included, and a file with another number of them is refused; the
domain reaches from `xmin` to `xmax` in the other directions. -/
theorem C70_grid (f : TabFile) {nghost nx : Cell} (hpos : ∀ a, 0 < nx a) (hg : ∀ a, 0 ≤ nghost a) (xmin xmax : Fin 3 → ℝ) :
    (∀ s, f.x0 = some s → s.sizes = [nx 0 + 2 * nghost 0 + 1] → ∃ x, tabGrid (some f) nghost nx xmin xmax = .ok x ∧
      (∀ a i, (x a).dom i = decide (0 ≤ i ∧ i < nx a + 2 * nghost a + 1)) ∧ (∀ i, (x 0).val i = s.val [i]) ∧
      (∀ a, a ≠ 0 → (x a).rd (nghost a) = some (xmin a) ∧ (x a).rd (nghost a + nx a) = some (xmax a)) ∧
      ∀ a, a ≠ 0 → ∀ i, (x a).val (i + 1) - (x a).val i = (xmax a - xmin a) / nx a) ∧
    ((¬ ∃ s, f.x0 = some s ∧ s.sizes = [nx 0 + 2 * nghost 0 + 1]) → ∃ e, tabGrid (some f) nghost nx xmin xmax = .error e) := by
  refine ⟨fun s hs hsz => ?_, fun h => ?_⟩
  · refine ⟨![View.line (nx 0 + 2 * nghost 0 + 1) fun i => s.val [i], regularExecute (nghost 1) (nx 1) (xmin 1) (xmax 1),
      regularExecute (nghost 2) (nx 2) (xmin 2) (xmax 2)],
      by simp only [tabGrid, h5Open, hs, checkExtent_ok hsz, bind, Except.bind, pure, Except.pure], fun a i => ?_, fun i => rfl, fun a ha => ?_, fun a ha i => ?_⟩
    · fin_cases a <;> rfl
    · have hc : (nx a : ℝ) ≠ 0 := by exact_mod_cast (hpos a).ne'
      have hp := hpos a
      have hq := hg a
      have key : ∀ v : View ℤ ℝ, v = regularExecute (nghost a) (nx a) (xmin a) (xmax a) → v.rd (nghost a) = some (xmin a) ∧ v.rd (nghost a + nx a) = some (xmax a) := by
        rintro v rfl
        unfold regularExecute regularMesh
        rw [line_rd (by omega) (by omega), line_rd (by omega) (by omega)]
        simp only [sub_self, Int.cast_zero, zero_mul, add_zero, add_sub_cancel_left, true_and]
        field_simp
        simp
      fin_cases a
      · exact absurd rfl ha
      · exact key _ rfl
      · exact key _ rfl
    · have key : ∀ v : View ℤ ℝ, v = regularExecute (nghost a) (nx a) (xmin a) (xmax a) → v.val (i + 1) - v.val i = (xmax a - xmin a) / nx a := by
        rintro v rfl
        simp only [regularExecute, regularMesh, View.line]
        push_cast
        ring
      fin_cases a
      · exact absurd rfl ha
      · exact key _ rfl
      · exact key _ rfl
  · rcases checkExtent_cases f.x0 [nx 0 + 2 * nghost 0 + 1] with ⟨s, e, p, q⟩ | ⟨⟨w, e⟩, p⟩
    · exact absurd ⟨s, p, q⟩ h
    · exact ⟨w, by simp only [tabGrid, h5Open, e, bind, Except.bind]⟩

/-- A file of five cells with one scalar and two ghosts. -/
noncomputable def sampleTab : TabFile where
  x0 := some ⟨[10], fun l => l.sum⟩
  rho := some ⟨[5], fun l => 1 + l.sum⟩
  u := some ⟨[5], fun l => 10 * l.sum⟩
  P := some ⟨[5], fun _ => 1⟩
  fx := some ⟨[1, 5], fun l => l.sum / 5⟩

/-- On two processes along the first direction, the second one finds in its first cell the fourth element of the profiles. -/
example : ∃ topo r, GridTopo.mk? 2 ![5, 4, 1] ![2, 1, 1] ![1, 0, 0] 2 = .ok topo ∧ topo.range.noGhosts = .ok r ∧
    ∀ l : TabScheds 2 1, l.Ok (r.cellBegin 2) (r.cellEnd 2) → ∀ out : InitArrays 2 1, out.Fits topo.nxLocalWg →
      ∃ v, tabInit (some sampleTab) topo l out = .ok (some v) ∧ v.at ![2, 3, 0] = ⟨4, ![30, 0], 1, fun _ => 3 / 5⟩ ∧ v.at ![1, 3, 0] = out.at ![1, 3, 0] := by
  have hr : inBox 0 ![2, 1, 1] ![1, 0, 0] := by decide
  have hN : ∀ a, 0 ≤ (![5, 4, 1] : Cell) a := by decide
  have hdm : ∀ a, 0 < (![2, 1, 1] : Cell) a := by decide
  obtain ⟨topo, g, r, hg, hrg⟩ := exists_rankGrid (d := 2) (ng := 2) ⟨Real.sin, Real.cos, Real.pi⟩ .cartesian hN hdm (by norm_num) hr (fun _ i => i) (fun _ _ => 0)
  refine ⟨topo, r, hg.ok, hrg, fun l hl out ho => ?_⟩
  have hf : sampleTab.Holds (n := 1) ((![5, 4, 1] : Cell) 0) (fun i => 1 + (i : ℝ)) (fun i => 10 * (i : ℝ)) (fun _ => 1) (fun _ i => (i : ℝ) / 5) :=
    ⟨⟨_, rfl, rfl, fun i _ _ => by simp⟩, ⟨_, rfl, rfl, fun i _ _ => by simp⟩, ⟨_, rfl, rfl, fun i _ _ => rfl⟩,
      ⟨_, rfl, rfl, fun l i _ _ => by fin_cases l; simp⟩⟩
  obtain ⟨v, h1, -, h3, h4⟩ := C70_profile hN (by norm_num) hdm hr hg.ok hrg hl hf ho
  obtain ⟨-, f1, f2⟩ := rank_noGhosts_box hN hdm hr hg.ok hrg
  refine ⟨v, h1, ?_, h4 _ ?_⟩
  · rw [h3 _ (by rw [f1, f2]; decide)]
    have : globalOf ![5, 4, 1] ![2, 1, 1] (nghostOf 2 2) ![1, 0, 0] ![2, 3, 0] 0 = 3 := by decide
    simp only [profileState, this]
    congr 1
    · norm_num
    · funext i
      fin_cases i
      · norm_num
      · rfl
  · rw [f1, f2]
    decide

example : ∃ x, tabGrid (some sampleTab) ![2, 2, 0] ![5, 4, 1] (fun _ => 0) (fun _ => 1) = .ok x ∧ (x 0).rd 9 = some 9 ∧ (x 1).rd 6 = some 1 := by
  obtain ⟨x, h1, h2, h3, h4, -⟩ := (C70_grid sampleTab (nghost := ![2, 2, 0]) (nx := ![5, 4, 1]) (by decide) (by decide) (fun _ => 0) (fun _ => 1)).1 _ rfl rfl
  refine ⟨x, h1, ?_, (h4 1 (by decide)).2⟩
  rw [View.rd_of_dom (by rw [h2]; decide), h3]
  simp

end Heracles
