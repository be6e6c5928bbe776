import Verif.Lemmas.Reduce
import Verif.Lemmas.Mesh
import Verif.Spec.Reduce
import Verif.Props.Thermo

/-!
# C36 Time step, C54 detection of invalid energies, C55 integrals
-/

namespace Heracles

variable {d : ℕ} {K R : Type}

theorem allReduce_some {F : Type} {op : F → F → F} {l : List F} (h : l ≠ []) : ∃ v vs, l = v :: vs ∧ allReduce op l = some (vs.foldl op v) := by
  cases l with
  | nil => exact absurd rfl h
  | cons v vs => exact ⟨v, vs, rfl, rfl⟩

section C36
variable [Field K] [LinearOrder K] [IsStrictOrderedRing K]

theorem allReduce_max {l : List K} (h : l ≠ []) : ∃ m, allReduce kmax l = some m ∧ m ∈ l ∧ ∀ x ∈ l, x ≤ m := by
  obtain ⟨v, vs, rfl, e⟩ := allReduce_some (op := kmax) h
  have := foldl_max vs id v
  simp only [id] at this
  obtain ⟨h1, h2, h3⟩ := this
  refine ⟨_, e, ?_, fun x hx => ?_⟩
  · rcases h3 with h | ⟨i, hi, h⟩
    · exact List.mem_cons.2 (Or.inl h)
    · exact List.mem_cons.2 (Or.inr (h.symm ▸ hi))
  · rcases List.mem_cons.1 hx with rfl | hx
    · exact h1
    · exact h2 x hx

theorem dxGeom_eq (tr : Trig K) (geom : Geom) (hd : d ≤ 3) (dx : Fin 3 → K) (r θ : K) (a : Fin d) :
    dxGeom tr geom d dx r θ (ax a) = cellLength (geom = .spherical) tr.sin dx r θ (ax a) := by
  unfold dxGeom cellLength
  obtain ⟨a, ha⟩ := a
  by_cases h : geom = .spherical
  · rw [if_pos h, if_pos h]
    have : d = 1 ∨ d = 2 ∨ d = 3 := by omega
    rcases this with rfl | rfl | rfl
    · have : a = 0 := by omega
      subst this
      rfl
    · have : a = 0 ∨ a = 1 := by omega
      rcases this with rfl | rfl
      · rfl
      · exact mul_comm _ _
    · have : a = 0 ∨ a = 1 ∨ a = 2 := by omega
      rcases this with rfl | rfl | rfl
      · rfl
      · exact mul_comm _ _
      · exact mul_comm _ _
  · rw [if_neg h, if_neg h]

/-- The data of a rank read by `time_step`, as plain functions, and its array extents. -/
structure RankData (d : ℕ) (K : Type) where
  ext : Cell
  dx : Fin 3 → ℤ → K
  xc : Fin 3 → ℤ → K
  rho : Cell → K
  up : Cell → VelPres d K

/-- Sum over the directions of `(|u| + c) / length`. -/
def RankData.rate (D : RankData d K) (eos : EoS K) (tr : Trig K) (geom : Geom) (c : Cell) : K :=
  ∑ a : Fin d, (|(D.up c).u a| + eos.sound (D.rho c) (D.up c).P) /
    cellLength (geom = .spherical) tr.sin (fun i => D.dx i (c i)) (D.xc 0 (c 0)) (D.xc 1 (c 1)) (ax a)

/-- The arrays of the rank. -/
structure RankData.Holds (D : RankData d K) (g : GridData K) (rho : View Cell K) (up : View Cell (VelPres d K)) : Prop where
  dx : ∀ a, g.dx a = View.line (D.ext a) (D.dx a)
  xc : ∀ a, g.xc a = View.line (D.ext a) (D.xc a)
  rho : rho = ⟨inExt D.ext, D.rho⟩
  up : up = ⟨inExt D.ext, D.up⟩

/-- C36. `time_step`, run by any number of ranks with any distribution of their loops, accesses no memory out of bounds and
returns the inverse of the largest rate: it is positive, its product with the rate of no visited cell exceeds 1, and is 1 for
some visited cell of some rank. Hypotheses: the loops stay inside the arrays, the identity of the maximum is not positive and
some visited cell has a positive rate. -/
theorem C36_cfl {lo : K} (eos : EoS K) (tr : Trig K) (geom : Geom) (hd : d ≤ 3) {ranks : List R} {parts : R → List (List Cell)}
    {D : R → RankData d K} {g : R → GridData K} {rho : R → View Cell K} {up : R → View Cell (VelPres d K)}
    (hD : ∀ r ∈ ranks, (D r).Holds (g r) (rho r) (up r))
    (hin : ∀ r ∈ ranks, ∀ c ∈ (parts r).flatten, inExt (D r).ext c = true)
    (hlo : lo ≤ 0) (hpos : ∃ r ∈ ranks, ∃ c ∈ (parts r).flatten, 0 < (D r).rate eos tr geom c) :
    ∃ dt, timeStep lo eos tr geom ranks parts g rho up = some dt ∧ 0 < dt ∧
      (∀ r ∈ ranks, ∀ c ∈ (parts r).flatten, dt * (D r).rate eos tr geom c ≤ 1) ∧
      ∃ r ∈ ranks, ∃ c ∈ (parts r).flatten, dt * (D r).rate eos tr geom c = 1 := by
  obtain ⟨r0, hr0, c0, hc0, hp⟩ := hpos
  have h1 : ∀ r ∈ ranks, parReduce lo kmax (parts r) (fun c s => do
      let x ← cellInverseDt eos tr geom (g r) (rho r) (up r) c
      return kmax s x) = some (((parts r).map fun l => l.foldl (fun s c => kmax s ((D r).rate eos tr geom c)) lo).foldl kmax lo) := by
    intro r hr
    refine parReduce_eq fun c hc => ?_
    rw [(hD r hr).rho, (hD r hr).up, cellInverseDt_eq eos tr geom (hD r hr).dx (hD r hr).xc _ _ (hin r hr c hc)]
    congr 1
    refine Finset.sum_congr rfl fun a _ => ?_
    rw [dxGeom_eq tr geom hd]
    congr 2
    funext i
    fin_cases i <;> rfl
  obtain ⟨m, e, hm1, hm2⟩ := allReduce_max (l := ranks.map fun r =>
    ((parts r).map fun l => l.foldl (fun s c => kmax s ((D r).rate eos tr geom c)) lo).foldl kmax lo)
    (by rintro h; rw [List.map_eq_nil_iff] at h; rw [h] at hr0; simp at hr0)
  have hle : ∀ r ∈ ranks, ∀ c ∈ (parts r).flatten, (D r).rate eos tr geom c ≤ m := fun r hr c hc =>
    ((parReduce_max (e := lo) (parts := parts r) ((D r).rate eos tr geom)).2.1 c hc).trans
      (hm2 _ (List.mem_map.2 ⟨r, hr, rfl⟩))
  have hmp : 0 < m := lt_of_lt_of_le hp (hle r0 hr0 c0 hc0)
  refine ⟨1 / m, ?_, by positivity, fun r hr c hc => ?_, ?_⟩
  · unfold timeStep
    rw [mapM_some ranks h1]
    simp only [Option.bind_eq_bind, Option.bind_some, e]
    rfl
  · rw [one_div, inv_mul_le_iff₀ hmp, mul_one]
    exact hle r hr c hc
  · obtain ⟨r, hr, e'⟩ := List.mem_map.1 hm1
    rcases (parReduce_max (e := lo) (parts := parts r) ((D r).rate eos tr geom)).2.2 with h | ⟨c, hc, h⟩
    · exact absurd (e'.symm.trans h) (hlo.trans_lt hmp).ne'
    · refine ⟨r, hr, c, hc, ?_⟩
      rw [← h, e', one_div, inv_mul_cancel₀ hmp.ne']

/-- C36: the hypothesis on the rates holds for a state with positive sound speed in a visited cell of positive lengths. -/
theorem C36_rate_pos (D : RankData d K) (eos : EoS K) (tr : Trig K) (geom : Geom) (c : Cell) (h0 : 0 < d)
    (hs : 0 < eos.sound (D.rho c) (D.up c).P)
    (hl : ∀ a : Fin d, 0 < cellLength (geom = .spherical) tr.sin (fun i => D.dx i (c i)) (D.xc 0 (c 0)) (D.xc 1 (c 1)) (ax a)) :
    0 < D.rate eos tr geom c := by
  refine Finset.sum_pos (fun a _ => div_pos ?_ (hl a)) ⟨⟨0, h0⟩, Finset.mem_univ _⟩
  have := abs_nonneg ((D.up c).u a)
  linarith

/-- C36, independence of the decomposition: two runs, on any ranks and with any distributions of the loops, whose visited
cells present the same rates compute the same time step. -/
theorem C36_decomposition {R' : Type} {lo lo' : K} (eos : EoS K) (tr : Trig K) (geom : Geom) (hd : d ≤ 3)
    {ranks : List R} {parts : R → List (List Cell)} {D : R → RankData d K} {g : R → GridData K} {rho : R → View Cell K}
    {up : R → View Cell (VelPres d K)}
    {ranks' : List R'} {parts' : R' → List (List Cell)} {D' : R' → RankData d K} {g' : R' → GridData K} {rho' : R' → View Cell K}
    {up' : R' → View Cell (VelPres d K)}
    (hD : ∀ r ∈ ranks, (D r).Holds (g r) (rho r) (up r)) (hD' : ∀ r ∈ ranks', (D' r).Holds (g' r) (rho' r) (up' r))
    (hin : ∀ r ∈ ranks, ∀ c ∈ (parts r).flatten, inExt (D r).ext c = true)
    (hin' : ∀ r ∈ ranks', ∀ c ∈ (parts' r).flatten, inExt (D' r).ext c = true)
    (hlo : lo ≤ 0) (hlo' : lo' ≤ 0) (hpos : ∃ r ∈ ranks, ∃ c ∈ (parts r).flatten, 0 < (D r).rate eos tr geom c)
    (hsame : ∀ x, (∃ r ∈ ranks, ∃ c ∈ (parts r).flatten, (D r).rate eos tr geom c = x) ↔
      ∃ r ∈ ranks', ∃ c ∈ (parts' r).flatten, (D' r).rate eos tr geom c = x) :
    timeStep lo eos tr geom ranks parts g rho up = timeStep lo' eos tr geom ranks' parts' g' rho' up' ∧
      timeStep lo eos tr geom ranks parts g rho up ≠ none := by
  have hpos' : ∃ r ∈ ranks', ∃ c ∈ (parts' r).flatten, 0 < (D' r).rate eos tr geom c := by
    obtain ⟨r, hr, c, hc, h⟩ := hpos
    obtain ⟨r', hr', c', hc', h'⟩ := (hsame _).1 ⟨r, hr, c, hc, rfl⟩
    exact ⟨r', hr', c', hc', h' ▸ h⟩
  obtain ⟨dt, e, p, u, r, hr, c, hc, q⟩ := C36_cfl eos tr geom hd hD hin hlo hpos
  obtain ⟨dt', e', p', u', r', hr', c', hc', q'⟩ := C36_cfl eos tr geom hd hD' hin' hlo' hpos'
  rw [e, e']
  refine ⟨congrArg some ?_, by simp⟩
  obtain ⟨s, hs, k, hk, hsk⟩ := (hsame _).1 ⟨r, hr, c, hc, rfl⟩
  obtain ⟨s', hs', k', hk', hsk'⟩ := (hsame _).2 ⟨r', hr', c', hc', rfl⟩
  have i1 := u' s hs k hk
  have i2 := u s' hs' k' hk'
  rw [hsk] at i1
  rw [hsk'] at i2
  have e1 : (D r).rate eos tr geom c = 1 / dt := by field_simp; rw [mul_comm]; exact q
  have e2 : (D' r').rate eos tr geom c' = 1 / dt' := by field_simp; rw [mul_comm]; exact q'
  rw [e1, mul_one_div, div_le_one p] at i1
  rw [e2, mul_one_div, div_le_one p'] at i2
  exact le_antisymm i2 i1

end C36

section C55
variable [Field K]

/-- Summing over the interior cells of all ranks is summing over the cells of the global grid. -/
theorem sum_ranks {A : Type} [AddCommMonoid A] (ndim : ℕ) {nx dims : Cell} (ng : ℤ) (hN : ∀ a, 0 ≤ nx a) (hd : ∀ a, 0 < dims a) (f : Cell → A) :
    ∑ rank ∈ cells 0 dims, ∑ c ∈ cells (interiorBegin ndim ng) (interiorEnd ndim nx dims rank ng),
      f (globalOf nx dims (nghostOf ndim ng) rank c) = ∑ c ∈ cells 0 nx, f c := by
  rw [Finset.sum_sigma']
  refine Finset.sum_bij (fun p _ => globalOf nx dims (nghostOf ndim ng) p.1 p.2) ?_ ?_ ?_ (fun _ _ => rfl)
  · rintro ⟨rank, c⟩ h
    rw [Finset.mem_sigma, mem_cells, mem_cells] at h
    rw [mem_cells]
    intro a
    have h1 := h.1 a
    have h2 := h.2 a
    simp only [interiorBegin, interiorEnd] at h2
    have h3 := localStart_nonneg (hN a) (hd a) h1.1
    have h4 := localStart_add_size_le (hN a) (hd a) h1.2
    simp only [globalOf, Pi.zero_apply] at *
    omega
  · rintro ⟨r, c⟩ h ⟨r', c'⟩ h' e
    rw [Finset.mem_sigma, mem_cells, mem_cells] at h h'
    have hr : r = r' := by
      funext a
      have h2 := h.2 a
      have h2' := h'.2 a
      have ea := congrFun e a
      simp only [interiorBegin, interiorEnd, globalOf] at h2 h2' ea
      refine owner_unique (hN a) (hd a) (c := localStart (nx a) (dims a) (r a) + c a - nghostOf ndim ng a) ?_ ?_
      · constructor <;> omega
      · rw [ea]; constructor <;> omega
    subst hr
    have : c = c' := by
      funext a
      have ea := congrFun e a
      simp only [globalOf] at ea
      omega
    rw [this]
  · intro g hg
    rw [mem_cells] at hg
    choose rank h1 h2 h3 h4 using fun a => exists_owner (hN a) (hd a) (hg a).1 (hg a).2
    refine ⟨⟨rank, fun a => g a - localStart (nx a) (dims a) (rank a) + nghostOf ndim ng a⟩, ?_, ?_⟩
    · rw [Finset.mem_sigma, mem_cells, mem_cells]
      refine ⟨fun a => ⟨h1 a, h2 a⟩, fun a => ?_⟩
      have := h3 a
      have := h4 a
      simp only [interiorBegin, interiorEnd]
      omega
    · funext a
      simp only [globalOf]
      omega

/-- C55. On every Cartesian decomposition, with the ranks combined in any order, every rank running its loop over its interior
cells with any distribution over workers, `integrate` returns the sum over all cells of the global grid of value times volume.
Hypotheses on the arrays: an interior cell of a rank holds the value (and volume) of its global cell. -/
theorem C55_integrate (ndim : ℕ) {nx dims : Cell} (ng : ℤ) (hN : ∀ a, 0 ≤ nx a) (hd : ∀ a, 0 < dims a)
    {ranks : List Cell} (hranks : IsSchedule ranks 0 dims) {parts : Cell → List (List Cell)}
    (hparts : ∀ r ∈ ranks, IsPartition (parts r) (interiorBegin ndim ng) (interiorEnd ndim nx dims r ng))
    (var dv : Cell → View Cell K) (G V : Cell → K)
    (hvar : ∀ r ∈ ranks, ∀ c, inBox (interiorBegin ndim ng) (interiorEnd ndim nx dims r ng) c →
      (var r).rd c = some (G (globalOf nx dims (nghostOf ndim ng) r c)) ∧
      (dv r).rd c = some (V (globalOf nx dims (nghostOf ndim ng) r c))) :
    integrate ranks parts dv var = some (∑ c ∈ cells 0 nx, G c * V c) := by
  have h1 : ∀ r ∈ ranks, parReduce 0 (· + ·) (parts r) (fun c s => do
      let x ← (var r).rd c
      let y ← (dv r).rd c
      return s + x * y) = some (∑ c ∈ cells (interiorBegin ndim ng) (interiorEnd ndim nx dims r ng),
        G (globalOf nx dims (nghostOf ndim ng) r c) * V (globalOf nx dims (nghostOf ndim ng) r c)) := by
    intro r hr
    have := parReduce_eq (e := (0 : K)) (join := (· + ·)) (op := (· + ·)) (parts := parts r)
      (f := fun c => do let x ← (var r).rd c; let y ← (dv r).rd c; return x * y)
      (g := fun c => G (globalOf nx dims (nghostOf ndim ng) r c) * V (globalOf nx dims (nghostOf ndim ng) r c))
      (fun c hc => by
        obtain ⟨a, b⟩ := hvar r hr c (((hparts r hr).2 c).1 hc)
        simp only [a, b]
        rfl)
    simp only [Option.bind_eq_bind, Option.bind_assoc, Option.pure_def, Option.bind_some] at this ⊢
    rw [this, parReduce_sum, schedule_sum (hparts r hr)]
    rfl
  unfold integrate
  rw [mapM_some ranks h1]
  simp only [Option.bind_eq_bind, Option.bind_some]
  have hne : (0 : Cell) ∈ ranks := (hranks.2 0).2 fun a => ⟨le_rfl, hd a⟩
  obtain ⟨v, vs, e1, e2⟩ := allReduce_some (op := fun a b : K => a + b) (l := ranks.map fun r =>
    ∑ c ∈ cells (interiorBegin ndim ng) (interiorEnd ndim nx dims r ng),
        G (globalOf nx dims (nghostOf ndim ng) r c) * V (globalOf nx dims (nghostOf ndim ng) r c))
    (by rintro h; rw [List.map_eq_nil_iff] at h; rw [h] at hne; simp at hne)
  refine e2.trans (congrArg some ?_)
  have := foldl_add vs id v
  simp only [id, List.map_id] at this
  rw [this, ← List.sum_cons, ← e1, schedule_sum hranks]
  exact sum_ranks ndim ng hN hd fun c => G c * V c

end C55

section C54

theorem Dbl.not_nan_lt {x : Dbl} : ¬ Dbl.nan < x := by
  intro h; cases x <;> exact h

theorem Dbl.lt_trans' {a b c : Dbl} (h : a < b) (h' : b < c) : a < c := by
  change Dbl.lt a b at h
  change Dbl.lt b c at h'
  change Dbl.lt a c
  cases a <;> cases b <;> cases c <;> simp_all [Dbl.lt]
  exact h.trans h'

theorem Dbl.lt_of_not_lt {a b x : Dbl} (ha : a ≠ .nan) (h : ¬ b < a) (hb : b < x) : a < x := by
  change ¬ Dbl.lt b a at h
  change Dbl.lt b x at hb
  change Dbl.lt a x
  cases a <;> cases b <;> cases x <;> simp_all [Dbl.lt]
  exact h.trans_lt hb

theorem kmin_lt {a b x : Dbl} (ha : a ≠ .nan) : kmin a b < x ↔ a < x ∨ b < x := by
  unfold kmin
  split
  · rename_i h
    exact ⟨Or.inr, fun h' => h'.elim (Dbl.lt_trans' h) id⟩
  · rename_i h
    exact ⟨Or.inl, fun h' => h'.elim id (Dbl.lt_of_not_lt ha h)⟩

theorem kmin_ne_nan {a b : Dbl} (ha : a ≠ .nan) : kmin a b ≠ .nan := by
  unfold kmin
  split
  · rename_i h
    rintro rfl
    exact Dbl.not_nan_lt h
  · exact ha

theorem foldl_min {ι : Type} (l : List ι) (g : ι → Dbl) {e : Dbl} (he : e ≠ .nan) :
    let r := l.foldl (fun s i => kmin s (g i)) e
    r ≠ .nan ∧ ∀ x, r < x ↔ e < x ∨ ∃ i ∈ l, g i < x := by
  induction l generalizing e with
  | nil => exact ⟨he, fun x => by simp⟩
  | cons i l ih =>
    obtain ⟨h1, h2⟩ := ih (kmin_ne_nan (b := g i) he)
    refine ⟨h1, fun x => ?_⟩
    rw [List.foldl_cons, h2, kmin_lt he]
    simp [or_assoc]

/-- The result of the minimum reduction. -/
theorem minInternalEnergy_spec {ranks : List R} (hr : ranks ≠ []) {parts : R → List (List Cell)}
    {U : R → View Cell (Dbl × (Fin d → Dbl) × Dbl)} {o : NumOps Dbl} {top : Dbl} (htop : top ≠ .nan)
    (hin : ∀ r ∈ ranks, ∀ c ∈ (parts r).flatten, (U r).dom c = true) :
    ∃ m, minInternalEnergy o top ranks parts U = some m ∧ m ≠ .nan ∧
      ∀ x, m < x ↔ top < x ∨ ∃ r ∈ ranks, ∃ c ∈ (parts r).flatten,
        evolOps o ((U r).val c).1 ((U r).val c).2.1 ((U r).val c).2.2 < x := by
  have h1 : ∀ r ∈ ranks, parReduce top kmin (parts r) (fun c s => do
      let x ← (U r).rd c
      return kmin s (evolOps o x.1 x.2.1 x.2.2)) =
      some (((parts r).map fun l => l.foldl (fun s c => kmin s (evolOps o ((U r).val c).1 ((U r).val c).2.1
        ((U r).val c).2.2)) top).foldl kmin top) := fun r hr =>
    parReduce_eq (op := fun s (x : Dbl × (Fin d → Dbl) × Dbl) => kmin s (evolOps o x.1 x.2.1 x.2.2)) (g := (U r).val)
      fun c hc => View.rd_of_dom (hin r hr c hc)
  have h2 : ∀ r, let m := ((parts r).map fun l => l.foldl (fun s c => kmin s (evolOps o ((U r).val c).1 ((U r).val c).2.1
        ((U r).val c).2.2)) top).foldl kmin top
      m ≠ .nan ∧ ∀ x, m < x ↔ top < x ∨ ∃ c ∈ (parts r).flatten,
        evolOps o ((U r).val c).1 ((U r).val c).2.1 ((U r).val c).2.2 < x := by
    intro r
    have := foldl_min ((parts r).map fun l => l.foldl (fun s c => kmin s (evolOps o ((U r).val c).1 ((U r).val c).2.1
        ((U r).val c).2.2)) top) id htop
    simp only [id] at this
    refine ⟨this.1, fun x => (this.2 x).trans ?_⟩
    constructor
    · rintro (h | ⟨i, hi, h⟩)
      · exact Or.inl h
      · obtain ⟨l, hl, rfl⟩ := List.mem_map.1 hi
        rcases ((foldl_min l _ htop).2 x).1 h with h | ⟨c, hc, h⟩
        · exact Or.inl h
        · exact Or.inr ⟨c, List.mem_flatten.2 ⟨l, hl, hc⟩, h⟩
    · rintro (h | ⟨c, hc, h⟩)
      · exact Or.inl h
      · obtain ⟨l, hl, hcl⟩ := List.mem_flatten.1 hc
        exact Or.inr ⟨_, List.mem_map.2 ⟨l, hl, rfl⟩, ((foldl_min l _ htop).2 x).2 (Or.inr ⟨c, hcl, h⟩)⟩
  unfold minInternalEnergy
  rw [mapM_some ranks h1]
  simp only [Option.bind_eq_bind, Option.bind_some]
  cases ranks with
  | nil => exact absurd rfl hr
  | cons r0 rs =>
    refine ⟨_, rfl, ?_, ?_⟩
    · have := foldl_min (rs.map fun r => ((parts r).map fun l => l.foldl (fun s c => kmin s (evolOps o ((U r).val c).1
        ((U r).val c).2.1 ((U r).val c).2.2)) top).foldl kmin top) id (h2 r0).1
      exact this.1
    · intro x
      have := foldl_min (rs.map fun r => ((parts r).map fun l => l.foldl (fun s c => kmin s (evolOps o ((U r).val c).1
        ((U r).val c).2.1 ((U r).val c).2.2)) top).foldl kmin top) id (h2 r0).1
      refine (this.2 x).trans ?_
      rw [(h2 r0).2]
      constructor
      · rintro ((h | ⟨c, hc, h⟩) | ⟨i, hi, h⟩)
        · exact Or.inl h
        · exact Or.inr ⟨r0, by simp, c, hc, h⟩
        · obtain ⟨r, hr, rfl⟩ := List.mem_map.1 hi
          rcases ((h2 r).2 x).1 h with h | ⟨c, hc, h⟩
          · exact Or.inl h
          · exact Or.inr ⟨r, by simp [hr], c, hc, h⟩
      · rintro (h | ⟨r, hr, c, hc, h⟩)
        · exact Or.inl (Or.inl h)
        · rcases List.mem_cons.1 hr with rfl | hr
          · exact Or.inl (Or.inr ⟨c, hc, h⟩)
          · exact Or.inr ⟨_, List.mem_map.2 ⟨r, hr, rfl⟩, ((h2 r).2 x).2 (Or.inr ⟨c, hc, h⟩)⟩

/-- C54, the part that holds: for every number of ranks and distribution of the loops, the run aborts exactly when the
internal energy `E - ek` of some visited cell is below zero (as IEEE numbers, minus infinity included). Full statement: ... or
is not a number; see `C54_violated`. -/
theorem C54_detects_negative_partial {ranks : List R} (hr : ranks ≠ []) {parts : R → List (List Cell)}
    {U : R → View Cell (Dbl × (Fin d → Dbl) × Dbl)} {big : ℝ} (hbig : 0 ≤ big)
    (hin : ∀ r ∈ ranks, ∀ c ∈ (parts r).flatten, (U r).dom c = true) :
    ∃ m, minInternalEnergy dblOps (.fin big) ranks parts U = some m ∧
      (badEnergy m ↔ ∃ r ∈ ranks, ∃ c ∈ (parts r).flatten,
        evolOps dblOps ((U r).val c).1 ((U r).val c).2.1 ((U r).val c).2.2 < .fin 0) := by
  obtain ⟨m, e, h1, h2⟩ := minInternalEnergy_spec (o := dblOps) hr (top := .fin big) (by simp) hin
  refine ⟨m, e, ?_⟩
  unfold badEnergy
  rw [h2]
  constructor
  · rintro (h | h | h)
    · cases m <;> first | exact absurd rfl h1 | exact h.elim
    · exact absurd h (not_lt.2 hbig)
    · exact h
  · exact fun h => Or.inr (Or.inr h)

/-- On finite data with non-zero density, the internal energy followed with IEEE rules is `E - |ρu|² / (2ρ)`. -/
theorem evolOps_fin (rho : ℝ) (rhou : Fin d → ℝ) (E : ℝ) (h : rho ≠ 0) :
    evolOps dblOps (.fin rho) (fun i => .fin (rhou i)) (.fin E) = .fin (E - (∑ i, rhou i ^ 2) / (2 * rho)) := by
  have hs : ∀ (l : List (Fin d)) (s : ℝ), l.foldl (fun s i => dblOps.add s (dblOps.mul (.fin (rhou i)) (.fin (rhou i)))) (.fin s) =
      .fin (s + (l.map fun i => rhou i ^ 2).sum) := by
    intro l
    induction l with
    | nil => intro s; simp
    | cons i l ih =>
      intro s
      rw [List.foldl_cons]
      show List.foldl _ (Dbl.fin (s + rhou i * rhou i)) l = _
      rw [ih, List.map_cons, List.sum_cons]
      congr 1
      ring
  unfold evolOps
  show dblOps.sub _ (dblOps.div (dblOps.div (List.foldl _ (Dbl.fin 0) _) _) (Dbl.fin 2)) = _
  rw [hs, zero_add, ← List.ofFn_eq_map, List.sum_ofFn]
  show Dbl.add _ (Dbl.neg (Dbl.div (Dbl.div (Dbl.fin _) (Dbl.fin _)) (Dbl.fin 2))) = _
  simp only [Dbl.div, if_neg h, if_neg (two_ne_zero : (2 : ℝ) ≠ 0), Dbl.neg, Dbl.add]
  congr 1
  field_simp
  ring

/-- C54, on data with finite values and positive densities the claim holds in full: the run aborts exactly when some visited
cell has a negative volumic internal energy. -/
theorem C54_finite_data {ranks : List R} (hr : ranks ≠ []) {parts : R → List (List Cell)}
    {dom : R → Cell → Bool} {rho E : R → Cell → ℝ} {rhou : R → Cell → Fin d → ℝ} {big : ℝ} (hbig : 0 ≤ big)
    (hin : ∀ r ∈ ranks, ∀ c ∈ (parts r).flatten, dom r c = true)
    (hrho : ∀ r ∈ ranks, ∀ c ∈ (parts r).flatten, 0 < rho r c) :
    ∃ m, minInternalEnergy dblOps (.fin big) ranks parts
        (fun r => ⟨dom r, fun c => (.fin (rho r c), fun i => .fin (rhou r c i), .fin (E r c))⟩) = some m ∧
      (badEnergy m ↔ ∃ r ∈ ranks, ∃ c ∈ (parts r).flatten, E r c < (∑ i, rhou r c i ^ 2) / (2 * rho r c)) := by
  obtain ⟨m, e, h⟩ := C54_detects_negative_partial (d := d) hr (parts := parts)
    (U := fun r => ⟨dom r, fun c => (.fin (rho r c), fun i => .fin (rhou r c i), .fin (E r c))⟩) hbig hin
  refine ⟨m, e, h.trans ?_⟩
  have key : ∀ r ∈ ranks, ∀ c ∈ (parts r).flatten,
      (evolOps dblOps (Dbl.fin (rho r c)) (fun i => Dbl.fin (rhou r c i)) (Dbl.fin (E r c)) < Dbl.fin 0 ↔
        E r c < (∑ i, rhou r c i ^ 2) / (2 * rho r c)) := fun r hr c hc => by
    rw [evolOps_fin _ _ _ (hrho r hr c hc).ne']
    exact sub_neg (α := ℝ)
  constructor
  · rintro ⟨r, hr, c, hc, h⟩
    exact ⟨r, hr, c, hc, (key r hr c hc).1 h⟩
  · rintro ⟨r, hr, c, hc, h⟩
    exact ⟨r, hr, c, hc, (key r hr c hc).2 h⟩

/-- C54 is violated by the code: on one rank with one interior cell whose density is zero and momentum zero (`0/0`), the
internal energy is NaN, and the minimum (the identity of the reduction) passes the test: the run does not abort. The same
happens with a NaN energy. `isnan` of the minimum never holds (`C54_isnan_is_dead`). -/
theorem C54_violated :
    ∃ (U : Unit → View Cell (Dbl × (Fin 1 → Dbl) × Dbl)) (m : Dbl),
      minInternalEnergy dblOps (.fin 1) [()] (fun _ => [[0]]) U = some m ∧ (U ()).dom 0 = true ∧
      (evolOps dblOps ((U ()).val 0).1 ((U ()).val 0).2.1 ((U ()).val 0).2.2).isNaN ∧ ¬ badEnergy m := by
  have hU : evolOps dblOps (Dbl.fin 0) (fun _ : Fin 1 => Dbl.fin 0) (Dbl.fin 1) = .nan := by
    simp [evolOps, dblOps, Dbl.add, Dbl.mul, Dbl.div, Dbl.neg, List.finRange_succ]
  obtain ⟨m, e, h⟩ := C54_detects_negative_partial (d := 1) (ranks := [()]) (by simp) (parts := fun _ => [[0]])
    (U := fun _ => ⟨fun _ => true, fun _ => (.fin 0, fun _ => .fin 0, .fin 1)⟩) (big := 1) (by norm_num) (by simp)
  refine ⟨_, m, e, rfl, ?_, ?_⟩
  · show Dbl.isNaN (evolOps dblOps _ _ _)
    rw [hU]
    trivial
  · rw [h]
    rintro ⟨r, -, c, -, h⟩
    change evolOps dblOps (Dbl.fin 0) (fun _ : Fin 1 => Dbl.fin 0) (Dbl.fin 1) < _ at h
    rw [hU] at h
    exact Dbl.not_nan_lt h

/-- C54: whatever the data, the minimum is never NaN, so that the `isnan` test of src/main.cpp can not be met. -/
theorem C54_isnan_is_dead {ranks : List R} (hr : ranks ≠ []) {parts : R → List (List Cell)}
    {U : R → View Cell (Dbl × (Fin d → Dbl) × Dbl)} {big : ℝ} (hin : ∀ r ∈ ranks, ∀ c ∈ (parts r).flatten, (U r).dom c = true) :
    ∃ m, minInternalEnergy dblOps (.fin big) ranks parts U = some m ∧ ¬ m.isNaN := by
  obtain ⟨m, e, h1, -⟩ := minInternalEnergy_spec (o := dblOps) hr (top := .fin big) (by simp) hin
  refine ⟨m, e, fun h => h1 ?_⟩
  cases m <;> first | rfl | exact h.elim

end C54

section Examples

theorem isPartition_box (b e : Cell) : IsPartition [boxList b e] b e := by
  have : [boxList b e].flatten = boxList b e := by simp
  unfold IsPartition
  rw [this]
  exact boxList_isSchedule b e

/-- C55: 10 × 7 cells on 4 × 3 ranks with two ghost layers; a non-uniform field and volume. -/
example := C55_integrate (K := ℚ) 2 (nx := ![10, 7, 1]) (dims := ![4, 3, 1]) 2 (by decide) (by decide)
  (boxList_isSchedule 0 ![4, 3, 1]) (parts := fun r => [boxList (interiorBegin 2 2) (interiorEnd 2 ![10, 7, 1] ![4, 3, 1] r 2)])
  (fun _ _ => isPartition_box _ _)
  (fun r => ⟨inExt (localExt ![10, 7, 1] ![4, 3, 1] (nghostOf 2 2) r), fun c => (globalOf ![10, 7, 1] ![4, 3, 1] (nghostOf 2 2) r c 0 : ℚ)⟩)
  (fun r => ⟨inExt (localExt ![10, 7, 1] ![4, 3, 1] (nghostOf 2 2) r), fun c => 1 + (globalOf ![10, 7, 1] ![4, 3, 1] (nghostOf 2 2) r c 1 : ℚ)⟩)
  (fun c => (c 0 : ℚ)) (fun c => 1 + (c 1 : ℚ)) (fun r _ c hc => by
    have : inExt (localExt ![10, 7, 1] ![4, 3, 1] (nghostOf 2 2) r) c = true := by
      rw [inExt_iff]
      intro a
      have h := hc a
      simp only [interiorBegin, interiorEnd, localExt] at *
      have : 0 ≤ nghostOf 2 2 a := by unfold nghostOf; split <;> norm_num
      omega
    exact ⟨View.rd_of_dom this, View.rd_of_dom this⟩)

/-- Two ranks of three cells each: a gas with a velocity depending on the cell. -/
def demoRank : Bool → RankData 1 ℚ := fun r =>
  { ext := ![3, 1, 1], dx := fun _ _ => 1 / 10, xc := fun _ _ => 0, rho := fun _ => 1
    up := fun c => ⟨fun _ => if r then (c 0 : ℚ) else -5, 1⟩ }

/-- C36: the time step of the two ranks is `dx / (5 + c)`. -/
example : timeStep (-1000) ⟨fun _ P => P, fun _ e => e, fun _ _ => 2⟩ ⟨fun _ => 0, fun _ => 1, 3⟩ .cartesian [false, true]
    (fun _ => [boxList 0 ![3, 1, 1]]) (fun r => ⟨fun _ => View.line 0 0, fun a => View.line ((demoRank r).ext a) ((demoRank r).xc a),
      fun a => View.line ((demoRank r).ext a) ((demoRank r).dx a), ⟨fun _ => false, 0⟩, ⟨fun _ => false, 0⟩⟩)
    (fun r => ⟨inExt (demoRank r).ext, (demoRank r).rho⟩) (fun r => ⟨inExt (demoRank r).ext, (demoRank r).up⟩) = some (1 / 70) := by
  obtain ⟨dt, e, -, h, r, -, c, hc, h'⟩ := C36_cfl (d := 1) (lo := (-1000 : ℚ)) ⟨fun _ P => P, fun _ e => e, fun _ _ => 2⟩
    ⟨fun _ => 0, fun _ => 1, 3⟩ .cartesian (by norm_num) (ranks := [false, true]) (parts := fun _ => [boxList 0 ![3, 1, 1]])
    (D := demoRank) (g := fun r => ⟨fun _ => View.line 0 0, fun a => View.line ((demoRank r).ext a) ((demoRank r).xc a),
      fun a => View.line ((demoRank r).ext a) ((demoRank r).dx a), ⟨fun _ => false, 0⟩, ⟨fun _ => false, 0⟩⟩)
    (rho := fun r => ⟨inExt (demoRank r).ext, (demoRank r).rho⟩) (up := fun r => ⟨inExt (demoRank r).ext, (demoRank r).up⟩)
    (fun r _ => ⟨fun _ => rfl, fun _ => rfl, rfl, rfl⟩) (fun r _ c hc => by
      have := ((isPartition_box 0 ![3, 1, 1]).2 c).1 hc
      exact inExt_iff.2 this) (by norm_num)
    ⟨false, by simp, 0, ((isPartition_box 0 ![3, 1, 1]).2 0).2 (by decide), by
      simp [RankData.rate, demoRank, cellLength]; norm_num⟩
  rw [e]
  have h5 := h false (by simp) 0 (((isPartition_box 0 ![3, 1, 1]).2 0).2 (by decide))
  have hc' := ((isPartition_box 0 ![3, 1, 1]).2 c).1 hc 0
  simp [RankData.rate, demoRank, cellLength] at h5 h' hc'
  have hub : (c 0 : ℚ) ≤ 2 := by exact_mod_cast (by omega : c 0 ≤ 2)
  have hlb : (0 : ℚ) ≤ c 0 := by exact_mod_cast hc'.1
  congr 1
  rcases r
  · simp at h'; linarith
  · simp [abs_of_nonneg hlb] at h'
    nlinarith

/-- C54: of two cells, the second has a negative internal energy, and the run aborts. -/
example : ∃ m, minInternalEnergy dblOps (.fin 1) [()] (fun _ => [[0], [1]])
    (fun _ => ⟨fun _ => true, fun c => (.fin 1, fun _ : Fin 1 => .fin 3, .fin (if c = 0 then 5 else 4))⟩) = some m ∧ badEnergy m := by
  obtain ⟨m, e, h⟩ := C54_finite_data (d := 1) (ranks := [()]) (by simp) (parts := fun _ => [[0], [1]]) (dom := fun _ _ => true)
    (rho := fun _ _ => 1) (rhou := fun _ _ _ => 3) (E := fun _ c => if c = 0 then 5 else 4) (big := 1) (by norm_num) (by simp) (by simp)
  refine ⟨m, e, h.2 ⟨(), by simp, 1, by simp, ?_⟩⟩
  have : (1 : Cell) ≠ 0 := by decide
  simp [this]
  norm_num

/-- ... and it does not when both are positive. -/
example : ∃ m, minInternalEnergy dblOps (.fin 1) [()] (fun _ => [[0], [1]])
    (fun _ => ⟨fun _ => true, fun _ => (.fin 1, fun _ : Fin 1 => .fin 3, .fin 5)⟩) = some m ∧ ¬ badEnergy m := by
  obtain ⟨m, e, h⟩ := C54_finite_data (d := 1) (ranks := [()]) (by simp) (parts := fun _ => [[0], [1]]) (dom := fun _ _ => true)
    (rho := fun _ _ => 1) (rhou := fun _ _ _ => 3) (E := fun _ _ => 5) (big := 1) (by norm_num) (by simp) (by simp)
  refine ⟨m, e, fun hb => ?_⟩
  obtain ⟨_, -, _, -, hlt⟩ := h.1 hb
  simp at hlt
  norm_num at hlt

end Examples

end Heracles
