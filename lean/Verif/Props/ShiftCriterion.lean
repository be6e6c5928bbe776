import Verif.Model.Tabulated
import Verif.Lemmas.Distributed

/-!
# C71: the criterion of the setup `v1d` for the shift of the grid

The criterion is meant to ask for a shift when the flow reaches the speed `vmax_shift` in one of the last `cell_shift` cells of the domain
along the first direction. Cells of the global array are numbered from the first ghost: these are the indices from `nghost + nx - cell_shift`
to `nghost + nx - 1`.
-/

namespace Heracles

variable {d n : ℕ}

/-- The gas of one of the cells with `b ≤ C 0 < nghost 0 + nx 0`, in the domain along the other directions, moves with speed `vmax` or more along the first
axis. -/
def SpeedReached (nx nghost : Cell) (b : ℤ) (vmax : ℝ) (W : Cell → Fields (d + 1) n ℝ) : Prop :=
  ∃ C : Cell, (b ≤ C 0 ∧ C 0 < nghost 0 + nx 0) ∧ (∀ a, a ≠ 0 → nghost a ≤ C a ∧ C a < nghost a + nx a) ∧
    vmax ≤ (W C).rhou 0 / (W C).rho

/-- Ranks that together hold the state `W`, and how they distribute the loop of the criterion. -/
structure ShiftRun (nx : Cell) (ng : ℤ) (cs : ℤ) (W : Cell → Fields (d + 1) n ℝ) (dims : Cell) (topo : Cell → GridTopo)
    (parts : Cell → List (List Cell)) (D : DistView (Fields (d + 1) n ℝ)) : Prop where
  pos : ∀ a, 0 < dims a
  grids : ∀ r, inBox 0 dims r → GridTopo.mk? (d + 1) nx dims r ng = .ok (topo r)
  loops : ∀ r, inBox 0 dims r → IsPartition (parts r) (shiftWindow cs (topo r)).1 (shiftWindow cs (topo r)).2
  state : HoldsAll nx dims (nghostOf (d + 1) ng) W D

section
variable {nx : Cell} {ng cs : ℤ} {W : Cell → Fields (d + 1) n ℝ} {dims : Cell} {topo : Cell → GridTopo} {parts : Cell → List (List Cell)}
  {D : DistView (Fields (d + 1) n ℝ)}

theorem ShiftRun.fields (h : ShiftRun nx ng cs W dims topo parts D) (hN : ∀ a, 0 ≤ nx a) {r : Cell} (hr : inBox 0 dims r) :
    (topo r).nxLocal = (fun a => localSize (nx a) (dims a) (r a)) ∧ (topo r).nghost = nghostOf (d + 1) ng ∧ (topo r).rankCart = r ∧
    (topo r).dimsCart = dims := by
  obtain ⟨g, hg, -, -, q3, q4, -, -, q7, q8, -⟩ := GridTopo.mk?_ok (ndim := d + 1) (ng := ng) hN h.pos (fun a => (hr a).1)
  rw [h.grids r hr] at hg
  cases hg
  exact ⟨q3, q4, q7, q8⟩

theorem lastColumn_mem (h : ∀ a, 0 < dims a) : inBox 0 dims ![dims 0 - 1, 0, 0] := by
  intro a
  have h0 := h 0
  have h1 := h 1
  have h2 := h 2
  fin_cases a <;> simp <;> omega

/-- What a rank of the last column contributes. -/
theorem shiftSpeed_last (h : ShiftRun nx ng cs W dims topo parts D) (hN : ∀ a, 0 ≤ nx a) (hng : 0 ≤ ng)
    (hcs : cs ≤ localSize (nx 0) (dims 0) (dims 0 - 1)) (lo : ℝ) {r : Cell} (hr : inBox 0 dims r) (hl : r 0 = dims 0 - 1) :
    ∃ m, shiftSpeed lo (topo r) (parts r) (D.local r) = some m ∧ lo ≤ m ∧
      (∀ c, inBox (shiftWindow cs (topo r)).1 (shiftWindow cs (topo r)).2 c → (W (c + startCell nx dims r)).rhou 0 / (W (c + startCell nx dims r)).rho ≤ m) ∧
      (m = lo ∨ ∃ c, inBox (shiftWindow cs (topo r)).1 (shiftWindow cs (topo r)).2 c ∧ m = (W (c + startCell nx dims r)).rhou 0 / (W (c + startCell nx dims r)).rho) := by
  obtain ⟨q1, q2, q3, q4⟩ := h.fields hN hr
  have hg : ∀ a, 0 ≤ nghostOf (d + 1) ng a := fun a => by unfold nghostOf; split <;> omega
  have hin : ∀ c, inBox (shiftWindow cs (topo r)).1 (shiftWindow cs (topo r)).2 c → inExt (localExt nx dims (nghostOf (d + 1) ng) r) c = true := by
    intro c hc
    refine inExt_iff.2 fun a => ?_
    have ha := hc a
    have h0 := hg a
    simp only [localExt]
    fin_cases a
    · simp only [shiftWindow, q1, q2, Fin.zero_eta, Matrix.cons_val_zero] at ha h0 ⊢
      rw [hl] at ha ⊢
      omega
    · simp only [shiftWindow, q1, q2, Fin.mk_one, Matrix.cons_val_one, Matrix.cons_val_zero] at ha h0 ⊢
      omega
    · simp only [shiftWindow, q1, q2, Fin.reduceFinMk, Matrix.cons_val] at ha h0 ⊢
      omega
  have hmem : ∀ c, c ∈ (parts r).flatten ↔ inBox (shiftWindow cs (topo r)).1 (shiftWindow cs (topo r)).2 c := (h.loops r hr).2
  have hrd : ∀ c ∈ (parts r).flatten, (D.local r).rd c = some (W (c + startCell nx dims r)) := by
    intro c hc
    have hc' := hin c ((hmem c).1 hc)
    rw [View.rd_of_dom (by simp only [DistView.local, h.state.ext r hr]; exact hc')]
    simp only [DistView.local, h.state.val r hr c hc']
  have hop : (fun (c : Cell) (v : ℝ) => do
        let s ← (D.local r).rd c
        return kmax (s.rhou 0 / s.rho) v) = fun c v => do
        let s ← (D.local r).rd c
        return kmax v (s.rhou 0 / s.rho) := by
    have e : ∀ x v : ℝ, kmax x v = kmax v x := fun x v => by rw [kmax_eq, kmax_eq, max_comm]
    funext c v
    congr 1
    funext s
    rw [e]
  have key := parReduce_eq (e := lo) (join := kmax) (op := fun v s => kmax v (s.rhou 0 / s.rho)) hrd
  obtain ⟨k1, k2, k3⟩ := parReduce_max (e := lo) (parts := parts r) fun c => (W (c + startCell nx dims r)).rhou 0 / (W (c + startCell nx dims r)).rho
  refine ⟨_, ?_, k1, fun c hc => k2 c ((hmem c).2 hc), ?_⟩
  · unfold shiftSpeed
    rw [if_pos (by rw [q3, q4]; exact hl)]
    rw [hop]
    exact key
  · rcases k3 with k3 | ⟨c, hc, e⟩
    · exact Or.inl k3
    · exact Or.inr ⟨c, (hmem c).1 hc, e⟩

theorem shiftSpeed_other (h : ShiftRun nx ng cs W dims topo parts D) (hN : ∀ a, 0 ≤ nx a) (lo : ℝ) {r : Cell} (hr : inBox 0 dims r)
    (hl : r 0 ≠ dims 0 - 1) : shiftSpeed lo (topo r) (parts r) (D.local r) = some 0 := by
  obtain ⟨-, -, q3, q4⟩ := h.fields hN hr
  unfold shiftSpeed
  rw [if_neg (by rw [q3, q4]; exact hl)]

/-- The criterion stops the run if and only if the last process along the first direction has fewer than `cell_shift` cells: it depends on
the number of processes. -/
theorem C71_refused_iff (h : ShiftRun nx ng cs W dims topo parts D) (hN : ∀ a, 0 ≤ nx a) (vmax lo : ℝ) :
    (∃ e, tabShift vmax cs lo dims topo parts D = .error e) ↔ nx 0 / dims 0 < cs := by
  obtain ⟨q1, -⟩ := h.fields hN (lastColumn_mem h.pos)
  have hs : (topo ![dims 0 - 1, 0, 0]).nxLocal 0 = nx 0 / dims 0 := by
    rw [q1]
    simp only [Matrix.cons_val_zero]
    rw [localSize_eq (hN 0) (h.pos 0), if_neg (by have := Int.emod_lt_of_pos (nx 0) (h.pos 0); omega), add_zero]
  unfold tabShift
  rw [hs]
  constructor
  · rintro ⟨e, he⟩
    split_ifs at he with hc
    exact hc
  · intro hc
    rw [if_pos hc]
    exact ⟨_, rfl⟩

/-- The result of the criterion: the maximum over the ranks. -/
theorem tabShift_max (h : ShiftRun nx ng cs W dims topo parts D) (hN : ∀ a, 0 ≤ nx a) (hng : 0 ≤ ng) (hcs : cs ≤ nx 0 / dims 0) (vmax lo : ℝ) :
    ∃ m b, tabShift vmax cs lo dims topo parts D = .ok (some b) ∧ (b = true ↔ vmax ≤ m) ∧ (1 < dims 0 → 0 ≤ m) ∧
      (∀ C : Cell, nx 0 - cs ≤ C 0 → C 0 < nghostOf (d + 1) ng 0 + nx 0 → (∀ a, a ≠ 0 → nghostOf (d + 1) ng a ≤ C a ∧ C a < nghostOf (d + 1) ng a + nx a) →
        (W C).rhou 0 / (W C).rho ≤ m) ∧
      ((m = 0 ∧ 1 < dims 0) ∨ m = lo ∨ SpeedReached nx (nghostOf (d + 1) ng) (nx 0 - cs) m W) := by
  have hloc : localSize (nx 0) (dims 0) (dims 0 - 1) = nx 0 / dims 0 := by
    rw [localSize_eq (hN 0) (h.pos 0), if_neg (by have := Int.emod_lt_of_pos (nx 0) (h.pos 0); omega), add_zero]
  have hst : localStart (nx 0) (dims 0) (dims 0 - 1) + localSize (nx 0) (dims 0) (dims 0 - 1) = nx 0 := by
    rw [← localStart_succ (hN 0) (h.pos 0), sub_add_cancel, localStart_top (hN 0) (h.pos 0)]
  have hcs' : cs ≤ localSize (nx 0) (dims 0) (dims 0 - 1) := by rw [hloc]; exact hcs
  have hex : ∀ r, ∃ m, inBox 0 dims r → shiftSpeed lo (topo r) (parts r) (D.local r) = some m := by
    intro r
    by_cases hr : inBox 0 dims r
    · by_cases hl : r 0 = dims 0 - 1
      · obtain ⟨m, hm, -⟩ := shiftSpeed_last h hN hng hcs' lo hr hl
        exact ⟨m, fun _ => hm⟩
      · exact ⟨0, fun _ => shiftSpeed_other h hN lo hr hl⟩
    · exact ⟨0, fun h' => absurd h' hr⟩
  choose M hM using hex
  have hmap := mapM_some (boxList 0 dims) (f := fun r => shiftSpeed lo (topo r) (parts r) (D.local r)) (g := M)
    fun r hr => hM r (((boxList_isSchedule 0 dims).2 r).1 hr)
  have hroot := lastColumn_mem h.pos
  have hmemr : ∀ r, inBox 0 dims r → M r ∈ (boxList 0 dims).map M := fun r hr =>
    List.mem_map.2 ⟨r, ((boxList_isSchedule 0 dims).2 r).2 hr, rfl⟩
  obtain ⟨m, e, hm1, hm2⟩ := allReduce_max (l := (boxList 0 dims).map M) (fun h' => by
    have := hmemr _ hroot
    rw [h'] at this
    cases this)
  have hnr : ¬ (topo ![dims 0 - 1, 0, 0]).nxLocal 0 < cs := by
    obtain ⟨q1, -⟩ := h.fields hN hroot
    rw [q1]
    simp only [Matrix.cons_val_zero]
    omega
  have hother : ∀ r, inBox 0 dims r → r 0 ≠ dims 0 - 1 → M r = 0 := fun r hr hl => by
    have := hM r hr
    rw [shiftSpeed_other h hN lo hr hl] at this
    exact (Option.some.inj this).symm
  have hwin : ∀ r, inBox 0 dims r → r 0 = dims 0 - 1 → ∀ c, inBox (shiftWindow cs (topo r)).1 (shiftWindow cs (topo r)).2 c ↔
      (nx 0 - cs ≤ (c + startCell nx dims r) 0 ∧ (c + startCell nx dims r) 0 < nghostOf (d + 1) ng 0 + nx 0) ∧
      ∀ a, a ≠ 0 → localStart (nx a) (dims a) (r a) ≤ (c + startCell nx dims r) a - nghostOf (d + 1) ng a ∧
        (c + startCell nx dims r) a - nghostOf (d + 1) ng a < localStart (nx a) (dims a) (r a) + localSize (nx a) (dims a) (r a) := by
    intro r hr hl c
    obtain ⟨q1, q2, -, -⟩ := h.fields hN hr
    simp only [startCell, Pi.add_apply]
    constructor
    · intro hc
      have c0 := hc 0
      have c1 := hc 1
      have c2 := hc 2
      simp only [shiftWindow, q1, q2, Matrix.cons_val_zero, Matrix.cons_val_one, Matrix.cons_val] at c0 c1 c2
      rw [hl] at c0 ⊢
      refine ⟨by omega, fun a ha => ?_⟩
      fin_cases a
      · exact absurd rfl ha
      · simp only [Fin.mk_one]; omega
      · simp only [Fin.reduceFinMk]; omega
    · rintro ⟨c0, hc⟩ a
      have c1 := hc 1 (by decide)
      have c2 := hc 2 (by decide)
      rw [hl] at c0
      fin_cases a
      · simp only [shiftWindow, q1, q2, Matrix.cons_val_zero, Fin.zero_eta, hl]; omega
      · simp only [shiftWindow, q1, q2, Matrix.cons_val_zero, Matrix.cons_val_one, Fin.mk_one]; omega
      · simp only [shiftWindow, q1, q2, Matrix.cons_val, Fin.reduceFinMk]; omega
  refine ⟨m, decide (m ≥ vmax), ?_, by simp, fun hd => ?_, fun C hC1 hC2 hC3 => ?_, ?_⟩
  · unfold tabShift
    rw [if_neg hnr, hmap]
    simp only [Option.bind_eq_bind, Option.bind_some, e]
    rfl
  · have hr : inBox 0 dims 0 := fun a => ⟨le_rfl, h.pos a⟩
    rw [← hother 0 hr (by simp only [Pi.zero_apply]; omega)]
    exact hm2 _ (hmemr 0 hr)
  · obtain ⟨r1, a1, a2, a3, a4⟩ := exists_owner (hN 1) (h.pos 1) (c := C 1 - nghostOf (d + 1) ng 1) (by have := hC3 1 (by decide); omega) (by have := hC3 1 (by decide); omega)
    obtain ⟨r2, b1, b2, b3, b4⟩ := exists_owner (hN 2) (h.pos 2) (c := C 2 - nghostOf (d + 1) ng 2) (by have := hC3 2 (by decide); omega) (by have := hC3 2 (by decide); omega)
    have hr : inBox 0 dims ![dims 0 - 1, r1, r2] := by
      intro a
      have := h.pos 0
      fin_cases a <;> simp <;> omega
    obtain ⟨m', hm', -, hm'2, -⟩ := shiftSpeed_last h hN hng hcs' lo hr rfl
    have hmm : M ![dims 0 - 1, r1, r2] = m' := Option.some.inj ((hM _ hr).symm.trans hm')
    have hc := hm'2 (C - startCell nx dims ![dims 0 - 1, r1, r2]) ((hwin _ hr rfl _).2 (by
      rw [sub_add_cancel]
      refine ⟨⟨hC1, hC2⟩, fun a ha => ?_⟩
      fin_cases a
      · exact absurd rfl ha
      · exact ⟨a3, a4⟩
      · exact ⟨b3, b4⟩))
    rw [sub_add_cancel] at hc
    refine hc.trans ?_
    rw [← hmm]
    exact hm2 _ (hmemr _ hr)
  · obtain ⟨r, hr, e'⟩ := List.mem_map.1 hm1
    have hr := ((boxList_isSchedule 0 dims).2 r).1 hr
    by_cases hl : r 0 = dims 0 - 1
    · obtain ⟨m', hm', -, -, hm'3⟩ := shiftSpeed_last h hN hng hcs' lo hr hl
      have hmm : M r = m' := Option.some.inj ((hM _ hr).symm.trans hm')
      rw [← hmm, e'] at hm'3
      rcases hm'3 with h' | ⟨c, hc, h'⟩
      · exact Or.inr (Or.inl h')
      · right; right
        obtain ⟨c0, hc⟩ := (hwin r hr hl c).1 hc
        refine ⟨_, c0, fun a ha => ?_, h'.le⟩
        have h1 := hc a ha
        have h2 := localStart_nonneg (hN a) (h.pos a) (hr a).1
        have h3 := localStart_add_size_le (N := nx a) (hN a) (h.pos a) (hr a).2
        omega
    · left
      rw [hother r hr hl] at e'
      refine ⟨e'.symm, ?_⟩
      have := hr 0
      simp only [Pi.zero_apply] at this
      omega

/-- **C71, partial.** A positive threshold, on any process grid that the criterion accepts: the answer is the same on all of them. It is yes
if and only if the speed is reached in one of the last `cell_shift + nghost` columns. The intended set is that of the last `cell_shift`
columns, see `C71_window_violated`. -/
theorem C71_reached_partial (h : ShiftRun nx ng cs W dims topo parts D) (hN : ∀ a, 0 ≤ nx a) (hng : 0 ≤ ng) (hcs : cs ≤ nx 0 / dims 0)
    {vmax lo : ℝ} (hv : 0 < vmax) (hlo : lo < 0) :
    ∃ b, tabShift vmax cs lo dims topo parts D = .ok (some b) ∧
      (b = true ↔ SpeedReached nx (nghostOf (d + 1) ng) (nghostOf (d + 1) ng 0 + nx 0 - (cs + nghostOf (d + 1) ng 0)) vmax W) := by
  obtain ⟨m, b, h1, h2, -, h4, h5⟩ := tabShift_max h hN hng hcs vmax lo
  have hb : nghostOf (d + 1) ng 0 + nx 0 - (cs + nghostOf (d + 1) ng 0) = nx 0 - cs := by ring
  rw [hb]
  refine ⟨b, h1, h2.trans ⟨fun hm => ?_, ?_⟩⟩
  · rcases h5 with ⟨h5, -⟩ | h5 | ⟨C, c0, c1, c2⟩
    · linarith
    · linarith
    · exact ⟨C, c0, c1, hm.trans c2⟩
  · rintro ⟨C, ⟨c0, c0'⟩, c1, c2⟩
    exact c2.trans (h4 C c0 c0' c1)

/-- **C71, partial.** One process along the first direction: the same holds for every threshold. -/
theorem C71_one_column_partial (h : ShiftRun nx ng cs W dims topo parts D) (hN : ∀ a, 0 ≤ nx a) (hng : 0 ≤ ng) (hcs : cs ≤ nx 0)
    (h1c : dims 0 = 1) {vmax lo : ℝ} (hlo : lo < vmax) :
    ∃ b, tabShift vmax cs lo dims topo parts D = .ok (some b) ∧
      (b = true ↔ SpeedReached nx (nghostOf (d + 1) ng) (nghostOf (d + 1) ng 0 + nx 0 - (cs + nghostOf (d + 1) ng 0)) vmax W) := by
  obtain ⟨m, b, h1, h2, -, h4, h5⟩ := tabShift_max h hN hng (by rw [h1c, Int.ediv_one]; exact hcs) vmax lo
  have hb : nghostOf (d + 1) ng 0 + nx 0 - (cs + nghostOf (d + 1) ng 0) = nx 0 - cs := by ring
  rw [hb]
  refine ⟨b, h1, h2.trans ⟨fun hm => ?_, ?_⟩⟩
  · rcases h5 with ⟨-, h5⟩ | h5 | ⟨C, c0, c1, c2⟩
    · omega
    · linarith
    · exact ⟨C, c0, c1, hm.trans c2⟩
  · rintro ⟨C, ⟨c0, c0'⟩, c1, c2⟩
    exact c2.trans (h4 C c0 c0' c1)

/-- **C71, violated.** With two or more processes along the first direction and a threshold that is zero (its default) or negative, the
answer is yes whatever the gas does: the ranks that do not hold the last cells contribute the speed 0. -/
theorem C71_always_shifts (h : ShiftRun nx ng cs W dims topo parts D) (hN : ∀ a, 0 ≤ nx a) (hng : 0 ≤ ng) (hcs : cs ≤ nx 0 / dims 0)
    (h2c : 1 < dims 0) {vmax : ℝ} (hv : vmax ≤ 0) (lo : ℝ) : tabShift vmax cs lo dims topo parts D = .ok (some true) := by
  obtain ⟨m, b, h1, h2, h3, -⟩ := tabShift_max h hN hng hcs vmax lo
  rw [h1, h2.2 (hv.trans (h3 h2c))]

end

/-- Every decomposition of a state is one of the runs above. -/
theorem exists_shiftRun {nx : Cell} {ng : ℤ} (cs : ℤ) (W : Cell → Fields (d + 1) n ℝ) {dims : Cell} (hN : ∀ a, 0 ≤ nx a) (hd : ∀ a, 0 < dims a) :
    ∃ topo parts D, ShiftRun nx ng cs W dims topo parts D := by
  have hex : ∀ r, ∃ t, inBox 0 dims r → GridTopo.mk? (d + 1) nx dims r ng = .ok t := by
    intro r
    by_cases hr : inBox 0 dims r
    · obtain ⟨t, ht, -⟩ := GridTopo.mk?_ok (ndim := d + 1) (ng := ng) hN hd (fun a => (hr a).1)
      exact ⟨t, fun _ => ht⟩
    · obtain ⟨t, ht, -⟩ := GridTopo.mk?_ok (ndim := d + 1) (rank := 0) (ng := ng) hN hd (fun a => le_rfl)
      exact ⟨t, fun h => absurd h hr⟩
  choose topo ht using hex
  exact ⟨topo, fun r => [boxList (shiftWindow cs (topo r)).1 (shiftWindow cs (topo r)).2],
    ⟨fun r => localExt nx dims (nghostOf (d + 1) ng) r, fun r c => W (c + startCell nx dims r)⟩, hd, ht, fun r _ => isPartition_box _ _,
    ⟨fun _ _ => rfl, fun _ _ _ _ => rfl⟩⟩

/-- **C71, violated.** The default parameters of the setup, a gas that recedes everywhere: no shift on one process, a shift on two. -/
theorem C71_depends_on_processes {nx : Cell} (hN : ∀ a, 0 < nx a) {ng : ℤ} (hng : 0 ≤ ng) {lo : ℝ} (hlo : lo < 0) :
    ∃ (W : Cell → Fields (d + 1) n ℝ) (t1 t2 : Cell → GridTopo) (p1 p2 : Cell → List (List Cell)) (D1 D2 : DistView (Fields (d + 1) n ℝ)),
      ShiftRun nx ng 0 W ![1, 1, 1] t1 p1 D1 ∧ ShiftRun nx ng 0 W ![2, 1, 1] t2 p2 D2 ∧
      tabShift 0 0 lo ![1, 1, 1] t1 p1 D1 = .ok (some false) ∧ tabShift 0 0 lo ![2, 1, 1] t2 p2 D2 = .ok (some true) := by
  have hN' : ∀ a, 0 ≤ nx a := fun a => (hN a).le
  let W : Cell → Fields (d + 1) n ℝ := fun _ => ⟨1, fun _ => -1, 1, 0⟩
  obtain ⟨t1, p1, D1, h1⟩ := exists_shiftRun (nx := nx) (ng := ng) 0 W (dims := ![1, 1, 1]) hN' (by decide)
  obtain ⟨t2, p2, D2, h2⟩ := exists_shiftRun (nx := nx) (ng := ng) 0 W (dims := ![2, 1, 1]) hN' (by decide)
  refine ⟨W, t1, t2, p1, p2, D1, D2, h1, h2, ?_, C71_always_shifts h2 hN' hng (Int.ediv_nonneg (hN' 0) (by decide)) (by decide) le_rfl lo⟩
  obtain ⟨b, e1, e2⟩ := C71_one_column_partial h1 hN' hng (hN' 0) rfl hlo
  rw [e1]
  have hb : ¬ b = true := fun hb => by
    obtain ⟨C, -, -, hC⟩ := e2.1 hb
    norm_num [W] at hC
  rw [Bool.not_eq_true] at hb
  rw [hb]

open Classical in
/-- **C71, violated.** A threshold of any positive value, ghosts, a window of `cell_shift` cells that leaves `nghost` cells of the domain: a gas
that moves only in the column before the window, and rests in all of the last `cell_shift` columns, causes a shift on every process grid that
is accepted. -/
theorem C71_window_violated {nx : Cell} (hN : ∀ a, 0 < nx a) {ng cs : ℤ} (hng : 0 < ng) (hcs0 : 0 ≤ cs) (hfit : cs + ng ≤ nx 0) {vmax lo : ℝ}
    (hv : 0 < vmax) (hlo : lo < 0) : ∃ W : Cell → Fields (d + 1) n ℝ, (∀ C, 0 < (W C).rho) ∧
      (∀ C : Cell, nghostOf (d + 1) ng 0 + nx 0 - cs ≤ C 0 → (W C).rhou = 0) ∧
      ∀ dims topo parts D, ShiftRun nx ng cs W dims topo parts D → cs ≤ nx 0 / dims 0 → tabShift vmax cs lo dims topo parts D = .ok (some true) := by
  have h0 : nghostOf (d + 1) ng 0 = ng := by simp [nghostOf]
  have hg : ∀ a, 0 ≤ nghostOf (d + 1) ng a := fun a => by unfold nghostOf; split <;> omega
  refine ⟨fun C => ⟨1, fun _ => if C 0 = nx 0 - cs then vmax else 0, 1, 0⟩, fun _ => one_pos, fun C hC => ?_, fun dims topo parts D h hcs => ?_⟩
  · funext i
    show (if C 0 = nx 0 - cs then vmax else 0) = 0
    rw [if_neg (by omega)]
  · obtain ⟨b, e1, e2⟩ := C71_reached_partial h (fun a => (hN a).le) hng.le hcs hv hlo
    rw [e1, e2.2 ⟨fun a => if a = 0 then nx 0 - cs else nghostOf (d + 1) ng a, ⟨by show _ ≤ nx 0 - cs; omega, by show nx 0 - cs < _; omega⟩, fun a ha => ?_, by simp⟩]
    have := hN a
    dsimp only
    rw [if_neg ha]
    omega

/-- The hypotheses on a decomposed state are met by every state and every process grid; here one that reaches the speed 3 in its last
column. -/
example : ∃ (topo : Cell → GridTopo) (parts : Cell → List (List Cell)) (D : DistView (Fields 2 1 ℝ)),
    ShiftRun ![8, 4, 1] 2 2 (fun C => ⟨1, ![if C 0 = 9 then 3 else 0, 0], 1, 0⟩) ![2, 2, 1] topo parts D ∧
    tabShift 2.5 2 (-1000) ![2, 2, 1] topo parts D = .ok (some true) ∧ tabShift 3.5 2 (-1000) ![2, 2, 1] topo parts D = .ok (some false) := by
  have hN : ∀ a, 0 ≤ (![8, 4, 1] : Cell) a := by decide
  obtain ⟨topo, parts, D, h⟩ := exists_shiftRun (d := 1) (n := 1) (nx := ![8, 4, 1]) (ng := 2) 2
    (fun C => ⟨1, ![if C 0 = 9 then 3 else 0, 0], 1, 0⟩) (dims := ![2, 2, 1]) hN (by decide)
  refine ⟨topo, parts, D, h, ?_, ?_⟩
  · obtain ⟨b, e1, e2⟩ := C71_reached_partial h hN (by norm_num) (by decide) (vmax := 2.5) (lo := -1000) (by norm_num) (by norm_num)
    rw [e1, e2.2 ⟨![9, 2, 0], by decide, by decide, by norm_num⟩]
  · obtain ⟨b, e1, e2⟩ := C71_reached_partial h hN (by norm_num) (by decide) (vmax := 3.5) (lo := -1000) (by norm_num) (by norm_num)
    rw [e1]
    have hb : ¬ b = true := fun hb => by
      obtain ⟨C, -, -, hC⟩ := e2.1 hb
      simp only [Matrix.cons_val_zero, div_one] at hC
      split_ifs at hC <;> norm_num at hC
    rw [Bool.not_eq_true] at hb
    rw [hb]

/-- A window of six cells in a domain of eight: accepted on one process, refused on two. -/
example (W : Cell → Fields 1 0 ℝ) (topo : Cell → GridTopo) (parts : Cell → List (List Cell)) (D : DistView (Fields 1 0 ℝ))
    (h : ShiftRun ![8, 1, 1] 2 6 W ![2, 1, 1] topo parts D) : ∃ e, tabShift 1 6 (-1000) ![2, 1, 1] topo parts D = .error e :=
  (C71_refused_iff h (by decide) 1 (-1000)).2 (by decide)

end Heracles
