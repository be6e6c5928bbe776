import Verif.Lemmas.Ramp
import Verif.Props.Locality
import Verif.Props.NanRun

/-!
# C94: a linear density in a uniform wind is carried exactly
-/

namespace Heracles

variable {d n : ℕ} {K : Type} [Field K] [LinearOrder K] [IsStrictOrderedRing K]

omit [LinearOrder K] [IsStrictOrderedRing K] in
theorem runTime_drop (policy : List K → K) {hist : List K} {j : ℕ} (hj : j < hist.length) :
    runTime policy (hist.drop j) = runTime policy (hist.drop (j + 1)) + policy (hist.drop j) := by
  rw [List.drop_eq_getElem_cons hj]
  rfl

theorem Deep.nb {nx : Cell} {r : ℤ} {g : Cell} (h : Deep d nx r g) (a : Fin d) {i : ℤ} (h1 : -1 ≤ i) (h2 : i ≤ 1) :
    Deep d nx (r - 1) (nb g (ax a) i) := by
  intro b hb
  have := h b hb
  unfold Heracles.nb
  by_cases hba : b = ax a
  · subst hba
    rw [Function.update_self]
    omega
  · rw [Function.update_of_ne hba]
    omega

theorem inBox_nb_deep {nx : Cell} {r : ℤ} {g : Cell} (hg : inBox 0 nx g) (hd : d ≤ 3) (a : Fin d) {i : ℤ}
    (h : Deep d nx r (nb g (ax a) i)) (hr : 0 ≤ r) : inBox 0 nx (nb g (ax a) i) := by
  intro b
  by_cases hba : b = ax a
  · subst hba
    have := h (ax a) (by rw [ax_val hd]; exact a.isLt)
    show 0 ≤ _ ∧ _
    omega
  · have := hg b
    unfold nb
    rw [Function.update_of_ne hba]
    exact this

theorem inExt_glob_add {nx : Cell} {ng : ℤ} (hng : 0 ≤ ng) {g : Cell} (hg : inBox 0 nx g) : inExt (globExt nx (nghostOf d ng)) (g + nghostOf d ng) = true := by
  rw [inExt_iff]
  intro a
  have h1 : (0 : ℤ) ≤ g a ∧ g a < nx a := hg a
  have h2 : 0 ≤ nghostOf d ng a := by unfold nghostOf; split <;> omega
  simp only [globExt, Pi.add_apply]
  omega

/-- **C94.** Exact arithmetic over any ordered field, any Cartesian mesh (uniform or not), any limiter with slopes, any of the three
solvers, no gravity, a gas whose energy per volume depends on pressure only (perfect gas), any decomposition, boundary conditions and time
step policy. The initial state has the uniform velocity and pressure `w` and a linear density. Then any number `i` of iterations
completes, and in all cells at least `2 i` cells away from the faces of the domain the run holds, without any error, the exact solution: the same
velocity and pressure, and the density moved by the wind for the time reached, whatever the time steps, even larger than those the
stability condition allows. Asked of the data: time steps are not negative, and the exact density is positive in the domain up to the time reached. -/
theorem C94_linear_density_carried (hd3 : d ≤ 3) {p : KernelParams d n K} {lim : Limiter} (hl : lim ≠ .constant) {sol : Solver} {eos : EoS K}
    {tr : Trig K} (hk : p.k = exactKernels lim sol eos tr .cartesian none) (hgeom : p.geom = .cartesian) (he : eos.Lawful)
    {w : VelPres d K} {e : K} (hev : ∀ r, 0 < r → eos.evolFromPres r w.P = e) (hP : 0 < w.P)
    {nx : Cell} {ng : ℤ} (hN : ∀ a, 0 ≤ nx a) (hng : 2 ≤ ng) (hb : ∀ a f, p.bcs a f ≠ .userDefined) {order : List ℕ}
    (ho : ∀ id ∈ order, id < 2 * d) (hpo : p.order = order.map some) {X : Fin 3 → ℤ → K}
    (hX : ∀ a i, 0 ≤ i → i < nx a + 2 * nghostOf d ng a → X a i < X a (i + 1))
    {Gr : (Cell → Fields d n K) → Cell → Fin d → K} (hGr : ∀ W c a, Gr W c a = 0) {dims : Cell}
    {sched : Cell → Cell → List Cell} {grav : DistView (Fields d n K) → Cell → GravField d K} {M : ℕ → Cell → RankMem d n K}
    {lf : ℕ → Cell → List Cell} (h : KDecomposition p nx ng X Gr dims sched grav M lf) {v : K} {s : Fin d → K} {G : Cell → Fields d n K}
    (hG : ∀ g, inBox 0 nx g → (G g).cons = toCons eos ⟨linearProfile v s w.u 0 (cellCentre X (g + nghostOf d ng)), w.u, w.P⟩)
    {D : DistView (Fields d n K)} (hext : ∀ rank, inBox 0 dims rank → D.ext rank = localExt nx dims (nghostOf d ng) rank)
    (hint : ∀ rank, inBox 0 dims rank → ∀ c, inBox (nghostOf d ng) (fun a => D.ext rank a - nghostOf d ng a) c →
      D.val rank c = G (globalOf nx dims (nghostOf d ng) rank c)) (i : ℕ) :
    ∃ R hist, kRun p sched (borderOf dims) (nghostOf d ng) dims grav M lf D i = some (R, hist) ∧ hist.length = i ∧
      ((∀ j < i, 0 ≤ p.policy (hist.drop j)) →
        (∀ g, inBox 0 nx g → ∀ y, InCell X (g + nghostOf d ng) y → ∀ t, 0 ≤ t → t ≤ runTime p.policy hist → 0 < linearProfile v s w.u t y) →
        ∀ rank c, inBox 0 dims rank → inExt (localExt nx dims (nghostOf d ng) rank) c = true →
          inBox 0 nx (globalOf nx dims (nghostOf d ng) rank c) → Deep d nx (2 * i) (globalOf nx dims (nghostOf d ng) rank c) →
          (R.val rank c).cons = toCons eos
            ⟨linearProfile v s w.u (runTime p.policy hist) (cellCentre X (globalOf nx dims (nghostOf d ng) rank c + nghostOf d ng)), w.u, w.P⟩) := by
  obtain ⟨W, R, hist, e1, elen, e2, e3, e4⟩ := kRun_global hd3 hN hng hb ho hpo h hext hint i
  refine ⟨R, hist, e1, elen, fun hdt hpos rank c hr hc hin hdeep => ?_⟩
  have hng0 : 0 ≤ ng := by omega
  set T : ℕ → K := fun j => runTime p.policy (hist.drop (i - j)) with hT
  have hT0 : T 0 = 0 := by simp [hT, elen.symm, runTime]
  have hTs : ∀ j < i, T (j + 1) = T j + p.policy (hist.drop (i - (j + 1))) := by
    intro j hj
    simp only [hT]
    rw [runTime_drop p.policy (by omega), show i - (j + 1) + 1 = i - j by omega]
  have hTi : T i = runTime p.policy hist := by simp [hT]
  have hmono : ∀ j ≤ i, ∀ m ≤ j, T m ≤ T j := by
    intro j
    induction j with
    | zero => intro _ m hm; rw [Nat.le_zero.1 hm]
    | succ j ih =>
      intro hj m hm
      rcases Nat.lt_succ_iff_lt_or_eq.1 (Nat.lt_succ_of_le hm) with hm | rfl
      · have := hTs j (by omega)
        have h1 := ih (by omega) m (by omega)
        have h2 := hdt (i - (j + 1)) (by omega)
        linarith
      · exact le_rfl
  have hinE := fun g (hg : inBox 0 nx g) => inExt_glob_add (d := d) (ng := ng) hng0 hg
  have key : ∀ j ≤ i, ∀ g, inBox 0 nx g → Deep d nx (2 * j) g →
      (W j (g + nghostOf d ng)).cons = toCons eos ⟨linearProfile v s w.u (T j) (cellCentre X (g + nghostOf d ng)), w.u, w.P⟩ := by
    intro j
    induction j with
    | zero =>
      intro _ g hg _
      rw [e3, bcGlob_inside p.bcs hd3 (by omega) ho _ hg, hG g hg, hT0]
    | succ j ih =>
      intro hj g hg hdeep
      rw [e4 j (by omega)]
      unfold kIterGlob
      rw [bcGlob_inside p.bcs hd3 (by omega) ho _ hg, hk, hgeom, kStepVal_exact hd3, hTs j (by omega)]
      have hsplit : ∀ c : Cell, c = (c - nghostOf d ng) + nghostOf d ng := fun c => (sub_add_cancel _ _).symm
      have hpos' : ∀ c : Cell, inBox 0 nx c → ∀ y, InCell X (c + nghostOf d ng) y → ∀ t', t' = 0 ∨ t' = p.policy (hist.drop (i - (j + 1))) / 2 ∨
          t' = p.policy (hist.drop (i - (j + 1))) → 0 < linearProfile v s w.u (T j + t') y := by
        intro c hc y hy t' ht'
        have q1 := hdt (i - (j + 1)) (by omega)
        have q2 := hTs j (by omega)
        have q3 := hmono i le_rfl (j + 1) hj
        have q4 := hmono j (by omega) 0 (by omega)
        refine hpos c hc y hy _ ?_ ?_
        · rcases ht' with rfl | rfl | rfl <;> linarith
        · rcases ht' with rfl | rfl | rfl <;> linarith
      have hn1 : ∀ (a : Fin d) (t : ℤ), -1 ≤ t → t ≤ 1 → inBox 0 nx (nb g (ax a) t) ∧ Deep d nx (2 * j + 1) (nb g (ax a) t) := by
        intro a t h1 h2
        have q := hdeep.nb a h1 h2
        rw [show (2 * ((j + 1 : ℕ) : ℤ) - 1) = 2 * j + 1 by push_cast; ring] at q
        exact ⟨inBox_nb_deep hg hd3 a q (by omega), q⟩
      have hW : ∀ c, inBox 0 nx (c - nghostOf d ng) ∧ Deep d nx (2 * j) (c - nghostOf d ng) →
          (W j c).cons = toCons eos ⟨linearProfile v s w.u (T j) (cellCentre X c), w.u, w.P⟩ := by
        intro c hc
        have := ih (by omega) _ hc.1 hc.2
        rwa [← hsplit c] at this
      refine linear_step (B := fun c => inBox 0 nx (c - nghostOf d ng) ∧ Deep d nx (2 * j) (c - nghostOf d ng)) (ext := globExt nx (nghostOf d ng))
        hd3 hl (kGrid_geo (n := n) _ _ _ _ _) (fun _ _ => rfl) (fun c a => hGr _ c a) he hev hP (fun c hc => ?_) (fun c hc b => ?_) hW (fun c hc => ?_)
        (fun c hc y hy t' ht' => ?_) (fun a t h1 h2 => ?_) ?_ (fun a b t t' h1 h2 h3 h4 => ?_)
      · rw [hsplit c]; exact hinE _ hc.1
      · have := inExt_iff.1 hc b
        exact hX b _ this.1 this.2
      · have q := hW c hc
        have hr : 0 < linearProfile v s w.u (T j) (cellCentre X c) := by
          have := hpos' _ hc.1 (cellCentre X c) (by
            rw [← hsplit c]
            intro b
            have hi := inExt_iff.1 (show inExt (globExt nx (nghostOf d ng)) c = true by rw [hsplit c]; exact hinE _ hc.1) (ax b)
            have := hX (ax b) _ hi.1 hi.2
            unfold cellCentre
            constructor <;> linarith) 0 (Or.inl rfl)
          rwa [add_zero] at this
        have := toPrim_toCons he (p := ⟨linearProfile v s w.u (T j) (cellCentre X c), w.u, w.P⟩) hr
        unfold kPrimGlob
        show VelPres.mk (toPrim eos (W j c).cons).u (toPrim eos (W j c).cons).P = w
        rw [q, this]
      · exact hpos' _ hc.1 y (by rwa [← hsplit c]) t' ht'
      · rw [nb_add, add_sub_cancel_right]
        exact ⟨(hn1 a t h1 h2).1, fun b hb => by have := (hn1 a t h1 h2).2 b hb; omega⟩
      · rw [add_sub_cancel_right]
        exact ⟨hg, fun b hb => by have := hdeep b hb; push_cast at this; omega⟩
      · rw [nb_add, nb_add, add_sub_cancel_right]
        obtain ⟨q1, q2⟩ := hn1 a t h1 h2
        have q3 := q2.nb b h3 h4
        rw [add_sub_cancel_right] at q3
        exact ⟨inBox_nb_deep q1 hd3 b q3 (by omega), q3⟩
  have hsh : c + startCell nx dims rank = globalOf nx dims (nghostOf d ng) rank c + nghostOf d ng := by
    funext a
    simp only [Pi.add_apply, globalOf, startCell]
    ring
  rw [e2.val rank hr c hc, hsh, key i le_rfl _ hin hdeep, hTi]

/-- **C94, mass fractions.** The same with a uniform density, any equation of state and a mass fraction `f` that is linear and, in the middle of the cells of the domain, in `[0, 1]` at
all times reached: it is carried exactly, and density, velocity and pressure stay. -/
theorem C94_linear_fraction_carried (hd3 : d ≤ 3) {p : KernelParams d n K} {lim : Limiter} (hl : lim ≠ .constant) {sol : Solver} {eos : EoS K}
    {tr : Trig K} (hk : p.k = exactKernels lim sol eos tr .cartesian none) (hgeom : p.geom = .cartesian) (he : eos.Lawful)
    {w : VelPres d K} (hP : 0 < w.P) {r : K} (hr0 : 0 < r)
    {nx : Cell} {ng : ℤ} (hN : ∀ a, 0 ≤ nx a) (hng : 2 ≤ ng) (hb : ∀ a f, p.bcs a f ≠ .userDefined) {order : List ℕ}
    (ho : ∀ id ∈ order, id < 2 * d) (hpo : p.order = order.map some) {X : Fin 3 → ℤ → K}
    (hX : ∀ a i, 0 ≤ i → i < nx a + 2 * nghostOf d ng a → X a i < X a (i + 1))
    {Gr : (Cell → Fields d n K) → Cell → Fin d → K} (hGr : ∀ W c a, Gr W c a = 0) {dims : Cell}
    {sched : Cell → Cell → List Cell} {grav : DistView (Fields d n K) → Cell → GravField d K} {M : ℕ → Cell → RankMem d n K}
    {lf : ℕ → Cell → List Cell} (h : KDecomposition p nx ng X Gr dims sched grav M lf) {v : K} {s : Fin d → K} {f : Fin n} {G : Cell → Fields d n K}
    (hG : ∀ g, inBox 0 nx g → (G g).cons = toCons eos ⟨r, w.u, w.P⟩ ∧ (G g).fx f = linearProfile v s w.u 0 (cellCentre X (g + nghostOf d ng)))
    {D : DistView (Fields d n K)} (hext : ∀ rank, inBox 0 dims rank → D.ext rank = localExt nx dims (nghostOf d ng) rank)
    (hint : ∀ rank, inBox 0 dims rank → ∀ c, inBox (nghostOf d ng) (fun a => D.ext rank a - nghostOf d ng a) c →
      D.val rank c = G (globalOf nx dims (nghostOf d ng) rank c)) (i : ℕ) :
    ∃ R hist, kRun p sched (borderOf dims) (nghostOf d ng) dims grav M lf D i = some (R, hist) ∧ hist.length = i ∧
      ((∀ j ≤ i, ∀ g, inBox 0 nx g → 0 ≤ linearProfile v s w.u (runTime p.policy (hist.drop j)) (cellCentre X (g + nghostOf d ng)) ∧
          linearProfile v s w.u (runTime p.policy (hist.drop j)) (cellCentre X (g + nghostOf d ng)) ≤ 1) →
        ∀ rank c, inBox 0 dims rank → inExt (localExt nx dims (nghostOf d ng) rank) c = true →
          inBox 0 nx (globalOf nx dims (nghostOf d ng) rank c) → Deep d nx (2 * i) (globalOf nx dims (nghostOf d ng) rank c) →
          (R.val rank c).cons = toCons eos ⟨r, w.u, w.P⟩ ∧ (R.val rank c).fx f =
            linearProfile v s w.u (runTime p.policy hist) (cellCentre X (globalOf nx dims (nghostOf d ng) rank c + nghostOf d ng))) := by
  obtain ⟨W, R, hist, e1, elen, e2, e3, e4⟩ := kRun_global hd3 hN hng hb ho hpo h hext hint i
  refine ⟨R, hist, e1, elen, fun h01 rank c hr hc hin hdeep => ?_⟩
  set T : ℕ → K := fun j => runTime p.policy (hist.drop (i - j)) with hT
  have hT0 : T 0 = 0 := by simp [hT, elen.symm, runTime]
  have hTs : ∀ j < i, T (j + 1) = T j + p.policy (hist.drop (i - (j + 1))) := by
    intro j hj
    simp only [hT]
    rw [runTime_drop p.policy (by omega), show i - (j + 1) + 1 = i - j by omega]
  have hTi : T i = runTime p.policy hist := by simp [hT]
  have hinE := fun g (hg : inBox 0 nx g) => inExt_glob_add (d := d) (ng := ng) (by omega) hg
  have key : ∀ j ≤ i, ∀ g, inBox 0 nx g → Deep d nx (2 * j) g →
      (W j (g + nghostOf d ng)).cons = toCons eos ⟨r, w.u, w.P⟩ ∧
        (W j (g + nghostOf d ng)).fx f = linearProfile v s w.u (T j) (cellCentre X (g + nghostOf d ng)) := by
    intro j
    induction j with
    | zero =>
      intro _ g hg _
      rw [e3, bcGlob_inside p.bcs hd3 (by omega) ho _ hg, hT0]
      exact hG g hg
    | succ j ih =>
      intro hj g hg hdeep
      rw [e4 j (by omega)]
      unfold kIterGlob
      rw [bcGlob_inside p.bcs hd3 (by omega) ho _ hg, hk, hgeom, kStepVal_exact hd3]
      have hsplit : ∀ c : Cell, c = (c - nghostOf d ng) + nghostOf d ng := fun c => (sub_add_cancel _ _).symm
      have hn1 : ∀ (a : Fin d) (t : ℤ), -1 ≤ t → t ≤ 1 → inBox 0 nx (nb g (ax a) t) ∧ Deep d nx (2 * j + 1) (nb g (ax a) t) := by
        intro a t h1 h2
        have q := hdeep.nb a h1 h2
        rw [show (2 * ((j + 1 : ℕ) : ℤ) - 1) = 2 * j + 1 by push_cast; ring] at q
        exact ⟨inBox_nb_deep hg hd3 a q (by omega), q⟩
      have hW : ∀ c, inBox 0 nx (c - nghostOf d ng) ∧ Deep d nx (2 * j) (c - nghostOf d ng) →
          (W j c).cons = toCons eos ⟨r, w.u, w.P⟩ ∧ (W j c).fx f = linearProfile v s w.u (T j) (cellCentre X c) := by
        intro c hc
        have := ih (by omega) _ hc.1 hc.2
        rwa [← hsplit c] at this
      have hg2 : Deep d nx (2 * j) g := fun b hb => by have := hdeep b hb; push_cast at this; omega
      have step := linear_fx_step (B := fun c => inBox 0 nx (c - nghostOf d ng) ∧ Deep d nx (2 * j) (c - nghostOf d ng))
        (ext := globExt nx (nghostOf d ng)) (lim := lim) (sol := sol) (eos := eos) (tr := tr) (v := v) (s := s) (t := T j) (W := W j) (f := f)
        (p := kGrid (exactKernels (n := n) lim sol eos tr .cartesian none) .cartesian X (Gr (W j))) (X := X)
        (up := kPrimGlob (exactKernels lim sol eos tr .cartesian none) (W j)) (C := g + nghostOf d ng) (dt := p.policy (hist.drop (i - (j + 1))))
        hd3 hl (kGrid_geo (n := n) _ _ _ _ _) (fun _ _ => rfl) (fun c a => hGr _ c a) he hP hr0 (fun c hc => ?_) (fun c hc b => ?_) (fun c hc => ?_)
        (fun a t h1 h2 => ?_) ?_ (fun a b t t' h1 h2 h3 h4 => ?_)
      · refine ⟨step.1.trans (ih (by omega) g hg hg2).1, step.2.trans ?_⟩
        rw [← hTs j (by omega)]
        have hh := h01 (i - (j + 1)) (by omega) g hg
        show clamp (linearProfile v s w.u (runTime p.policy (hist.drop (i - (j + 1)))) (cellCentre X (g + nghostOf d ng))) 0 1 = _
        rw [clamp_eq, min_eq_left hh.2, max_eq_right hh.1]
      · rw [hsplit c]; exact hinE _ hc.1
      · have := inExt_iff.1 hc b
        exact hX b _ this.1 this.2
      · obtain ⟨q, q'⟩ := hW c hc
        refine ⟨congrArg Cons.rho q, ?_, q'⟩
        have := toPrim_toCons he (p := (⟨r, w.u, w.P⟩ : Prim d K)) hr0
        show VelPres.mk (toPrim eos (W j c).cons).u (toPrim eos (W j c).cons).P = w
        rw [q, this]
      · rw [nb_add, add_sub_cancel_right]
        exact ⟨(hn1 a t h1 h2).1, fun b hb => by have := (hn1 a t h1 h2).2 b hb; omega⟩
      · rw [add_sub_cancel_right]
        exact ⟨hg, hg2⟩
      · rw [nb_add, nb_add, add_sub_cancel_right]
        obtain ⟨q1, q2⟩ := hn1 a t h1 h2
        have q3 := q2.nb b h3 h4
        rw [add_sub_cancel_right] at q3
        exact ⟨inBox_nb_deep q1 hd3 b q3 (by omega), q3⟩
  have hsh : c + startCell nx dims rank = globalOf nx dims (nghostOf d ng) rank c + nghostOf d ng := by
    funext a
    simp only [Pi.add_apply, globalOf, startCell]
    ring
  rw [e2.val rank hr c hc, hsh, ← hTi]
  exact key i le_rfl _ hin hdeep

/-! ### A tube -/

/-- A mesh whose cells are 1 long up to the node 8, and 3 long from there on. -/
noncomputable def steppedMesh (_ : Fin 3) (i : ℤ) : ℝ := if i ≤ 8 then i else 8 + 3 * (i - 8)

theorem steppedMesh_size (a : Fin 3) (i : ℤ) : steppedMesh a (i + 1) - steppedMesh a i = if i < 8 then 1 else 3 := by
  unfold steppedMesh
  rcases lt_trichotomy i 8 with h | rfl | h
  · rw [if_pos (by omega), if_pos (by omega), if_pos h]; push_cast; ring
  · norm_num
  · rw [if_neg (by omega), if_neg (by omega), if_neg (by omega)]; push_cast; ring

theorem steppedMesh_lt (a : Fin 3) (i : ℤ) : steppedMesh a i < steppedMesh a (i + 1) := by
  have := steppedMesh_size a i
  split at this <;> linarith

/-- Positions in the mesh up to its node 16. -/
theorem steppedMesh_bounds (a : Fin 3) {i : ℤ} (h0 : 0 ≤ i) (h1 : i ≤ 16) : 0 ≤ steppedMesh a i ∧ steppedMesh a i ≤ 32 := by
  have e0 : (0 : ℝ) ≤ i := by exact_mod_cast h0
  have e1 : (i : ℝ) ≤ 16 := by exact_mod_cast h1
  unfold steppedMesh
  split
  · rename_i h
    have : (i : ℝ) ≤ 8 := by exact_mod_cast h
    constructor <;> linarith
  · rename_i h
    have : (8 : ℝ) ≤ i := by exact_mod_cast (show (8 : ℤ) ≤ i by omega)
    constructor <;> linarith

/-- A tube with null gradient conditions, a perfect gas and steps of 1/10. -/
noncomputable def windTube {n : ℕ} (lim : Limiter) (sol : Solver) (tr : Trig ℝ) : KernelParams 1 n ℝ where
  k := exactKernels lim sol (PerfectGas.toEoS ⟨2, 2 - 1, 1⟩) tr .cartesian none
  geom := .cartesian
  lo := 0
  policy := fun _ => 1 / 10
  user := fun _ _ v => some v
  bcs := fun _ _ => .nullGradient
  order := [0, 1].map some

/-- Density `100 - x` in a wind of velocity 1. -/
noncomputable def windState (g : Cell) : Fields 1 0 ℝ :=
  uniformFields (PerfectGas.toEoS ⟨2, 2 - 1, 1⟩) (linearProfile 100 (fun _ => -1) (fun _ : Fin 1 => 1) 0 (cellCentre steppedMesh (g + nghostOf 1 2))) ⟨fun _ => 1, 5⟩ Fin.elim0

theorem windTube_decomposition (lim : Limiter) (sol : Solver) (tr : Trig ℝ) :
    ∃ M lf, KDecomposition (windTube (n := n) lim sol tr) ![12, 1, 1] 2 steppedMesh (fun _ _ _ => 0) ![2, 1, 1] boxList (fun _ _ _ _ => some 0) M lf := by
  have hN : ∀ a : Fin 3, (0 : ℤ) ≤ (![12, 1, 1] : Cell) a := by decide
  refine exists_kDecomposition _ hN (by decide) (by norm_num) (fun a ha r h0 h1 => ?_) _
  rw [localSize_eq (hN a) (lt_of_le_of_lt h0 h1)]
  fin_cases a
  · simp [not_lt.2 h0]
  · simp at ha
  · simp at ha

/-- The tube with the data of `windState`. -/
noncomputable def windData : DistView (Fields 1 0 ℝ) :=
  ⟨fun r => localExt ![12, 1, 1] ![2, 1, 1] (nghostOf 1 2) r, fun r c => windState (globalOf ![12, 1, 1] ![2, 1, 1] (nghostOf 1 2) r c)⟩

/-- Positions in a cell of the tube. -/
theorem windTube_pos {g : Cell} (hg : inBox 0 ![12, 1, 1] g) {y : Fin 1 → ℝ} (hy : InCell steppedMesh (g + nghostOf 1 2) y) {t : ℝ} (ht : 0 ≤ t) :
    60 < linearProfile 100 (fun _ => -1) (fun _ : Fin 1 => 1) t y := by
  have h0 : (0 : ℤ) ≤ g 0 ∧ g 0 < 12 := hg 0
  have e : (g + nghostOf 1 2) (ax (0 : Fin 1)) = g 0 + 2 := rfl
  have := (hy 0).2
  rw [e] at this
  have hb := (steppedMesh_bounds (ax (0 : Fin 1)) (i := g 0 + 2 + 1) (by omega) (by omega)).2
  unfold linearProfile
  rw [Fin.sum_univ_one]
  linarith

/-- C94 in a tube of 12 cells, of two sizes, on two ranks, with each of the solvers and limiters with slopes: two iterations later the cells 4 to 7 hold the
density of `100 - (x - 1/5)`, the velocity 1 and the pressure 5. -/
example {lim : Limiter} (hl : lim ≠ .constant) (sol : Solver) (tr : Trig ℝ) : ∃ M lf R hist,
    kRun (windTube lim sol tr) boxList (borderOf ![2, 1, 1]) (nghostOf 1 2) ![2, 1, 1] (fun _ _ _ _ => some 0) M lf windData 2 = some (R, hist) ∧
    ∀ rank c, inBox 0 ![2, 1, 1] rank → inExt (localExt ![12, 1, 1] ![2, 1, 1] (nghostOf 1 2) rank) c = true →
      inBox 0 ![12, 1, 1] (globalOf ![12, 1, 1] ![2, 1, 1] (nghostOf 1 2) rank c) →
      4 ≤ globalOf ![12, 1, 1] ![2, 1, 1] (nghostOf 1 2) rank c 0 → globalOf ![12, 1, 1] ![2, 1, 1] (nghostOf 1 2) rank c 0 < 8 →
      (R.val rank c).cons = toCons (PerfectGas.toEoS ⟨2, 2 - 1, 1⟩)
        ⟨100 - (cellCentre (d := 1) steppedMesh (globalOf ![12, 1, 1] ![2, 1, 1] (nghostOf 1 2) rank c + nghostOf 1 2) 0 - 1 / 5), fun _ => 1, 5⟩ := by
  obtain ⟨M, lf, hM⟩ := windTube_decomposition lim sol tr
  obtain ⟨R, hist, h1, h2, h3⟩ := C94_linear_density_carried (by norm_num) hl (p := windTube lim sol tr) rfl rfl (PerfectGas.lawful sampleGas_physical)
    (w := ⟨fun _ => 1, 5⟩) (e := 5) (fun r hr => by rw [perfectGas_evol sampleGas_physical 5 hr]; norm_num) (by norm_num) (by decide) (by norm_num)
    (fun _ _ h => by cases h) (order := [0, 1]) (by decide) rfl (fun a i _ _ => steppedMesh_lt a i) (fun _ _ _ => rfl) hM (v := 100) (s := fun _ => -1)
    (G := windState) (fun _ _ => rfl) (D := windData) (fun _ _ => rfl) (fun _ _ _ _ => rfl) 2
  refine ⟨M, lf, R, hist, h1, fun rank c hr hc hin h4 h8 => ?_⟩
  have ht : runTime (windTube (n := 0) lim sol tr).policy hist = 1 / 5 := by
    match hist, h2 with
    | [_, _], _ => simp only [runTime, windTube]; norm_num
  rw [h3 (fun _ _ => by simp only [windTube]; norm_num) (fun g hg y hy t h0 _ => by linarith [windTube_pos hg hy h0]) rank c hr hc hin ?_, ht]
  · congr 2
    unfold linearProfile
    rw [Fin.sum_univ_one]
    ring
  · intro a ha
    have : a = 0 := by ext; simpa using ha
    subst this
    exact ⟨by simpa using h4, by simp; omega⟩

/-- C94 for a mass fraction `1/2 - (x - t)/100` in the same tube, with a density 1. -/
example {lim : Limiter} (hl : lim ≠ .constant) (sol : Solver) (tr : Trig ℝ) : ∃ M lf R hist,
    kRun (windTube (n := 1) lim sol tr) boxList (borderOf ![2, 1, 1]) (nghostOf 1 2) ![2, 1, 1] (fun _ _ _ _ => some 0) M lf
      ⟨fun r => localExt ![12, 1, 1] ![2, 1, 1] (nghostOf 1 2) r, fun r c => uniformFields (PerfectGas.toEoS ⟨2, 2 - 1, 1⟩) 1 ⟨fun _ => 1, 5⟩ fun _ =>
        linearProfile (1 / 2) (fun _ => -1 / 100) (fun _ : Fin 1 => 1) 0 (cellCentre steppedMesh (globalOf ![12, 1, 1] ![2, 1, 1] (nghostOf 1 2) r c + nghostOf 1 2))⟩
      2 = some (R, hist) ∧
    ∀ rank c, inBox 0 ![2, 1, 1] rank → inExt (localExt ![12, 1, 1] ![2, 1, 1] (nghostOf 1 2) rank) c = true →
      inBox 0 ![12, 1, 1] (globalOf ![12, 1, 1] ![2, 1, 1] (nghostOf 1 2) rank c) →
      4 ≤ globalOf ![12, 1, 1] ![2, 1, 1] (nghostOf 1 2) rank c 0 → globalOf ![12, 1, 1] ![2, 1, 1] (nghostOf 1 2) rank c 0 < 8 →
      (R.val rank c).fx 0 = 1 / 2 - (cellCentre (d := 1) steppedMesh (globalOf ![12, 1, 1] ![2, 1, 1] (nghostOf 1 2) rank c + nghostOf 1 2) 0 - 1 / 5) / 100 := by
  obtain ⟨M, lf, hM⟩ := windTube_decomposition (n := 1) lim sol tr
  obtain ⟨R, hist, h1, h2, h3⟩ := C94_linear_fraction_carried (by norm_num) hl (p := windTube (n := 1) lim sol tr) rfl rfl (PerfectGas.lawful sampleGas_physical)
    (w := ⟨fun _ => 1, 5⟩) (by norm_num) one_pos (by decide) (by norm_num)
    (fun _ _ h => by cases h) (order := [0, 1]) (by decide) rfl (fun a i _ _ => steppedMesh_lt a i) (fun _ _ _ => rfl) hM (v := 1 / 2) (s := fun _ => -1 / 100) (f := 0)
    (G := fun g => uniformFields (PerfectGas.toEoS ⟨2, 2 - 1, 1⟩) 1 ⟨fun _ => 1, 5⟩ fun _ =>
      linearProfile (1 / 2) (fun _ => -1 / 100) (fun _ : Fin 1 => 1) 0 (cellCentre steppedMesh (g + nghostOf 1 2))) (fun _ _ => ⟨rfl, rfl⟩)
    (D := ⟨fun r => localExt ![12, 1, 1] ![2, 1, 1] (nghostOf 1 2) r, fun r c => uniformFields (PerfectGas.toEoS ⟨2, 2 - 1, 1⟩) 1 ⟨fun _ => 1, 5⟩ fun _ =>
        linearProfile (1 / 2) (fun _ => -1 / 100) (fun _ : Fin 1 => 1) 0 (cellCentre steppedMesh (globalOf ![12, 1, 1] ![2, 1, 1] (nghostOf 1 2) r c + nghostOf 1 2))⟩)
    (fun _ _ => rfl) (fun _ _ _ _ => rfl) 2
  refine ⟨M, lf, R, hist, h1, fun rank c hr hc hin h4 h8 => ?_⟩
  have ht : ∀ j ≤ 2, 0 ≤ runTime (windTube (n := 1) lim sol tr).policy (hist.drop j) ∧ runTime (windTube (n := 1) lim sol tr).policy (hist.drop j) ≤ 1 / 5 := by
    match hist, h2 with
    | [_, _], _ =>
      intro j hj
      interval_cases j <;> simp only [List.drop, runTime, windTube] <;> norm_num
  have ht0 : runTime (windTube (n := 1) lim sol tr).policy hist = 1 / 5 := by
    match hist, h2 with
    | [_, _], _ => simp only [runTime, windTube]; norm_num
  rw [(h3 (fun j hj g hg => ?_) rank c hr hc hin ?_).2, ht0]
  · unfold linearProfile
    rw [Fin.sum_univ_one]
    ring
  · intro a ha
    have : a = 0 := by ext; simpa using ha
    subst this
    exact ⟨by simpa using h4, by simp; omega⟩
  · have h0 : (0 : ℤ) ≤ g 0 ∧ g 0 < 12 := hg 0
    obtain ⟨t0, t1⟩ := ht j hj
    have b1 := steppedMesh_bounds (ax (0 : Fin 1)) (i := g 0 + 2) (by omega) (by omega)
    have b2 := steppedMesh_bounds (ax (0 : Fin 1)) (i := g 0 + 2 + 1) (by omega) (by omega)
    have e : cellCentre (d := 1) steppedMesh (g + nghostOf 1 2) 0 = (steppedMesh (ax (0 : Fin 1)) (g 0 + 2) + steppedMesh (ax (0 : Fin 1)) (g 0 + 2 + 1)) / 2 := rfl
    unfold linearProfile
    rw [Fin.sum_univ_one, e]
    constructor <;> linarith

/-- **C94, a first order reconstruction does not.** All the same with the limiter `Constant` and HLLC: one step of the tube leaves the first of the longer cells with
the density `90.5 + 1/15` instead of `90.5 + 1/10`. -/
theorem C94_first_order_violated (tr : Trig ℝ) : ∃ M lf R hist,
    KDecomposition (windTube (n := 0) .constant .hllc tr) ![12, 1, 1] 2 steppedMesh (fun _ _ _ => 0) ![2, 1, 1] boxList (fun _ _ _ _ => some 0) M lf ∧
    kRun (windTube .constant .hllc tr) boxList (borderOf ![2, 1, 1]) (nghostOf 1 2) ![2, 1, 1] (fun _ _ _ _ => some 0) M lf windData 1 = some (R, hist) ∧
    (R.val ![1, 0, 0] ![2, 0, 0]).rho = 181 / 2 + 1 / 15 ∧ Deep 1 ![12, 1, 1] 2 ![6, 0, 0] ∧
    globalOf ![12, 1, 1] ![2, 1, 1] (nghostOf 1 2) ![1, 0, 0] ![2, 0, 0] = ![6, 0, 0] ∧
    linearProfile 100 (fun _ => -1) (fun _ : Fin 1 => 1) (runTime (windTube (n := 0) .constant .hllc tr).policy hist)
      (cellCentre steppedMesh (![6, 0, 0] + nghostOf 1 2)) = 181 / 2 + 1 / 10 := by
  obtain ⟨M, lf, hM⟩ := windTube_decomposition (n := 0) .constant .hllc tr
  have hN : ∀ a : Fin 3, (0 : ℤ) ≤ (![12, 1, 1] : Cell) a := by decide
  obtain ⟨W, R, hist, e1, e2, e3, e4, e5⟩ := kRun_global (by norm_num) hN le_rfl (fun _ _ h => by cases h) (order := [0, 1]) (by decide) rfl hM
    (G := windState) (D := windData) (fun _ _ => rfl) (fun _ _ _ _ => rfl) 1
  have hg : globalOf ![12, 1, 1] ![2, 1, 1] (nghostOf 1 2) ![1, 0, 0] ![2, 0, 0] = ![6, 0, 0] := by decide
  refine ⟨M, lf, R, hist, hM, e1, ?_, ?_, hg, ?_⟩
  · have hsh : (![2, 0, 0] : Cell) + startCell ![12, 1, 1] ![2, 1, 1] ![1, 0, 0] = ![6, 0, 0] + nghostOf 1 2 := by decide
    rw [e3.val ![1, 0, 0] (by decide) ![2, 0, 0] (by decide), hsh, e5 0 (by norm_num)]
    unfold kIterGlob
    rw [bcGlob_inside _ (by norm_num) (by norm_num) (by decide) _ (by decide)]
    show (kStepVal (exactKernels .constant .hllc (PerfectGas.toEoS ⟨2, 2 - 1, 1⟩) tr .cartesian none) .cartesian
      (kGrid (exactKernels (n := 0) .constant .hllc (PerfectGas.toEoS ⟨2, 2 - 1, 1⟩) tr .cartesian none) .cartesian steppedMesh fun _ _ => 0) (1 / 10) (W 0)
      (kPrimGlob (exactKernels .constant .hllc (PerfectGas.toEoS ⟨2, 2 - 1, 1⟩) tr .cartesian none) (W 0)) (![6, 0, 0] + nghostOf 1 2)).rho = _
    rw [kStepVal_exact (by norm_num)]
    have hpr : ∀ c : Cell, inBox 0 ![12, 1, 1] c → 0 < linearProfile 100 (fun _ => -1) (fun _ : Fin 1 => 1) 0 (cellCentre steppedMesh (c + nghostOf 1 2)) := by
      intro c hc
      have := windTube_pos hc (y := cellCentre steppedMesh (c + nghostOf 1 2)) (fun b => by
        have := steppedMesh_lt (ax b) ((c + nghostOf 1 2) (ax b))
        unfold cellCentre
        constructor <;> linarith) le_rfl
      linarith
    have hW0 : ∀ g, inBox 0 ![12, 1, 1] g → W 0 (g + nghostOf 1 2) = windState g := fun g hg => by
      rw [e4, bcGlob_inside _ (by norm_num) (by norm_num) (by decide) _ hg]
    refine (upwind_step (by norm_num) (kGrid_geo (n := 0) _ _ _ _ (globExt ![12, 1, 1] (nghostOf 1 2)))
      (fun c _ b => sub_pos.2 (steppedMesh_lt b (c b))) (fun _ _ => rfl) (PerfectGas.lawful sampleGas_physical) (w := ⟨fun _ => 1, 5⟩) (e := 5)
      (fun r hr => by rw [perfectGas_evol sampleGas_physical 5 hr]; norm_num) (by norm_num)
      (B := fun c => inBox 0 ![12, 1, 1] (c - nghostOf 1 2))
      (rho := fun c => linearProfile 100 (fun _ => -1) (fun _ : Fin 1 => 1) 0 (cellCentre steppedMesh c)) (fun c hc => ?_) (fun c hc => ?_)
      (fun a i h1 h2 => ?_) (by decide) (fun a b i j h1 h2 h3 h4 => ?_)).trans ?_
    · rw [inExt_iff]
      intro a
      have := hc a
      fin_cases a <;> simp [globExt, nghostOf] at this ⊢ <;> omega
    · have e := hW0 _ hc
      rw [sub_add_cancel] at e
      have hq := hpr _ hc
      rw [sub_add_cancel] at hq
      refine ⟨by rw [e]; simp only [windState, uniformFields, sub_add_cancel], ?_, hq⟩
      have := toPrim_toCons (PerfectGas.lawful sampleGas_physical) (p := (⟨linearProfile 100 (fun _ => -1) (fun _ : Fin 1 => 1) 0 (cellCentre steppedMesh c), fun _ => 1, 5⟩ : Prim 1 ℝ)) hq
      show VelPres.mk (toPrim _ (W 0 c).cons).u (toPrim _ (W 0 c).cons).P = _
      have hc' : (W 0 c).cons = toCons (PerfectGas.toEoS ⟨2, 2 - 1, 1⟩) ⟨linearProfile 100 (fun _ => -1) (fun _ : Fin 1 => 1) 0 (cellCentre steppedMesh c), fun _ => 1, 5⟩ := by
        rw [e]
        simp only [windState, sub_add_cancel]
        rfl
      rw [hc', this]
    · have : i = -1 ∨ i = 0 ∨ i = 1 := by omega
      fin_cases a
      rcases this with rfl | rfl | rfl <;> decide
    · have hi : i = -1 ∨ i = 0 ∨ i = 1 := by omega
      have hj : j = -1 ∨ j = 0 ∨ j = 1 := by omega
      fin_cases a
      fin_cases b
      rcases hi with rfl | rfl | rfl <;> rcases hj with rfl | rfl | rfl <;> decide
    · have c8 : (![6, 0, 0] + nghostOf 1 2 : Cell) (ax (0 : Fin 1)) = 8 := by decide
      have c7 : (nb (![6, 0, 0] + nghostOf 1 2 : Cell) (ax (0 : Fin 1)) (-1)) (ax (0 : Fin 1)) = 7 := by decide
      simp only [Fin.sum_univ_one, linearProfile, cellCentre, c8, c7]
      simp only [kGrid, exactKernels, steppedMesh]
      norm_num
  · intro a ha
    have : a = 0 := by ext; simpa using ha
    subst this
    decide
  · have ht : runTime (windTube (n := 0) .constant .hllc tr).policy hist = 1 / 10 := by
      match hist, e2 with
      | [_], _ => simp only [runTime, windTube]; norm_num
    have c8 : (![6, 0, 0] + nghostOf 1 2 : Cell) (ax (0 : Fin 1)) = 8 := by decide
    rw [ht]
    simp only [Fin.sum_univ_one, linearProfile, cellCentre, c8, steppedMesh]
    norm_num

end Heracles
