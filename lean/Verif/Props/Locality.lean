import Verif.Lemmas.Locality

/-!
# C93: how far the state of a cell reaches
-/

namespace Heracles

variable {d n : ℕ} {F : Type} [Zero F] [Neg F] [LT F] [DecidableLT F]

/-- A run follows iterations of the global array with the time steps of its history, whatever `<` does. -/
theorem kRun_global (hd3 : d ≤ 3) {p : KernelParams d n F} {nx : Cell} {ng : ℤ}
    (hN : ∀ a, 0 ≤ nx a) (hng : 2 ≤ ng) (hb : ∀ a f, p.bcs a f ≠ .userDefined) {order : List ℕ} (ho : ∀ id ∈ order, id < 2 * d)
    (hpo : p.order = order.map some) {X : Fin 3 → ℤ → F} {Gr : (Cell → Fields d n F) → Cell → Fin d → F} {dims : Cell}
    {sched : Cell → Cell → List Cell} {grav : DistView (Fields d n F) → Cell → GravField d F} {M : ℕ → Cell → RankMem d n F}
    {lf : ℕ → Cell → List Cell} (h : KDecomposition p nx ng X Gr dims sched grav M lf) {G : Cell → Fields d n F}
    {D : DistView (Fields d n F)} (hext : ∀ rank, inBox 0 dims rank → D.ext rank = localExt nx dims (nghostOf d ng) rank)
    (hint : ∀ rank, inBox 0 dims rank → ∀ c, inBox (nghostOf d ng) (fun a => D.ext rank a - nghostOf d ng a) c →
      D.val rank c = G (globalOf nx dims (nghostOf d ng) rank c)) (i : ℕ) :
    ∃ (W : ℕ → Cell → Fields d n F) (R : DistView (Fields d n F)) (hist : List F),
      kRun p sched (borderOf dims) (nghostOf d ng) dims grav M lf D i = some (R, hist) ∧ hist.length = i ∧
      HoldsAll nx dims (nghostOf d ng) (W i) R ∧ W 0 = bcGlob p.bcs nx (nghostOf d ng) order G ∧
      ∀ j < i, W (j + 1) = kIterGlob p nx ng X Gr order (p.policy (hist.drop (i - (j + 1)))) (W j) := by
  induction i with
  | zero =>
    obtain ⟨R, e1, e2⟩ := distBcs_holds hd3 hN h.pos (by omega) h.size p.user h.order hb ho G D hext hint
    refine ⟨fun _ => bcGlob p.bcs nx (nghostOf d ng) order G, R, [], ?_, rfl, e2, rfl, fun j hj => absurd hj (by omega)⟩
    unfold kRun; rw [hpo, e1]; rfl
  | succ i ih =>
    obtain ⟨W, R, hist, e1, el, e2, e3, e4⟩ := ih
    obtain ⟨m, R', -, q2, q3⟩ := kIter_holds_of hd3 hN hng hb ho hpo h i e2 hist (Rate := fun _ => True) fun up hup => by
      obtain ⟨m, hm⟩ := kTimeStep_some (lo := p.lo) p.k hup fun hnil => by
        have h0 : (0 : Cell) ∈ boxList 0 dims := ((boxList_isSchedule 0 dims).2 0).2 fun a => ⟨le_rfl, h.pos a⟩
        rw [hnil] at h0
        simp at h0
      exact ⟨m, hm, trivial⟩
    refine ⟨fun j => if j ≤ i then W j else kIterGlob p nx ng X Gr order (p.policy (p.k.inv m :: hist)) (W i), R', p.k.inv m :: hist,
      ?_, by simp [el], ?_, ?_, fun j hj => ?_⟩
    · unfold kRun; rw [e1]; exact q2
    · dsimp only; rw [if_neg (by omega)]; exact q3
    · dsimp only; rw [if_pos (by omega)]; exact e3
    · dsimp only
      rcases Nat.lt_succ_iff_lt_or_eq.1 hj with hj | rfl
      · rw [if_pos (by omega), if_pos (by omega), e4 j hj, show i + 1 - (j + 1) = (i - (j + 1)) + 1 by omega, List.drop_succ_cons]
      · rw [if_neg (by omega), if_pos le_rfl, Nat.sub_self, List.drop_zero]

/-- **C93.** The numbers are of any type and what the kernels compute is arbitrary (rounding, NaN, any limiter, solver, equation of state,
geometry, with or without pressure fix). Take two runs on any two decompositions, with the same parameters, a gravity that does not
depend on the state, boundary conditions periodic on both or none of the faces of a direction and conditions applied on all other faces,
that made the same time steps (`hist`). If the initial states are the same in all cells up to `2 i` faces away from `g`, then `i`
iterations later the two runs hold the same numbers in `g`, on whichever rank: a change spreads over at most two cells per iteration,
around periodic directions too, not through boundaries. With a first order reconstruction (`e = 1`) it spreads over one. -/
theorem C93_domain_of_dependence (hd3 : d ≤ 3) {p : KernelParams d n F} {nx : Cell} {ng : ℤ} (hpos : ∀ a, 0 < nx a) (hng : 2 ≤ ng)
    (hb : ∀ a f, p.bcs a f ≠ .userDefined) (hper : ∀ a, p.bcs a 0 = .periodic ↔ p.bcs a 1 = .periodic) {order : List ℕ}
    (ho : ∀ id ∈ order, id < 2 * d) (hpo : p.order = order.map some) (hall : ∀ a f, p.bcs a f ≠ .periodic → faceId a f ∈ order)
    {e : ℕ} (he : e = 2 ∨ e = 1 ∧ p.k.FirstOrder)
    {X : Fin 3 → ℤ → F} {Gr : (Cell → Fields d n F) → Cell → Fin d → F} (hGr : ∀ W W', Gr W = Gr W') {dims dims' : Cell}
    {sched sched' : Cell → Cell → List Cell} {grav grav' : DistView (Fields d n F) → Cell → GravField d F}
    {M M' : ℕ → Cell → RankMem d n F} {lf lf' : ℕ → Cell → List Cell} (h : KDecomposition p nx ng X Gr dims sched grav M lf)
    (h' : KDecomposition p nx ng X Gr dims' sched' grav' M' lf') {G G' : Cell → Fields d n F} {D D' : DistView (Fields d n F)}
    (hext : ∀ rank, inBox 0 dims rank → D.ext rank = localExt nx dims (nghostOf d ng) rank)
    (hint : ∀ rank, inBox 0 dims rank → ∀ c, inBox (nghostOf d ng) (fun a => D.ext rank a - nghostOf d ng a) c →
      D.val rank c = G (globalOf nx dims (nghostOf d ng) rank c))
    (hext' : ∀ rank, inBox 0 dims' rank → D'.ext rank = localExt nx dims' (nghostOf d ng) rank)
    (hint' : ∀ rank, inBox 0 dims' rank → ∀ c, inBox (nghostOf d ng) (fun a => D'.ext rank a - nghostOf d ng a) c →
      D'.val rank c = G' (globalOf nx dims' (nghostOf d ng) rank c)) {i : ℕ} {R R' : DistView (Fields d n F)} {hist : List F}
    (hrun : kRun p sched (borderOf dims) (nghostOf d ng) dims grav M lf D i = some (R, hist))
    (hrun' : kRun p sched' (borderOf dims') (nghostOf d ng) dims' grav' M' lf' D' i = some (R', hist))
    {g : Cell} (hg : inBox 0 nx g) (hsame : ∀ x, inBox 0 nx x → CloseBy (periodicAxes p.bcs) nx (e * i) g x → G x = G' x)
    {rank rank' c c' : Cell} (hr : inBox 0 dims rank) (hr' : inBox 0 dims' rank')
    (hc : inExt (localExt nx dims (nghostOf d ng) rank) c = true) (hc' : inExt (localExt nx dims' (nghostOf d ng) rank') c' = true)
    (hcg : globalOf nx dims (nghostOf d ng) rank c = g) (hcg' : globalOf nx dims' (nghostOf d ng) rank' c' = g) :
    R.val rank c = R'.val rank' c' := by
  have hN : ∀ a, 0 ≤ nx a := fun a => (hpos a).le
  obtain ⟨W, R1, hist1, e1, -, e2, e3, e4⟩ := kRun_global hd3 hN hng hb ho hpo h hext hint i
  obtain ⟨W', R1', hist1', e1', -, e2', e3', e4'⟩ := kRun_global hd3 hN hng hb ho hpo h' hext' hint' i
  rw [hrun] at e1
  rw [hrun'] at e1'
  cases e1
  cases e1'
  have hsz : ∀ a : Fin d, ng ≤ nx (ax a) := fun a => by
    have h1 := h.size (ax a) (by rw [ax_val hd3]; exact a.isLt) 0 le_rfl (h.pos _)
    have h2 := localStart_add_size_le (r := 0) (hN (ax a)) (h.pos (ax a)) (h.pos (ax a))
    have h3 := localStart_nonneg (r := 0) (hN (ax a)) (h.pos (ax a)) le_rfl
    omega
  have he' : 2 ≤ e ∨ e = 1 ∧ p.k.FirstOrder := he.imp (fun h => h.ge) id
  have key : ∀ j ≤ i, ∀ C, inExt (globExt nx (nghostOf d ng)) C = true →
      CloseBy (periodicAxes p.bcs) nx (e * (i - j)) g (C - nghostOf d ng) → W j C = W' j C := by
    intro j
    induction j with
    | zero =>
      intro _ C hC hnear
      rw [e3, e3']
      exact bcGlob_near hd3 (by omega) hpos hsz ho hper hb hall hg hsame hC hnear
    | succ j ih =>
      intro hj C hC hnear
      rw [e4 j (by omega), e4' j (by omega)]
      refine kIterGlob_near hd3 hng hpos hsz ho hper hb hall he' hGr _ hg (fun C hC hnear => ih (by omega) C hC ?_) hC hnear
      refine hnear.mono (le_of_eq ?_)
      rw [show i - j = i - (j + 1) + 1 by omega]
      ring
  have hsh : ∀ {dims rank c : Cell}, globalOf nx dims (nghostOf d ng) rank c = g → c + startCell nx dims rank = g + nghostOf d ng := by
    rintro dims rank c rfl
    funext a
    simp only [Pi.add_apply, globalOf, startCell]
    ring
  rw [e2.val rank hr c hc, e2'.val rank' hr' c' hc', hsh hcg, hsh hcg']
  refine key i le_rfl _ ?_ ?_
  · rw [← hsh hcg]; exact inExt_shift hN h.pos hr hc
  · rw [add_sub_cancel_right]; exact CloseBy.refl _ _ _ _

end Heracles
