import Verif.Lemmas.IeeeSqrt
import Verif.Lemmas.MirrorBits
import Verif.Model.DoubleArith
import Verif.Props.NanRun

/-!
# C91: a symmetric problem stays symmetric bit by bit
-/

namespace Heracles

open Arith

-- the reductions of `kRun` compare with the linear order
attribute [-instance] Arith.toLT

variable {d n : ℕ} {F : Type} [Arith F]

theorem KDecomposition.ghosts_le {p : KernelParams d n F} {nx dims : Cell} {ng : ℤ} {X : Fin 3 → ℤ → F} {Gr : (Cell → Fields d n F) → Cell → Fin d → F}
    {sched : Cell → Cell → List Cell} {grav : DistView (Fields d n F) → Cell → GravField d F} {M : ℕ → Cell → RankMem d n F}
    {lf : ℕ → Cell → List Cell} (h : KDecomposition p nx ng X Gr dims sched grav M lf) (hd3 : d ≤ 3) (hN : ∀ a, 0 ≤ nx a) (a : Fin d) :
    ng ≤ nx (ax a) := by
  have h1 := h.size (ax a) (by rw [ax_val hd3]; exact a.isLt) 0 le_rfl (h.pos _)
  have h2 := h.pos (ax a)
  have h3 := hN (ax a)
  rw [localSize_eq h3 h2] at h1
  have h4 := Int.emod_add_mul_ediv (nx (ax a)) (dims (ax a))
  have h5 := Int.emod_nonneg (nx (ax a)) h2.ne'
  have h6 := Int.ediv_nonneg h3 h2.le
  have h7 : nx (ax a) / dims (ax a) ≤ dims (ax a) * (nx (ax a) / dims (ax a)) := le_mul_of_one_le_left h6 (by omega)
  split at h1 <;> omega

/-- **C91.** Two runs of the code on a Cartesian grid, the second of which is the first one seen in a mirror that reverses direction
`b`: the cell sizes, the gravity, the boundary conditions and the initial state are those of the first in the mirror. The operations
are performed in the order of the code; they need only treat signs symmetrically (`SignLaws`), as operations that round to nearest do,
and nothing is assumed about associativity or exactness. The scheme is of first order (constant reconstruction) with the HLL or the low
Mach solver, without pressure fix, in any dimension, with any equation of state and any number of scalars. Then, on any two process
grids, after any number of iterations, both runs have gone through the same time steps, and a cell of the second run, ghosts included,
holds bit by bit what the mirrored cell of the first run holds, with the momentum along `b` reversed. The full statement has the other
limiters, the HLLC solver and exchanged axes as well; it is false for them (`C91_limiter_violated`, `C91_hllc_violated`,
`C91_axes_violated`), and with the pressure fix even in exact arithmetic (`C81_fix_mirror_violated`). -/
theorem C91_mirror_partial [LinearOrder F] (hsg : SignLaws F) (hd3 : d ≤ 3) {b : Fin d} {p p' : KernelParams d n F} {sol : Solver}
    (hs : sol ≠ .hllc) {eos : EoS F} (hk : p.k = orderedKernels .constant sol eos .cartesian none) (hgeom : p.geom = .cartesian)
    (hp : p.Mirrored b p') {nx : Cell} {ng : ℤ} (hN : ∀ a, 0 < nx a) (hng : 2 ≤ ng) (hb : ∀ a f, p.bcs a f ≠ .userDefined)
    {order order' : List ℕ} (ho : order.Perm (List.range (2 * d))) (ho' : order'.Perm (List.range (2 * d)))
    (hpo : p.order = order.map some) (hpo' : p'.order = order'.map some) {X X' : Fin 3 → ℤ → F}
    (hX : ∀ i, 0 ≤ i → i < nx (ax b) + 2 * ng → X' (ax b) (i + 1) - X' (ax b) i =
      X (ax b) (nx (ax b) + 2 * ng - i) - X (ax b) (nx (ax b) + 2 * ng - 1 - i))
    (hX' : ∀ a, a ≠ ax b → ∀ i, 0 ≤ i → i < nx a + 2 * nghostOf d ng a → X' a (i + 1) - X' a i = X a (i + 1) - X a i)
    {Gr Gr' : (Cell → Fields d n F) → Cell → Fin d → F}
    (hGr : ∀ W C, inExt (globExt nx (nghostOf d ng)) C = true → ∀ a,
      Gr' (fun C => (W (reflect (ax b) (nx (ax b) + 2 * ng) C)).flip b) C a =
        if a = b then -Gr W (reflect (ax b) (nx (ax b) + 2 * ng) C) a else Gr W (reflect (ax b) (nx (ax b) + 2 * ng) C) a)
    {dims dims' : Cell} {sched sched' : Cell → Cell → List Cell} {grav grav' : DistView (Fields d n F) → Cell → GravField d F}
    {M M' : ℕ → Cell → RankMem d n F} {lf lf' : ℕ → Cell → List Cell} (h : KDecomposition p nx ng X Gr dims sched grav M lf)
    (h' : KDecomposition p' nx ng X' Gr' dims' sched' grav' M' lf') (G : Cell → Fields d n F) {D D' : DistView (Fields d n F)}
    (hext : ∀ rank, inBox 0 dims rank → D.ext rank = localExt nx dims (nghostOf d ng) rank)
    (hint : ∀ rank, inBox 0 dims rank → ∀ c, inBox (nghostOf d ng) (fun a => D.ext rank a - nghostOf d ng a) c →
      D.val rank c = G (globalOf nx dims (nghostOf d ng) rank c))
    (hext' : ∀ rank, inBox 0 dims' rank → D'.ext rank = localExt nx dims' (nghostOf d ng) rank)
    (hint' : ∀ rank, inBox 0 dims' rank → ∀ c, inBox (nghostOf d ng) (fun a => D'.ext rank a - nghostOf d ng a) c →
      D'.val rank c = (G (reflect (ax b) (nx (ax b)) (globalOf nx dims' (nghostOf d ng) rank c))).flip b) (i : ℕ) :
    ∃ R R' hist, kRun p sched (borderOf dims) (nghostOf d ng) dims grav M lf D i = some (R, hist) ∧
      kRun p' sched' (borderOf dims') (nghostOf d ng) dims' grav' M' lf' D' i = some (R', hist) ∧
      ∀ rank rank' c c', inBox 0 dims rank → inBox 0 dims' rank' →
        inExt (localExt nx dims (nghostOf d ng) rank) c = true → inExt (localExt nx dims' (nghostOf d ng) rank') c' = true →
        globalOf nx dims (nghostOf d ng) rank c = reflect (ax b) (nx (ax b)) (globalOf nx dims' (nghostOf d ng) rank' c') →
        R'.val rank' c' = (R.val rank c).flip b := by
  have hN' : ∀ a, 0 ≤ nx a := fun a => (hN a).le
  have hb' : ∀ a f, p'.bcs a f ≠ .userDefined := fun a f => by rw [hp.bcs]; exact hb _ _
  have hid : ∀ (l : List ℕ), l.Perm (List.range (2 * d)) → ∀ id ∈ l, id < 2 * d := fun l hl id hi => List.mem_range.1 (hl.mem_iff.1 hi)
  have hgb : nghostOf d ng (ax b) = ng := by
    unfold nghostOf
    rw [ax_val hd3, if_pos b.isLt]
  have hE : globExt nx (nghostOf d ng) (ax b) = nx (ax b) + 2 * ng := by
    unfold globExt
    rw [hgb]
  have hm := domainMap_reflect hN (ax b)
  have hk2 := withGhosts_reflect nx (nghostOf d ng) (ax b)
  have hrl := relabel_reflect (n := n) (K := F) hd3 b (globExt nx (nghostOf d ng)) (nghostOf d ng)
  have hbcs : ∀ a f, p'.bcs a (revSide b a f) = p.bcs a f := fun a f => by
    rw [hp.bcs]
    unfold revSide
    split_ifs <;> simp
  have hseen : ∀ G G' : Cell → Fields d n F, (∀ g, inBox 0 nx g → G' g = (G (reflect (ax b) (nx (ax b)) g)).flip b) →
      bcGlob p'.bcs nx (nghostOf d ng) order' G' =
        fun C => (bcGlob p.bcs nx (nghostOf d ng) order G (reflect (ax b) (nx (ax b) + 2 * ng) C)).flip b := by
    intro G G' hG
    have := bcGlob_seen (n := n) (order := order) (order' := order') (act := Fields.flip b) (φ := fun a f => (a, revSide b a f)) hd3 (by omega)
      (h.ghosts_le hd3 hN') hm (by rw [hk2]; exact hrl) (revSide_bij b) (bcs := p.bcs) (bcs' := p'.bcs) hbcs ho ho' hG
    rw [this, hk2, hE]
  have hmir : ∀ W, KMirror b (globExt nx (nghostOf d ng)) X X' (Gr W) (Gr' fun C => (W (reflect (ax b) (nx (ax b) + 2 * ng) C)).flip b) := by
    intro W
    refine ⟨fun C hC x => ?_, fun C hC a => ?_⟩
    · have hx := inExt_iff.1 hC x
      by_cases e : x = ax b
      · subst e
        rw [hE] at hx
        rw [hX _ hx.1 hx.2, reflect_self, hE]
        congr 2 <;> ring
      · rw [reflect_ne e]
        exact hX' x e _ hx.1 hx.2
    · rw [hGr W C hC a, hE]
  have key : ∃ W R R' hist, kRun p sched (borderOf dims) (nghostOf d ng) dims grav M lf D i = some (R, hist) ∧
      kRun p' sched' (borderOf dims') (nghostOf d ng) dims' grav' M' lf' D' i = some (R', hist) ∧
      HoldsAll nx dims (nghostOf d ng) W R ∧
      HoldsAll nx dims' (nghostOf d ng) (fun C => (W (reflect (ax b) (nx (ax b) + 2 * ng) C)).flip b) R' := by
    induction i with
    | zero =>
      obtain ⟨R, e1, e2⟩ := distBcs_holds hd3 hN' h.pos (by omega) h.size p.user h.order hb (hid _ ho) G D hext hint
      obtain ⟨R', e1', e2'⟩ := distBcs_holds hd3 hN' h'.pos (by omega) h'.size p'.user h'.order hb' (hid _ ho')
        (fun g => (G (reflect (ax b) (nx (ax b)) g)).flip b) D' hext' hint'
      rw [hseen G _ fun _ _ => rfl] at e2'
      refine ⟨_, R, R', [], ?_, ?_, e2, e2'⟩
      · unfold kRun; rw [hpo, e1]; rfl
      · unfold kRun; rw [hpo', e1']; rfl
    | succ i ih =>
      obtain ⟨W, R, R', hist, e1, e1', e2, e2'⟩ := ih
      obtain ⟨m, R1, q1, q2, q3⟩ := kIter_holds hd3 hN' hng hb (hid _ ho) hpo h i e2 hist
      obtain ⟨m', R1', q1', q2', q3'⟩ := kIter_holds hd3 hN' hng hb' (hid _ ho') hpo' h' i e2' hist
      have hprim : kPrimGlob p'.k (fun C => (W (reflect (ax b) (nx (ax b) + 2 * ng) C)).flip b) =
          fun C => (kPrimGlob p.k W (reflect (ax b) (nx (ax b) + 2 * ng) C)).flip b := by
        funext C
        rw [hp.k, hk]
        exact kPrimGlob_mirror hsg sol eos _ W C
      have hrate : ∀ C, inExt (globExt nx (nghostOf d ng)) C = true →
          kRateVal p'.k p'.geom X' (fun C => (W (reflect (ax b) (nx (ax b) + 2 * ng) C)).flip b)
            (kPrimGlob p'.k fun C => (W (reflect (ax b) (nx (ax b) + 2 * ng) C)).flip b) C =
          kRateVal p.k p.geom X W (kPrimGlob p.k W) (reflect (ax b) (nx (ax b) + 2 * ng) C) := by
        intro C hC
        have := kRateVal_mirror (sol := sol) (eos := eos) hsg (hmir W) W (kPrimGlob p.k W) hd3 hC
        rw [hE] at this
        rw [hprim, hp.k, hp.geom, hk, hgeom]
        rw [hk] at this
        exact this
      have q1m : IsKRate p' nx (nghostOf d ng) X' (fun C => (W (reflect (ax b) (nx (ax b) + 2 * ng) C)).flip b) m := by
        refine ⟨by rw [hp.lo]; exact q1.ge, fun C hC => ?_, ?_⟩
        · rw [hrate C hC]
          have := (hrl.mem C).1 hC
          rw [hE] at this
          exact q1.le _ this
        · rcases q1.mem with e | ⟨C, hC, e⟩
          · exact Or.inl (by rw [hp.lo]; exact e)
          · have hC' := (hrl.mem C).1 hC
            rw [hE] at hC'
            refine Or.inr ⟨_, hC', ?_⟩
            rw [hrate _ hC', e]
            congr 1
            funext x
            by_cases hx : x = ax b
            · subst hx
              rw [reflect_self, reflect_self]
              ring
            · rw [reflect_ne hx, reflect_ne hx]
      obtain rfl := q1m.unique q1'
      refine ⟨_, R1, R1', p.k.inv m :: hist, ?_, ?_, q3, ?_⟩
      · unfold kRun; rw [e1]; exact q2
      · unfold kRun; rw [e1']; rw [hp.k] at q2'; exact q2'
      · have e : kIterGlob p' nx ng X' Gr' order' (p'.policy (p'.k.inv m :: hist)) (fun C => (W (reflect (ax b) (nx (ax b) + 2 * ng) C)).flip b) =
            fun C => (kIterGlob p nx ng X Gr order (p.policy (p.k.inv m :: hist)) W (reflect (ax b) (nx (ax b) + 2 * ng) C)).flip b := by
          unfold kIterGlob
          refine hseen _ _ fun g hg => ?_
          have hl : layer d (globExt nx (nghostOf d ng)) ng (g + nghostOf d ng) := by
            intro a
            have := hg a
            simp only [Pi.add_apply, globExt, Pi.zero_apply] at this ⊢
            omega
          have := kStepVal_mirror (sol := sol) (eos := eos) hsg hd3 hs (hmir W) (p.policy (p.k.inv m :: hist)) W (kPrimGlob p.k W) hng hl
          rw [hE] at this
          rw [hprim, hp.policy, hp.k, hp.geom, hgeom]
          have er : reflect (ax b) (nx (ax b) + 2 * ng) (g + nghostOf d ng) = reflect (ax b) (nx (ax b)) g + nghostOf d ng := by
            have := congrFun hk2 (g + nghostOf d ng)
            rw [hE] at this
            rw [← this]
            unfold withGhosts
            rw [add_sub_cancel_right]
          rw [er, hk] at this
          rw [hk]
          exact this
        rw [← e]
        exact q3'
  obtain ⟨W, R, R', hist, e1, e1', e2, e2'⟩ := key
  refine ⟨R, R', hist, e1, e1', fun rank rank' c c' hr hr' hc hc' hg => ?_⟩
  rw [e2.val rank hr c hc, e2'.val rank' hr' c' hc']
  have : reflect (ax b) (nx (ax b) + 2 * ng) (c' + startCell nx dims' rank') = c + startCell nx dims rank := by
    funext x
    have hx := congrFun hg x
    by_cases e : x = ax b
    · subst e
      rw [reflect_self] at hx ⊢
      simp only [globalOf, hgb] at hx
      simp only [Pi.add_apply, startCell]
      omega
    · rw [reflect_ne e] at hx ⊢
      simp only [globalOf] at hx
      simp only [Pi.add_apply, startCell]
      omega
  simp only [this]

/-! ### Double precision -/

theorem dblArith_signLaws {rnd : ℚ → ℚ} (hr : Nearest rnd) (hodd : ∀ x, rnd (-x) = -rnd x) (tr : Trig FinDbl) :
    @SignLaws FinDbl (dblArith rnd hr tr) := by
  have h0 : rnd 0 = 0 := hr.eq_self isDouble_zero
  letI := dblArith rnd hr tr
  exact
  { neg_neg := fun a => Subtype.ext (show - -a.1 = a.1 from neg_neg _)
    neg_zero := Subtype.ext (show -(0 : ℚ) = 0 from neg_zero)
    add_comm := fun a b => Subtype.ext (show rnd (a.1 + b.1) = rnd (b.1 + a.1) by rw [add_comm])
    add_zero := fun a => Subtype.ext (show rnd (a.1 + 0) = a.1 by rw [add_zero, hr.eq_self a.2])
    neg_add := fun a b => Subtype.ext (show rnd (-a.1 + -b.1) = -rnd (a.1 + b.1) by rw [← hodd, neg_add])
    sub_eq := fun a b => Subtype.ext (show rnd (a.1 - b.1) = rnd (a.1 + -b.1) by rw [sub_eq_add_neg])
    mul_comm := fun a b => Subtype.ext (show rnd (a.1 * b.1) = rnd (b.1 * a.1) by rw [mul_comm])
    neg_mul := fun a b => Subtype.ext (show rnd (-a.1 * b.1) = -rnd (a.1 * b.1) by rw [neg_mul, hodd])
    mul_zero := fun a => Subtype.ext (show rnd (a.1 * 0) = 0 by rw [mul_zero, h0])
    neg_div := fun a b => Subtype.ext (show rnd (-a.1 / b.1) = -rnd (a.1 / b.1) by rw [neg_div, hodd])
    fmin_comm := fun a b => min_comm a b
    fmax_comm := fun a b => max_comm a b
    fmin_neg := fun a b => by
      show min (-a) (-b) = -max a b
      rcases le_total a b with h | h
      · have h' : (-b : FinDbl) ≤ -a := neg_le_neg (show a.1 ≤ b.1 from h)
        rw [max_eq_right h, min_eq_right h']
      · have h' : (-a : FinDbl) ≤ -b := neg_le_neg (show b.1 ≤ a.1 from h)
        rw [max_eq_left h, min_eq_left h']
    fabs_neg := fun a => Subtype.ext (show |-a.1| = |a.1| from abs_neg _)
    neg_lt := fun a b => (neg_lt_neg_iff : -a.1 < -b.1 ↔ b.1 < a.1)
    asymm := fun a b h => (not_lt.2 (le_of_lt (show a.1 < b.1 from h)) : ¬ b.1 < a.1)
    tri := fun a b h h' => Subtype.ext (le_antisymm (not_lt.1 (show ¬ b.1 < a.1 from h')) (not_lt.1 (show ¬ a.1 < b.1 from h))) }

/-- **C91, double precision.** A symmetric problem in finite `double`s, with operations that round to nearest, symmetrically in the
sign (the default rounding does, `roundDouble_neg`): cell sizes, boundary conditions and initial state are their own mirror images
along `b`, and there is no gravity. First order, HLL or low Mach solver. After any number of iterations, on any decomposition, the
state is its own mirror image, bit by bit. (As in `C85_uniform_flow_double_partial`, a division by 0 is a number here.) -/
theorem C91_symmetry_double_partial {rnd : ℚ → ℚ} (hr : Nearest rnd) (hodd : ∀ x, rnd (-x) = -rnd x) (tr : Trig FinDbl) (hd3 : d ≤ 3)
    {b : Fin d} {p : KernelParams d n FinDbl} {sol : Solver} (hs : sol ≠ .hllc) {eos : EoS FinDbl}
    (hk : p.k = @orderedKernels d n FinDbl (dblArith rnd hr tr) .constant sol eos .cartesian none) (hgeom : p.geom = .cartesian)
    (hbc : p.bcs b 0 = p.bcs b 1) {nx : Cell} {ng : ℤ} (hN : ∀ a, 0 < nx a) (hng : 2 ≤ ng) (hb : ∀ a f, p.bcs a f ≠ .userDefined)
    {order : List ℕ} (ho : order.Perm (List.range (2 * d))) (hpo : p.order = order.map some) {X : Fin 3 → ℤ → FinDbl} {dims : Cell}
    {sched : Cell → Cell → List Cell} {grav : DistView (Fields d n FinDbl) → Cell → GravField d FinDbl}
    {M : ℕ → Cell → RankMem d n FinDbl} {lf : ℕ → Cell → List Cell} :
    letI := dblArith rnd hr tr
    (∀ i, 0 ≤ i → i < nx (ax b) + 2 * ng → X (ax b) (i + 1) - X (ax b) i =
      X (ax b) (nx (ax b) + 2 * ng - i) - X (ax b) (nx (ax b) + 2 * ng - 1 - i)) →
    KDecomposition p nx ng X (fun _ _ _ => 0) dims sched grav M lf → ∀ {G : Cell → Fields d n FinDbl} {D : DistView (Fields d n FinDbl)},
    (∀ g, inBox 0 nx g → G g = (G (reflect (ax b) (nx (ax b)) g)).flip b) →
    (∀ rank, inBox 0 dims rank → D.ext rank = localExt nx dims (nghostOf d ng) rank) →
    (∀ rank, inBox 0 dims rank → ∀ c, inBox (nghostOf d ng) (fun a => D.ext rank a - nghostOf d ng a) c →
      D.val rank c = G (globalOf nx dims (nghostOf d ng) rank c)) → ∀ i : ℕ,
    ∃ R hist, kRun p sched (borderOf dims) (nghostOf d ng) dims grav M lf D i = some (R, hist) ∧
      ∀ rank rank' c c', inBox 0 dims rank → inBox 0 dims rank' →
        inExt (localExt nx dims (nghostOf d ng) rank) c = true → inExt (localExt nx dims (nghostOf d ng) rank') c' = true →
        globalOf nx dims (nghostOf d ng) rank c = reflect (ax b) (nx (ax b)) (globalOf nx dims (nghostOf d ng) rank' c') →
        R.val rank' c' = (R.val rank c).flip b := by
  letI := dblArith rnd hr tr
  intro hX h G D hG hext hint i
  have hp : p.Mirrored b p := ⟨rfl, rfl, rfl, rfl, fun a f => by
    by_cases e : a = b
    · subst e
      rw [if_pos rfl]
      rcases face_cases f with rfl | rfl
      · exact hbc
      · exact hbc.symm
    · rw [if_neg e]⟩
  have hin : ∀ rank, inBox 0 dims rank → ∀ c, inBox (nghostOf d ng) (fun a => D.ext rank a - nghostOf d ng a) c →
      inBox 0 nx (globalOf nx dims (nghostOf d ng) rank c) := fun rank hrk c hc a => by
    have h1 := localStart_add_size_le (r := rank a) (hN a).le (h.pos a) (hrk a).2
    have h2 := localStart_nonneg (r := rank a) (hN a).le (h.pos a) (hrk a).1
    have h3 := hc a
    rw [hext rank hrk] at h3
    simp only [globalOf, localExt, Pi.zero_apply] at h3 ⊢
    omega
  obtain ⟨R, R', hist, e1, e2, e3⟩ := C91_mirror_partial (dblArith_signLaws hr hodd tr) hd3 (b := b) (p := p) (p' := p) hs hk hgeom hp
    hN hng hb ho ho hpo hpo (X := X) (X' := X) hX (fun _ _ _ _ _ => rfl)
    (Gr := fun _ _ _ => 0) (Gr' := fun _ _ _ => 0)
    (fun W C _ a => by
      have : -(0 : FinDbl) = 0 := (dblArith_signLaws hr hodd tr).neg_zero
      split
      · exact this.symm
      · rfl) h h G hext hint hext
    (fun rank hrk c hc => by rw [hint rank hrk c hc]; exact hG _ (hin rank hrk c hc)) i
  rw [e1] at e2
  cases e2
  exact ⟨R, hist, e1, e3⟩

/-- A periodic tube of 6 cells on two ranks, and the default rounding: the hypotheses can be met, with a state that is not uniform. -/
example (tr : Trig FinDbl) (eos : EoS FinDbl) (policy : List FinDbl → FinDbl) (user : UserBc 1 0 FinDbl) (lo u v : FinDbl) :
    letI := dblArith roundDouble roundDouble_nearest tr
    let p : KernelParams 1 0 FinDbl := ⟨orderedKernels .constant .hll eos .cartesian none, .cartesian, lo, policy, user,
      fun _ _ => .periodic, [some 0, some 1]⟩
    let G : Cell → Fields 1 0 FinDbl := fun g =>
      if g 0 < 3 then ⟨lit (g 0 + 1).toNat, fun _ => u, v, Fin.elim0⟩ else ⟨lit (6 - g 0).toNat, fun _ => -u, v, Fin.elim0⟩
    (∀ x, roundDouble (-x) = -roundDouble x) ∧ (∀ g, inBox 0 ![6, 1, 1] g → G g = (G (reflect 0 6 g)).flip 0) ∧
    ∃ M lf, KDecomposition p ![6, 1, 1] 2 (fun _ i => lit i.toNat) (fun _ _ _ => 0) ![2, 1, 1] boxList (fun _ _ _ _ => some 0) M lf := by
  letI := dblArith roundDouble roundDouble_nearest tr
  refine ⟨roundDouble_neg, fun g hg => ?_, exists_kDecomposition _ (by decide) (by decide) (by norm_num) ?_ _⟩
  · have h0 : 0 ≤ g 0 ∧ g 0 < 6 := hg 0
    have hnn : - -u = u := (dblArith_signLaws roundDouble_nearest roundDouble_neg tr).neg_neg u
    have hr : reflect 0 6 g 0 = 5 - g 0 := by rw [reflect_self]; ring
    by_cases h : g 0 < 3
    · have h1 : ¬ (5 - g 0 < 3) := by omega
      dsimp only
      rw [if_pos h, hr, if_neg h1]
      have e : (6 - (5 - g 0)).toNat = (g 0 + 1).toNat := by congr 1; ring
      rw [e]
      unfold Fields.flip
      congr 1
      funext a
      rw [Subsingleton.elim a 0, Function.update_self, hnn]
    · have h1 : 5 - g 0 < 3 := by omega
      dsimp only
      rw [if_neg h, hr, if_pos h1]
      have e : (5 - g 0 + 1).toNat = (6 - g 0).toNat := by congr 1; ring
      rw [e]
      unfold Fields.flip
      congr 1
      funext a
      rw [Subsingleton.elim a 0, Function.update_self]
  · intro a ha r h0 h1
    rw [localSize_eq (by fin_cases a <;> decide) (lt_of_le_of_lt h0 h1)]
    fin_cases a
    · simp [not_lt.2 h0]
    · simp at ha
    · simp at ha

end Heracles
