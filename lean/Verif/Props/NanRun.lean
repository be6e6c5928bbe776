import Verif.Lemmas.NanSpread
import Verif.Spec.NanRun

/-!
# C90: a run that has computed NaN goes on
-/

namespace Heracles

open Arith

/-! ### Decompositions do not matter, also with NaN -/

section Ieee
variable {d n : ℕ}

theorem ieee_orderKey (tr : Trig Ieee) : @OrderKey Ieee (WithBot (WithTop ℚ)) (ieeeArith tr).toLT _ Ieee.key := fun a b => Ieee.ltb_key a b

/-- Rates are sums that start from `+0`: they are not `-0`. -/
theorem ieee_rate_ne (tr : Trig Ieee) (lim : Limiter) (sol : Solver) (eos : EoS Ieee) (geom : Geom) (fix : Option Ieee) (rho : Ieee)
    (q : VelPres d Ieee) (dx : Fin 3 → Ieee) (xc0 xc1 : Ieee) :
    letI := ieeeArith tr
    (orderedKernels (n := n) lim sol eos geom fix).rate rho q dx xc0 xc1 ≠ Ieee.negZero := by
  letI := ieeeArith tr
  show sumUp _ ≠ Ieee.negZero
  unfold sumUp
  refine foldl_keep (P := fun s : Ieee => s ≠ Ieee.negZero) (fun s i hs => Ieee.add_ne_negZero hs _) _ ?_
  show Ieee.zero ≠ Ieee.negZero
  decide

/-- The rate of which the time step is the inverse: the largest number among `lo` and the rates, NaN left out. -/
def IeeeRate (p : KernelParams d n Ieee) (nx nghost : Cell) (X : Fin 3 → ℤ → Ieee) (W : Cell → Fields d n Ieee) (m : Ieee) : Prop :=
  KeyMax Ieee.key p.lo (fun C => inExt (globExt nx nghost) C = true) (kRateVal p.k p.geom X W (kPrimGlob p.k W)) m

theorem ieee_iter (tr : Trig Ieee) (hd3 : d ≤ 3) {p : KernelParams d n Ieee} (hlo : p.lo ≠ .nan) {nx : Cell} {ng : ℤ}
    (hN : ∀ a, 0 ≤ nx a) (hng : 2 ≤ ng) (hb : ∀ a f, p.bcs a f ≠ .userDefined) {order : List ℕ} (ho : ∀ id ∈ order, id < 2 * d)
    (hpo : p.order = order.map some) {X : Fin 3 → ℤ → Ieee} {Gr : (Cell → Fields d n Ieee) → Cell → Fin d → Ieee} {dims : Cell}
    {sched : Cell → Cell → List Cell} {grav : DistView (Fields d n Ieee) → Cell → GravField d Ieee}
    {M : ℕ → Cell → RankMem d n Ieee} {lf : ℕ → Cell → List Cell} :
    letI := ieeeArith tr
    KDecomposition p nx ng X Gr dims sched grav M lf → ∀ (i : ℕ) {W : Cell → Fields d n Ieee}
    {D : DistView (Fields d n Ieee)}, HoldsAll nx dims (nghostOf d ng) W D → ∀ hist : List Ieee,
    ∃ m D', IeeeRate p nx (nghostOf d ng) X W m ∧
      kIter p sched (borderOf dims) (nghostOf d ng) dims grav (M i) (lf i) (D, hist) = some (D', p.k.inv m :: hist) ∧
      HoldsAll nx dims (nghostOf d ng) (kIterGlob p nx ng X Gr order (p.policy (p.k.inv m :: hist)) W) D' := by
  letI := ieeeArith tr
  intro h i W D hD hist
  have hmemr : ∀ r, r ∈ boxList 0 dims ↔ inBox 0 dims r := (boxList_isSchedule 0 dims).2
  obtain ⟨x0, hx0⟩ : ∃ x, Ieee.key p.lo = some x := by
    rcases e : Ieee.key p.lo with _ | x
    · exact absurd ((Ieee.key_fin _).1 e) hlo
    · exact ⟨x, rfl⟩
  refine kIter_holds_of hd3 hN hng hb ho hpo h i hD hist fun up hup => ?_
  obtain ⟨m, hm1, hm2⟩ := kTimeStep_key (ieee_orderKey tr) (ranks := boxList 0 dims)
    (fun hnil => by
      have h0 : (0 : Cell) ∈ boxList 0 dims := (hmemr 0).2 fun a => ⟨le_rfl, h.pos a⟩
      rw [hnil] at h0
      simp at h0) (parts := fun r => (M i r).parts) hx0 p.k (g := fun r => (M i r).grid)
    (rho := fun r => (D.local r).comp Fields.rho) (up := up) hup
  refine ⟨m, hm1, ?_, ?_⟩
  · obtain ⟨y, e1, e2, e3⟩ := hm2.num
    refine ⟨y, e1, e2, fun C hC z hz => ?_⟩
    obtain ⟨r, c, hr, hc, rfl⟩ := exists_local hN h.pos (by omega) h.size hC
    exact e3 (r, c) ⟨(hmemr r).2 hr, ((h.mem i r hr).parts.2 c).2 (inExt_iff.1 hc)⟩ z hz
  · rcases hm2.mem with e | ⟨⟨r, c⟩, ⟨hr, hc⟩, e⟩
    · exact Or.inl e
    · have hr' := (hmemr r).1 hr
      have hc' : inExt (localExt nx dims (nghostOf d ng) r) c = true := inExt_iff.2 (((h.mem i r hr').parts.2 c).1 hc)
      exact Or.inr ⟨c + startCell nx dims r, inExt_shift hN h.pos hr' hc', e⟩

/-- **C82, IEEE 754.** Bit by bit independence of the decomposition with the `double`s of the machine: NaN, infinities, signed zeros,
overflow and underflow included. The kernels are those of the code, operation by operation, with any limiter, solver, geometry,
equation of state, library functions and with or without pressure fix; the largest rate is the same on all decompositions because the
comparison leaves out NaN in every order and a rate is never `-0`. -/
theorem C82_ieee_decomposition_independent (tr : Trig Ieee) (hd3 : d ≤ 3) {p : KernelParams d n Ieee} {lim : Limiter} {sol : Solver}
    {eos : EoS Ieee} {geom : Geom} {fix : Option Ieee} (hk : p.k = @orderedKernels d n Ieee (ieeeArith tr) lim sol eos geom fix)
    (hlo : p.lo = negDblMax) {nx : Cell} {ng : ℤ} (hN : ∀ a, 0 ≤ nx a) (hng : 2 ≤ ng) (hb : ∀ a f, p.bcs a f ≠ .userDefined)
    {order : List ℕ} (ho : ∀ id ∈ order, id < 2 * d) (hpo : p.order = order.map some) {X : Fin 3 → ℤ → Ieee}
    {Gr : (Cell → Fields d n Ieee) → Cell → Fin d → Ieee} {dims dims' : Cell}
    {sched sched' : Cell → Cell → List Cell} {grav grav' : DistView (Fields d n Ieee) → Cell → GravField d Ieee}
    {M M' : ℕ → Cell → RankMem d n Ieee} {lf lf' : ℕ → Cell → List Cell} :
    letI := ieeeArith tr
    KDecomposition p nx ng X Gr dims sched grav M lf → KDecomposition p nx ng X Gr dims' sched' grav' M' lf' →
    ∀ (G : Cell → Fields d n Ieee) {D D' : DistView (Fields d n Ieee)},
    (∀ rank, inBox 0 dims rank → D.ext rank = localExt nx dims (nghostOf d ng) rank) →
    (∀ rank, inBox 0 dims rank → ∀ c, inBox (nghostOf d ng) (fun a => D.ext rank a - nghostOf d ng a) c →
      D.val rank c = G (globalOf nx dims (nghostOf d ng) rank c)) →
    (∀ rank, inBox 0 dims' rank → D'.ext rank = localExt nx dims' (nghostOf d ng) rank) →
    (∀ rank, inBox 0 dims' rank → ∀ c, inBox (nghostOf d ng) (fun a => D'.ext rank a - nghostOf d ng a) c →
      D'.val rank c = G (globalOf nx dims' (nghostOf d ng) rank c)) → ∀ i : ℕ,
    ∃ R R' hist, kRun p sched (borderOf dims) (nghostOf d ng) dims grav M lf D i = some (R, hist) ∧
      kRun p sched' (borderOf dims') (nghostOf d ng) dims' grav' M' lf' D' i = some (R', hist) ∧
      ∀ rank rank' c c', inBox 0 dims rank → inBox 0 dims' rank' →
        inExt (localExt nx dims (nghostOf d ng) rank) c = true → inExt (localExt nx dims' (nghostOf d ng) rank') c' = true →
        globalOf nx dims (nghostOf d ng) rank c = globalOf nx dims' (nghostOf d ng) rank' c' →
        R.val rank c = R'.val rank' c' := by
  letI := ieeeArith tr
  intro h h' G D D' hext hint hext' hint' i
  have hlo' : p.lo ≠ .nan := by rw [hlo]; decide +kernel
  refine kRun_agree hd3 hN hng hb ho hpo h h' (Rate := IeeeRate p nx (nghostOf d ng) X)
    (fun i W D hist e => ieee_iter tr hd3 hlo' hN hng hb ho hpo h i e hist)
    (fun i W D hist e => ieee_iter tr hd3 hlo' hN hng hb ho hpo h' i e hist)
    (fun W m m' q q' => KeyMax.unique q q' fun a b ha hb' x hxa hxb => Ieee.key_inj ?_ ?_ hxa hxb) G hext hint hext' hint' i
  · rcases ha with rfl | ⟨C, -, rfl⟩
    · rw [hlo]; decide +kernel
    · rw [hk]; exact ieee_rate_ne tr lim sol eos geom fix _ _ _ _ _
  · rcases hb' with rfl | ⟨C, -, rfl⟩
    · rw [hlo]; decide +kernel
    · rw [hk]; exact ieee_rate_ne tr lim sol eos geom fix _ _ _ _ _

/-- Memories for any decomposition with enough cells per rank, without gravity. -/
theorem exists_kDecomposition {F : Type} [Zero F] (p : KernelParams d n F) {nx dims : Cell} {ng : ℤ} (hN : ∀ a, 0 ≤ nx a)
    (hdm : ∀ a, 0 < dims a) (hng : 0 ≤ ng) (hsz : ∀ a : Fin 3, a.val < d → ∀ r, 0 ≤ r → r < dims a → ng ≤ localSize (nx a) (dims a) r)
    (X : Fin 3 → ℤ → F) :
    ∃ M lf, KDecomposition p nx ng X (fun _ _ _ => 0) dims boxList (fun _ _ _ _ => some 0) M lf := by
  have hex : ∀ r, ∃ (m : RankMem d n F) (lf : List Cell), inBox 0 dims r → KRankOk p.k p.geom nx dims ng X r m lf := fun r => by
    by_cases hr' : inBox 0 dims r
    · obtain ⟨m, lf, hm⟩ := exists_kRankOk p.k p.geom hN hdm hng hr' X
      exact ⟨m, lf, fun _ => hm⟩
    · obtain ⟨m, lf, hm⟩ := exists_kRankOk p.k p.geom (dims := dims) hN hdm hng (rank := 0) (fun a => ⟨le_rfl, hdm a⟩) X
      exact ⟨m, lf, fun h => absurd h hr'⟩
  choose m lf hm using hex
  exact ⟨fun _ => m, fun _ => lf, hdm, hsz, fun b e => boxList_isSchedule b e, fun _ _ _ _ _ _ _ _ => rfl, fun _ r hr => hm r hr⟩

/-- A tube of 4 cells on one rank and on two. -/
example (tr : Trig Ieee) (p : KernelParams 1 0 Ieee) : letI := ieeeArith tr
    (∃ M lf, KDecomposition p ![4, 1, 1] 2 (fun _ i => .lit i) (fun _ _ _ => 0) ![1, 1, 1] boxList (fun _ _ _ _ => some 0) M lf) ∧
    ∃ M lf, KDecomposition p ![4, 1, 1] 2 (fun _ i => .lit i) (fun _ _ _ => 0) ![2, 1, 1] boxList (fun _ _ _ _ => some 0) M lf := by
  letI := ieeeArith tr
  refine ⟨exists_kDecomposition p (by decide) (by decide) (by norm_num) ?_ _, exists_kDecomposition p (by decide) (by decide) (by norm_num) ?_ _⟩
  all_goals
    intro a ha r h0 h1
    rw [localSize_eq (by fin_cases a <;> decide) (lt_of_le_of_lt h0 h1)]
    fin_cases a
    · simp [not_lt.2 h0]
    · simp at ha
    · simp at ha

/-- Why a rate has to be other than `-0`: the two zeros are different and compare equal, so that the largest of them would depend on
the order. -/
example (tr : Trig Ieee) : letI := ieeeArith tr
    kmax Ieee.zero Ieee.negZero ≠ kmax Ieee.negZero Ieee.zero := by
  show (if Ieee.zero.ltb Ieee.negZero = true then Ieee.negZero else Ieee.zero) ≠
    (if Ieee.negZero.ltb Ieee.zero = true then Ieee.zero else Ieee.negZero)
  decide +kernel

/-! ### The spread of NaN -/

theorem bcGlob_inside {K : Type} [Neg K] {nx : Cell} {ng : ℤ} {order : List ℕ} (bcs : Fin d → Fin 2 → BcKind) (hd3 : d ≤ 3) (hng : 0 < ng)
    (ho : ∀ id ∈ order, id < 2 * d) (G : Cell → Fields d n K) {g : Cell} (hg : inBox 0 nx g) :
    bcGlob bcs nx (nghostOf d ng) order G (g + nghostOf d ng) = G g := by
  have key : ∀ (l : List ℕ), (∀ id ∈ l, id < 2 * d) → ∀ V : Cell → Fields d n K,
      l.foldl (bcPure bcs (fun _ _ => true) (globExt nx (nghostOf d ng)) (nghostOf d ng)) V (g + nghostOf d ng) = V (g + nghostOf d ng) := by
    intro l
    induction l with
    | nil => exact fun _ _ => rfl
    | cons id l ih =>
      intro hl V
      rw [List.foldl_cons, ih (fun i hi => hl i (by simp [hi]))]
      obtain ⟨a, f, rfl⟩ := faceId_surj (hl id (by simp))
      rw [bcPure_faceId, if_pos rfl, condPure_eq, if_neg]
      rintro ⟨-, hL⟩
      have := hg (ax a)
      have hnga : nghostOf d ng (ax a) = ng := by simp [nghostOf, ax_val hd3]
      rcases face_cases f with rfl | rfl
      · simp [InGhostLayer, hnga, globExt] at hL this
        omega
      · simp [InGhostLayer, hnga, globExt] at hL this
        omega
  unfold bcGlob
  rw [key order ho]
  congr 1
  rw [add_sub_cancel_right]
  funext a
  exact Int.emod_eq_of_lt (hg a).1 (hg a).2

/-- The boundary conditions fill the ghosts with values of the interior, up to the sign of a momentum. -/
theorem bcGlob_all {K : Type} [Neg K] {nx nghost : Cell} {order : List ℕ} (bcs : Fin d → Fin 2 → BcKind) (hpos : ∀ a, 0 < nx a)
    {G : Cell → Fields d n K} {P : Fields d n K → Prop} (hflip : ∀ s a, P s → P (s.flip a)) (hG : ∀ g, inBox 0 nx g → P (G g)) (C : Cell) :
    P (bcGlob bcs nx nghost order G C) := by
  unfold bcGlob
  have key : ∀ (l : List ℕ) (V : Cell → Fields d n K), (∀ C, P (V C)) → ∀ C,
      P (l.foldl (bcPure bcs (fun _ _ => true) (globExt nx nghost) nghost) V C) := by
    intro l
    induction l with
    | nil => exact fun V h => h
    | cons id l ih =>
      intro V hV
      rw [List.foldl_cons]
      refine ih _ fun C => ?_
      unfold bcPure
      split
      · dsimp only
        rw [if_pos rfl]
        unfold condPure
        split
        · split
          · exact hV _
          · exact hflip _ _ (hV _)
          · exact hV _
        · exact hV _
      · exact hV _
  exact key order _ (fun C => hG _ fun a => ⟨Int.emod_nonneg _ (hpos a).ne', Int.emod_lt_of_pos _ (hpos a)⟩) C

/-- A step towards the cell where NaN came from. -/
theorem NanReach.step (hd3 : d ≤ 3) {sol : Solver} {g0 g : Cell} {i : ℕ} (h : NanReach d sol g0 g (i + 1)) :
    NanReach d sol g0 g i ∨ ∃ (a : Fin d) (t : ℤ), (t = 1 ∨ t = -1 ∧ sol ≠ .hllc) ∧ NanReach d sol g0 (nb g (ax a) t) i ∧
      ∀ nx, inBox 0 nx g0 → inBox 0 nx g → inBox 0 nx (nb g (ax a) t) := by
  by_cases hc : |g 0 - g0 0| + |g 1 - g0 1| + |g 2 - g0 2| ≤ i
  · exact Or.inl ⟨h.flat, h.side, hc⟩
  right
  obtain ⟨b, hb⟩ : ∃ b : Fin 3, g b ≠ g0 b := by
    by_contra hcon
    push Not at hcon
    rw [hcon 0, hcon 1, hcon 2] at hc
    simp at hc
  have hbd : b.val < d := by
    by_contra hcon
    exact hb (h.flat b hcon)
  have hax : ax (⟨b.val, hbd⟩ : Fin d) = b := Fin.ext (ax_val hd3)
  refine ⟨⟨b.val, hbd⟩, if g b < g0 b then 1 else -1, ?_, ⟨?_, ?_, ?_⟩, ?_⟩
  · split
    · exact Or.inl rfl
    · exact Or.inr ⟨rfl, fun hs => by have := h.side hs b; omega⟩
  · intro a ha
    rw [hax]
    have hne : a ≠ b := by rintro rfl; exact ha hbd
    unfold nb
    rw [Function.update_of_ne hne]
    exact h.flat a ha
  · intro hs a
    rw [hax]
    have h1 := h.side hs a
    have h2 := h.side hs b
    unfold nb
    by_cases hab : a = b
    · subst hab
      rw [Function.update_self, if_pos (by omega)]
      omega
    · rw [Function.update_of_ne hab]
      exact h1
  · rw [hax]
    have hd := h.dist
    push_cast at hd
    have hstep : |g b + (if g b < g0 b then 1 else -1) - g0 b| = |g b - g0 b| - 1 := by
      split
      · rw [abs_of_nonpos (by omega), abs_of_neg (by omega)]; omega
      · rw [abs_of_nonneg (by omega), abs_of_pos (by omega)]; omega
    unfold nb
    fin_cases b <;> simp only [Fin.zero_eta, Fin.mk_one, Fin.reduceFinMk] at hstep ⊢ <;> simp [Function.update] at hstep ⊢ <;> omega
  · intro nx h0 hg a
    rw [hax]
    unfold nb
    by_cases hab : a = b
    · subst hab
      rw [Function.update_self]
      have h1 := h0 a
      have h2 := hg a
      split <;> omega
    · rw [Function.update_of_ne hab]
      exact hg a

/-- The NaN of iteration `i` on the global array. -/
def NanInv (p : KernelParams d n Ieee) (sol : Solver) (nx nghost g0 : Cell) (i : ℕ) (W : Cell → Fields d n Ieee) : Prop :=
  ∀ g, inBox 0 nx g → NanReach d sol g0 g i →
    BadPrim .nan (kPrimGlob p.k W (g + nghost)) ∧ (1 ≤ i → (W (g + nghost)).rho = .nan)

theorem nanInv_succ (tr : Trig Ieee) (hd : 0 < d) (hd3 : d ≤ 3) {p : KernelParams d n Ieee} {lim : Limiter} {sol : Solver}
    {eos : EoS Ieee} {geom : Geom} {fix : Option Ieee} (hk : p.k = @orderedKernels d n Ieee (ieeeArith tr) lim sol eos geom fix)
    {nx : Cell} {ng : ℤ} (hng : 2 ≤ ng) {order : List ℕ} (ho : ∀ id ∈ order, id < 2 * d) {X : Fin 3 → ℤ → Ieee}
    {Gr : (Cell → Fields d n Ieee) → Cell → Fin d → Ieee} {g0 : Cell} (h0 : inBox 0 nx g0) (dt : Ieee) {i : ℕ}
    {W : Cell → Fields d n Ieee} (h : NanInv p sol nx (nghostOf d ng) g0 i W) :
    letI := ieeeArith tr
    NanInv p sol nx (nghostOf d ng) g0 (i + 1) (kIterGlob p nx ng X Gr order dt W) := by
  letI := ieeeArith tr
  have hn := ieee_nanLaws tr
  intro g hg hr
  have hrho : (kIterGlob p nx ng X Gr order dt W (g + nghostOf d ng)).rho = .nan := by
    unfold kIterGlob
    rw [bcGlob_inside p.bcs hd3 (by omega) ho _ hg]
    rcases hr.step hd3 with h' | ⟨a, t, ht, h', hin⟩
    · have := (h g hg h').1
      rw [hk] at this ⊢
      exact kStepVal_nan_self hn ⟨0, hd⟩ this
    · have := (h _ (hin nx h0 hg) h').1
      rw [← nb_add] at this
      rw [hk] at this ⊢
      rcases ht with rfl | ⟨rfl, hs⟩
      · exact kStepVal_nan_up hn a this
      · exact kStepVal_nan_down hn hs a this
  refine ⟨?_, fun _ => hrho⟩
  rw [hk]
  exact badPrim_of_rho hn ⟨0, hd⟩ hrho

theorem ieee_run (tr : Trig Ieee) (hd : 0 < d) (hd3 : d ≤ 3) {p : KernelParams d n Ieee} {lim : Limiter} {sol : Solver}
    {eos : EoS Ieee} {geom : Geom} {fix : Option Ieee} (hk : p.k = @orderedKernels d n Ieee (ieeeArith tr) lim sol eos geom fix)
    (hlo : p.lo ≠ .nan) {nx : Cell} {ng : ℤ} (hN : ∀ a, 0 ≤ nx a) (hng : 2 ≤ ng) (hb : ∀ a f, p.bcs a f ≠ .userDefined)
    {order : List ℕ} (ho : ∀ id ∈ order, id < 2 * d) (hpo : p.order = order.map some) {X : Fin 3 → ℤ → Ieee}
    {Gr : (Cell → Fields d n Ieee) → Cell → Fin d → Ieee} {dims : Cell}
    {sched : Cell → Cell → List Cell} {grav : DistView (Fields d n Ieee) → Cell → GravField d Ieee}
    {M : ℕ → Cell → RankMem d n Ieee} {lf : ℕ → Cell → List Cell} :
    letI := ieeeArith tr
    KDecomposition p nx ng X Gr dims sched grav M lf →
    ∀ {G : Cell → Fields d n Ieee} {D : DistView (Fields d n Ieee)},
    (∀ rank, inBox 0 dims rank → D.ext rank = localExt nx dims (nghostOf d ng) rank) →
    (∀ rank, inBox 0 dims rank → ∀ c, inBox (nghostOf d ng) (fun a => D.ext rank a - nghostOf d ng a) c →
      D.val rank c = G (globalOf nx dims (nghostOf d ng) rank c)) →
    ∀ {g0 : Cell}, inBox 0 nx g0 → ((∃ a, (G g0).rhou a / (G g0).rho = .nan) ∨ (oToPrim eos (G g0).cons).P = .nan) → ∀ i : ℕ,
    ∃ W R hist, kRun p sched (borderOf dims) (nghostOf d ng) dims grav M lf D i = some (R, hist) ∧
      HoldsAll nx dims (nghostOf d ng) W R ∧ NanInv p sol nx (nghostOf d ng) g0 i W ∧
      ∃ G', W = bcGlob p.bcs nx (nghostOf d ng) order G' := by
  letI := ieeeArith tr
  intro h G D hext hint g0 hg0 hbad i
  induction i with
  | zero =>
    obtain ⟨R, e1, e2⟩ := distBcs_holds hd3 hN h.pos (by omega) h.size p.user h.order hb ho G D hext hint
    refine ⟨_, R, [], ?_, e2, fun g hg hr => ?_, G, rfl⟩
    · unfold kRun; rw [hpo, e1]; rfl
    · have : g = g0 := by
        have hd := hr.dist
        have a0 := abs_nonneg (g 0 - g0 0)
        have a1 := abs_nonneg (g 1 - g0 1)
        have a2 := abs_nonneg (g 2 - g0 2)
        simp only [Nat.cast_zero] at hd
        funext a
        fin_cases a
        · show g 0 = g0 0; exact sub_eq_zero.1 (abs_eq_zero.1 (by omega))
        · show g 1 = g0 1; exact sub_eq_zero.1 (abs_eq_zero.1 (by omega))
        · show g 2 = g0 2; exact sub_eq_zero.1 (abs_eq_zero.1 (by omega))
      subst this
      refine ⟨?_, fun h => absurd h (by norm_num)⟩
      unfold kPrimGlob
      rw [bcGlob_inside p.bcs hd3 (by omega) ho _ hg, hk]
      exact hbad
  | succ i ih =>
    obtain ⟨W, R, hist, e1, e2, e3, -⟩ := ih
    obtain ⟨m, R', q1, q2, q3⟩ := ieee_iter tr hd3 hlo hN hng hb ho hpo h i e2 hist
    refine ⟨_, R', p.k.inv m :: hist, ?_, q3, nanInv_succ tr hd hd3 hk hng ho hg0 _ e3, _, rfl⟩
    unfold kRun; rw [e1]; exact q2

/-- **C90, NaN spreads.** Let a velocity or the pressure of a cell `g0` of the initial state be NaN (a density 0 with momentum 0, say).
With IEEE `double`s, any limiter, equation of state, geometry, gravity, pressure fix, time step policy and decomposition, the run
goes on for any number `i` of iterations, and from the first on the density is NaN in all cells up to `i` faces away from `g0`: in
all directions with HLL and the low Mach solver; with HLLC, towards the smaller indices. -/
theorem C90_nan_spreads (tr : Trig Ieee) (hd : 0 < d) (hd3 : d ≤ 3) {p : KernelParams d n Ieee} {lim : Limiter} {sol : Solver}
    {eos : EoS Ieee} {geom : Geom} {fix : Option Ieee} (hk : p.k = @orderedKernels d n Ieee (ieeeArith tr) lim sol eos geom fix)
    (hlo : p.lo ≠ .nan) {nx : Cell} {ng : ℤ} (hN : ∀ a, 0 ≤ nx a) (hng : 2 ≤ ng) (hb : ∀ a f, p.bcs a f ≠ .userDefined)
    {order : List ℕ} (ho : ∀ id ∈ order, id < 2 * d) (hpo : p.order = order.map some) {X : Fin 3 → ℤ → Ieee}
    {Gr : (Cell → Fields d n Ieee) → Cell → Fin d → Ieee} {dims : Cell}
    {sched : Cell → Cell → List Cell} {grav : DistView (Fields d n Ieee) → Cell → GravField d Ieee}
    {M : ℕ → Cell → RankMem d n Ieee} {lf : ℕ → Cell → List Cell} :
    letI := ieeeArith tr
    KDecomposition p nx ng X Gr dims sched grav M lf →
    ∀ {G : Cell → Fields d n Ieee} {D : DistView (Fields d n Ieee)},
    (∀ rank, inBox 0 dims rank → D.ext rank = localExt nx dims (nghostOf d ng) rank) →
    (∀ rank, inBox 0 dims rank → ∀ c, inBox (nghostOf d ng) (fun a => D.ext rank a - nghostOf d ng a) c →
      D.val rank c = G (globalOf nx dims (nghostOf d ng) rank c)) →
    ∀ {g0 : Cell}, inBox 0 nx g0 → ((∃ a, (G g0).rhou a / (G g0).rho = .nan) ∨ (oToPrim eos (G g0).cons).P = .nan) → ∀ i : ℕ,
    ∃ R hist, kRun p sched (borderOf dims) (nghostOf d ng) dims grav M lf D i = some (R, hist) ∧
      (1 ≤ i → ∀ rank c, inBox 0 dims rank → inExt (localExt nx dims (nghostOf d ng) rank) c = true →
        inBox 0 nx (globalOf nx dims (nghostOf d ng) rank c) → NanReach d sol g0 (globalOf nx dims (nghostOf d ng) rank c) i →
        (R.val rank c).rho = .nan) := by
  letI := ieeeArith tr
  intro h G D hext hint g0 hg0 hbad i
  obtain ⟨W, R, hist, e1, e2, e3, -⟩ := ieee_run tr hd hd3 hk hlo hN hng hb ho hpo h hext hint hg0 hbad i
  refine ⟨R, hist, e1, fun hi rank c hr hc hin hre => ?_⟩
  have h' := (e3 _ hin hre).2 hi
  rw [e2.val rank hr c hc]
  convert h' using 3
  funext a
  simp only [Pi.add_apply, globalOf, startCell]
  ring

/-- The first cell of a tube is reached after two iterations from the third, also with HLLC; the fourth is not with HLLC. -/
example : NanReach 1 .hllc ![2, 0, 0] ![0, 0, 0] 2 ∧ ¬ NanReach 1 .hllc ![2, 0, 0] ![3, 0, 0] 2 ∧ NanReach 1 .hll ![2, 0, 0] ![3, 0, 0] 2 :=
  ⟨⟨by decide, by decide, by decide⟩, fun h => absurd (h.side rfl 0) (by decide), ⟨by decide, by decide, by decide⟩⟩

/-- **C90, the whole domain.** With HLL or the low Mach solver a single cell is enough: after as many iterations as the longest path
through faces in the domain has steps, every density, ghosts included, is NaN. The run does not stop: it goes on for any number of
iterations, and the time step of each of them is `1 / (-DBL_MAX) = -2^-1024`, because the largest rate leaves out NaN and starts
from the lowest number. -/
theorem C90_nan_everywhere (tr : Trig Ieee) (hd : 0 < d) (hd3 : d ≤ 3) {p : KernelParams d n Ieee} {lim : Limiter} {sol : Solver}
    {eos : EoS Ieee} {geom : Geom} {fix : Option Ieee} (hk : p.k = @orderedKernels d n Ieee (ieeeArith tr) lim sol eos geom fix)
    (hs : sol ≠ .hllc) (hlo : p.lo = negDblMax) {nx : Cell} {ng : ℤ} (hN : ∀ a, 0 ≤ nx a) (hflat : ∀ a : Fin 3, ¬ a.val < d → nx a = 1)
    (hng : 2 ≤ ng) (hb : ∀ a f, p.bcs a f ≠ .userDefined)
    {order : List ℕ} (ho : ∀ id ∈ order, id < 2 * d) (hpo : p.order = order.map some) {X : Fin 3 → ℤ → Ieee}
    {Gr : (Cell → Fields d n Ieee) → Cell → Fin d → Ieee} {dims : Cell}
    {sched : Cell → Cell → List Cell} {grav : DistView (Fields d n Ieee) → Cell → GravField d Ieee}
    {M : ℕ → Cell → RankMem d n Ieee} {lf : ℕ → Cell → List Cell} :
    letI := ieeeArith tr
    KDecomposition p nx ng X Gr dims sched grav M lf →
    ∀ {G : Cell → Fields d n Ieee} {D : DistView (Fields d n Ieee)},
    (∀ rank, inBox 0 dims rank → D.ext rank = localExt nx dims (nghostOf d ng) rank) →
    (∀ rank, inBox 0 dims rank → ∀ c, inBox (nghostOf d ng) (fun a => D.ext rank a - nghostOf d ng a) c →
      D.val rank c = G (globalOf nx dims (nghostOf d ng) rank c)) →
    ∀ {g0 : Cell}, inBox 0 nx g0 → ((∃ a, (G g0).rhou a / (G g0).rho = .nan) ∨ (oToPrim eos (G g0).cons).P = .nan) → ∀ i : ℕ,
    1 ≤ i → nx 0 + nx 1 + nx 2 - 3 ≤ i →
    ∃ R hist, kRun p sched (borderOf dims) (nghostOf d ng) dims grav M lf D i = some (R, hist) ∧
      (∀ rank c, inBox 0 dims rank → inExt (localExt nx dims (nghostOf d ng) rank) c = true → (R.val rank c).rho = .nan) ∧
      ∃ R', kRun p sched (borderOf dims) (nghostOf d ng) dims grav M lf D (i + 1) = some (R', .lit (-(1 / 2 ^ 1024)) :: hist) := by
  letI := ieeeArith tr
  intro h G D hext hint g0 hg0 hbad i hi1 hi
  have hlo' : p.lo ≠ .nan := by rw [hlo]; decide +kernel
  obtain ⟨W, R, hist, e1, e2, e3, G', e4⟩ := ieee_run tr hd hd3 hk hlo' hN hng hb ho hpo h hext hint hg0 hbad i
  have hpos : ∀ a, 0 < nx a := fun a => by have := hg0 a; simp at this; omega
  have hreach : ∀ g, inBox 0 nx g → NanReach d sol g0 g i := by
    intro g hg
    refine ⟨fun a ha => ?_, fun e => absurd e hs, ?_⟩
    · have h1 := hg a
      have h2 := hg0 a
      rw [hflat a ha] at h1 h2
      simp at h1 h2
      omega
    · have key : ∀ a, |g a - g0 a| ≤ nx a - 1 := fun a => by
        have h1 := hg a
        have h2 := hg0 a
        simp at h1 h2
        rw [abs_le]
        omega
      have := key 0
      have := key 1
      have := key 2
      omega
  have hall : ∀ C, (W C).rho = .nan := by
    rw [e4]
    refine bcGlob_all (P := fun s : Fields d n Ieee => s.rho = .nan) p.bcs hpos (fun s a hs => hs) fun g hg => ?_
    have := (e3 g hg (hreach g hg)).2 hi1
    rw [e4, bcGlob_inside p.bcs hd3 (by omega) ho _ hg] at this
    exact this
  refine ⟨R, hist, e1, fun rank c hr hc => by rw [e2.val rank hr c hc]; exact hall _, ?_⟩
  obtain ⟨m, R', q1, q2, q3⟩ := ieee_iter tr hd3 hlo' hN hng hb ho hpo h i e2 hist
  have hm : m = negDblMax := by
    rcases q1.mem with e | ⟨C, -, e⟩
    · rw [e, hlo]
    · exfalso
      obtain ⟨y, e', -⟩ := q1.num
      rw [e, hk, kRateVal_nan (ieee_nanLaws tr) hd (hall C)] at e'
      cases e'
  have hinv : p.k.inv m = .lit (-(1 / 2 ^ 1024)) := by
    rw [hm, hk]
    show (Ieee.lit 1).div negDblMax = _
    decide +kernel
  refine ⟨R', ?_⟩
  rw [← hinv]
  unfold kRun; rw [e1]; exact q2

/-- **C90, the clock.** With a time step `cfl * (-2^-1024)`, `cfl` up to 1, the time of main.cpp 530 stays what it was (if it is at least
`2^-900`), and the tests of lines 367 and 377, `t + dt >= t_end`, give what they gave before: the run does not reach its end either.
Only the number of iterations and the clock of the machine end it. -/
theorem C90_clock_stands {t c : { x : ℚ // IsMag x }} (ht : 2 ^ (-900 : ℤ) ≤ t.1) (hc : c.1 ≤ 1) :
    (Ieee.fin false t).add ((Ieee.fin false c).mul (.lit (-(1 / 2 ^ 1024)))) = .fin false t := by
  obtain ⟨k, e, hk⟩ := Ieee.cfl_tiny hc
  rw [e]
  exact Ieee.add_tiny ht hk

/-- A time 1 and the CFL number 0.5. -/
example : (Ieee.lit 1).add ((Ieee.lit (1 / 2)).mul (.lit (-(1 / 2 ^ 1024)))) = .lit 1 := by decide +kernel

/-- **C90, infinite rates.** As soon as the rate of one cell overflows or comes from a division by zero, that is if it is `+inf`, the
time step of the iteration is zero, on every decomposition, and the run goes on. -/
theorem C90_infinite_rate (tr : Trig Ieee) (hd3 : d ≤ 3) {p : KernelParams d n Ieee} {lim : Limiter} {sol : Solver}
    {eos : EoS Ieee} {geom : Geom} {fix : Option Ieee} (hk : p.k = @orderedKernels d n Ieee (ieeeArith tr) lim sol eos geom fix)
    (hlo : p.lo ≠ .nan) {nx : Cell} {ng : ℤ} (hN : ∀ a, 0 ≤ nx a) (hng : 2 ≤ ng) (hb : ∀ a f, p.bcs a f ≠ .userDefined)
    {order : List ℕ} (ho : ∀ id ∈ order, id < 2 * d)
    (hpo : p.order = order.map some) {X : Fin 3 → ℤ → Ieee} {Gr : (Cell → Fields d n Ieee) → Cell → Fin d → Ieee} {dims : Cell}
    {sched : Cell → Cell → List Cell} {grav : DistView (Fields d n Ieee) → Cell → GravField d Ieee}
    {M : ℕ → Cell → RankMem d n Ieee} {lf : ℕ → Cell → List Cell} :
    letI := ieeeArith tr
    KDecomposition p nx ng X Gr dims sched grav M lf → ∀ (i : ℕ) {W : Cell → Fields d n Ieee}
    {D : DistView (Fields d n Ieee)}, HoldsAll nx dims (nghostOf d ng) W D → ∀ {C : Cell}, inExt (globExt nx (nghostOf d ng)) C = true →
    kRateVal p.k p.geom X W (kPrimGlob p.k W) C = .inf false → ∀ hist : List Ieee,
    ∃ D', kIter p sched (borderOf dims) (nghostOf d ng) dims grav (M i) (lf i) (D, hist) = some (D', .zero :: hist) := by
  letI := ieeeArith tr
  intro h i W D hD C hC hinf hist
  obtain ⟨m, D', q1, q2, q3⟩ := ieee_iter tr hd3 hlo hN hng hb ho hpo h i hD hist
  obtain ⟨y, e1, -, e3⟩ := q1.num
  have := e3 C hC ((⊤ : WithTop ℚ) : WithBot (WithTop ℚ)) (by rw [hinf]; rfl)
  have hm : m = .inf false := by
    rcases m with _ | (_ | _) | ⟨s, m⟩
    · cases e1
    · rfl
    · simp only [Ieee.key, Option.some.injEq] at e1
      rw [← e1] at this
      exact absurd this (not_le.2 (WithBot.bot_lt_coe _))
    · simp only [Ieee.key, Option.some.injEq] at e1
      rw [← e1] at this
      exact absurd (WithBot.coe_le_coe.1 this) (not_le.2 (WithTop.coe_lt_top _))
  refine ⟨D', ?_⟩
  have hinv : (orderedKernels (d := d) (n := n) lim sol eos geom fix).inv (.inf false) = .zero := by
    show (Ieee.lit 1).div (.inf false) = .zero
    decide +kernel
  rw [q2, hm, hk, hinv]

/-- A sound speed that overflows, `sqrt` of an infinite ratio of pressure and density, gives an infinite rate. -/
example : (((Ieee.zero.abs).add (.inf false)).div (.lit (1 / 10))) = .inf false ∧ ((Ieee.lit 1).div Ieee.zero) = .inf false := by decide +kernel


/-! ### The check of the internal energy -/

/-- **C90, the energy check.** The check of main.cpp 397-424 with IEEE `double`s, on any decomposition and partition of the loops
(`parts`): it never meets a NaN (the test `isnan(min)` is never true), and it stops the run exactly when a cell whose internal energy
is a number has a negative one. Cells with NaN count for nothing. -/
theorem C90_energy_check_partial {ranks : List Cell} (hr : ranks ≠ []) (tr : Trig Ieee) {parts : Cell → List (List Cell)}
    {D : DistView (Fields d n Ieee)} (hin : ∀ r ∈ ranks, ∀ c ∈ (parts r).flatten, inExt (D.ext r) c = true) :
    letI := ieeeArith tr
    ∃ m, minInternalEnergy ieeeOps dblMax ranks parts (fun r => (D.local r).comp fun s => (s.rho, s.rhou, s.E)) = some m ∧ m ≠ .nan ∧
      (stopsOn m ↔ ∃ r ∈ ranks, ∃ c ∈ (parts r).flatten, (oEvol (D.val r c).cons).ltb .zero = true) := by
  letI := ieeeArith tr
  have hz : Ieee.key Ieee.zero = some (((0 : ℚ) : WithTop ℚ) : WithBot (WithTop ℚ)) := by simp [Ieee.key, Ieee.zero, Ieee.sval]
  obtain ⟨x0, hx0, hx1⟩ : ∃ x, Ieee.key dblMax = some x ∧ ¬ x < (((0 : ℚ) : WithTop ℚ) : WithBot (WithTop ℚ)) := by
    rcases e : Ieee.key dblMax with _ | x
    · exact absurd ((Ieee.key_fin _).1 e) (by decide +kernel)
    · refine ⟨x, rfl, fun hlt => ?_⟩
      have : dblMax.ltb .zero = true := (Ieee.ltb_key _ _).2 ⟨x, _, e, hz, hlt⟩
      exact absurd this (by decide +kernel)
  have hf : ∀ r ∈ ranks, ∀ c ∈ (parts r).flatten,
      (do let x ← ((D.local r).comp fun s => (s.rho, s.rhou, s.E)).rd c; some (evolOps ieeeOps x.1 x.2.1 x.2.2)) =
        some (oEvol (D.val r c).cons) := by
    intro r hr' c hc
    have hd : (D.local r).dom c = true := hin r hr' c hc
    have : ((D.local r).comp fun s => (s.rho, s.rhou, s.E)).rd c = some ((D.val r c).rho, (D.val r c).rhou, (D.val r c).E) := by
      unfold View.rd
      exact if_pos hd
    rw [this]
    rfl
  obtain ⟨v, m, h1, h2, h3⟩ := reduce_kmin_key (ieee_orderKey tr) hr (hi := dblMax) hx0 hf
  obtain ⟨y, k1, k2, k3⟩ := h3.num
  refine ⟨m, ?_, ?_, ?_⟩
  · unfold minInternalEnergy
    have : (ranks.mapM fun r => parReduce dblMax kmin (parts r) fun c s => do
        let x ← ((D.local r).comp fun s => (s.rho, s.rhou, s.E)).rd c
        return kmin s (evolOps ieeeOps x.1 x.2.1 x.2.2)) = some v := by
      rw [← h1]
      congr 1
      funext r
      congr 1
      funext c s
      cases ((D.local r).comp fun s => (s.rho, s.rhou, s.E)).rd c <;> rfl
    rw [this]
    exact h2
  · rintro rfl
    cases k1
  · constructor
    · rintro (rfl | h)
      · cases k1
      · obtain ⟨u, v', e1, e2, e3⟩ := (Ieee.ltb_key _ _).1 h
        rw [k1] at e1
        cases e1
        rw [hz] at e2
        cases e2
        rcases h3.mem with e | ⟨⟨r, c⟩, ⟨q1, q2⟩, e⟩
        · rw [e, hx0] at k1
          cases k1
          exact absurd e3 hx1
        · refine ⟨r, q1, c, q2, ?_⟩
          rw [← e]
          exact h
    · rintro ⟨r, q1, c, q2, h⟩
      right
      obtain ⟨u, v', e1, e2, e3⟩ := (Ieee.ltb_key _ _).1 h
      exact (Ieee.ltb_key _ _).2 ⟨y, v', k1, e2, (k3 (r, c) ⟨q1, q2⟩ u e1).trans_lt e3⟩

/-- A negative internal energy is seen, a NaN is not. -/
example : (evolOps ieeeOps (.lit 1) (fun _ : Fin 1 => .lit 2) (.lit 1)).ltb .zero = true ∧
    (evolOps ieeeOps .zero (fun _ : Fin 1 => .zero) .zero).ltb .zero = false ∧
    evolOps ieeeOps .zero (fun _ : Fin 1 => .zero) .zero = .nan := by decide +kernel

/-! ### A run that does not stop -/

/-- A tube of 4 cells with a vacuum in the middle. -/
def vacuumTube (g : Cell) : Fields 1 0 Ieee :=
  if g 0 = 1 ∨ g 0 = 2 then ⟨.zero, fun _ => .zero, .zero, Fin.elim0⟩ else ⟨.lit 1, fun _ => .zero, .lit 1, Fin.elim0⟩

/-- **C90: violated.** The statement that a run which has computed an invalid number ends with an error is false: a periodic tube of
4 cells on two ranks, at rest, density 1 and energy 1 in the outer cells, nothing in the two inner cells; HLL, any limiter, equation
of state and time step policy. The check of the internal energy is passed before each of arbitrarily many iterations; from the first
on, all densities are NaN; from the fourth on every time step is the negative number `-2^-1024`. -/
theorem C90_stops_violated (tr : Trig Ieee) (lim : Limiter) (eos : EoS Ieee) (policy : List Ieee → Ieee) (user : UserBc 1 0 Ieee) :
    letI := ieeeArith tr
    ∃ (M : ℕ → Cell → RankMem 1 0 Ieee) (lf : ℕ → Cell → List Cell) (D : DistView (Fields 1 0 Ieee)),
      (∀ rank c, D.val rank c = vacuumTube (globalOf ![4, 1, 1] ![2, 1, 1] (nghostOf 1 2) rank c)) ∧
      ∀ i, ∃ R hist, kRun ⟨orderedKernels lim .hll eos .cartesian none, .cartesian, negDblMax, policy, user, fun _ _ => .periodic,
          [some 0, some 1]⟩ boxList (borderOf ![2, 1, 1]) (nghostOf 1 2) ![2, 1, 1] (fun _ _ _ _ => some 0) M lf D i = some (R, hist) ∧
        (∀ parts : Cell → List (List Cell), (∀ r, inBox 0 ![2, 1, 1] r → ∀ c ∈ (parts r).flatten, inBox (nghostOf 1 2)
            (fun a => localExt ![4, 1, 1] ![2, 1, 1] (nghostOf 1 2) r a - nghostOf 1 2 a) c) →
          ∃ m, minInternalEnergy ieeeOps dblMax (boxList 0 ![2, 1, 1]) parts
            (fun r => (R.local r).comp fun s => (s.rho, s.rhou, s.E)) = some m ∧ ¬ stopsOn m) ∧
        (1 ≤ i → ∀ rank c, inBox 0 ![2, 1, 1] rank → inBox (nghostOf 1 2)
            (fun a => localExt ![4, 1, 1] ![2, 1, 1] (nghostOf 1 2) rank a - nghostOf 1 2 a) c → (R.val rank c).rho = .nan) ∧
        (4 ≤ i → ∃ hist', hist = .lit (-(1 / 2 ^ 1024)) :: hist') := by
  letI := ieeeArith tr
  set p : KernelParams 1 0 Ieee :=
    ⟨orderedKernels lim .hll eos .cartesian none, .cartesian, negDblMax, policy, user, fun _ _ => .periodic, [some 0, some 1]⟩ with hp
  have hN : ∀ a, 0 < (![4, 1, 1] : Cell) a := by decide
  have hN0 : ∀ a, 0 ≤ (![4, 1, 1] : Cell) a := fun a => (hN a).le
  obtain ⟨M, lf, hdec⟩ := exists_kDecomposition p (nx := ![4, 1, 1]) (dims := ![2, 1, 1]) (ng := 2) hN0 (by decide) (by norm_num) (by
      intro a ha r h0 h1
      rw [localSize_eq (hN0 a) (lt_of_le_of_lt h0 h1)]
      fin_cases a
      · simp [not_lt.2 h0]
      · simp at ha
      · simp at ha) (fun _ i => .lit i)
  set D : DistView (Fields 1 0 Ieee) := ⟨fun r => localExt ![4, 1, 1] ![2, 1, 1] (nghostOf 1 2) r,
    fun r c => vacuumTube (globalOf ![4, 1, 1] ![2, 1, 1] (nghostOf 1 2) r c)⟩ with hDdef
  have hb : ∀ a f, p.bcs a f ≠ .userDefined := fun a f => by simp [hp]
  have hpk : p.k = orderedKernels lim .hll eos .cartesian none := rfl
  have hplo : p.lo ≠ .nan := by
    show negDblMax ≠ .nan
    decide +kernel
  have hbad : ∀ g : Cell, g 0 = 1 ∨ g 0 = 2 →
      ((∃ a, (vacuumTube g).rhou a / (vacuumTube g).rho = .nan) ∨ (oToPrim eos (vacuumTube g).cons).P = .nan) := fun g hg => by
    refine Or.inl ⟨0, ?_⟩
    unfold vacuumTube
    rw [if_pos hg]
    show Ieee.zero.div Ieee.zero = .nan
    decide +kernel
  have hin1 : inBox 0 ![4, 1, 1] (![1, 0, 0] : Cell) := by decide
  have hin2 : inBox 0 ![4, 1, 1] (![2, 0, 0] : Cell) := by decide
  have hext : ∀ r c, inBox (nghostOf 1 2) (fun a => localExt ![4, 1, 1] ![2, 1, 1] (nghostOf 1 2) r a - nghostOf 1 2 a) c →
      inExt (localExt ![4, 1, 1] ![2, 1, 1] (nghostOf 1 2) r) c = true := fun r c hc => inExt_iff.2 fun a => by
    have := hc a
    have : 0 ≤ nghostOf 1 2 a := by unfold nghostOf; split <;> norm_num
    constructor
    · exact le_trans this (hc a).1
    · have h2 := (hc a).2
      dsimp only at h2
      omega
  have hglob : ∀ r c, inBox 0 ![2, 1, 1] r →
      inBox (nghostOf 1 2) (fun a => localExt ![4, 1, 1] ![2, 1, 1] (nghostOf 1 2) r a - nghostOf 1 2 a) c →
      inBox 0 ![4, 1, 1] (globalOf ![4, 1, 1] ![2, 1, 1] (nghostOf 1 2) r c) := fun r c hr hc a => by
    have h1 := localStart_add_size_le (r := r a) (hN0 a) (hdec.pos a) (hr a).2
    have h2 := localStart_nonneg (r := r a) (hN0 a) (hdec.pos a) (hr a).1
    have h3 := hc a
    simp only [globalOf, localExt, Pi.zero_apply] at h3 ⊢
    omega
  refine ⟨M, lf, D, fun _ _ => rfl, fun i => ?_⟩
  obtain ⟨R, hist, e1, e2⟩ := C90_nan_spreads tr (by norm_num) (by norm_num) (p := p) hpk hplo hN0 (by norm_num)
    hb (order := [0, 1]) (by decide) rfl hdec (G := vacuumTube) (D := D) (fun _ _ => rfl) (fun _ _ _ _ => rfl) hin1
    (hbad _ (Or.inl rfl)) i
  obtain ⟨R', hist', e1', e2'⟩ := C90_nan_spreads tr (by norm_num) (by norm_num) (p := p) hpk hplo hN0 (by norm_num)
    hb (order := [0, 1]) (by decide) rfl hdec (G := vacuumTube) (D := D) (fun _ _ => rfl) (fun _ _ _ _ => rfl) hin2
    (hbad _ (Or.inr rfl)) i
  rw [e1] at e1'
  simp only [Option.some.injEq, Prod.mk.injEq] at e1'
  obtain ⟨rfl, rfl⟩ := e1'
  have hnan : 1 ≤ i → ∀ rank c, inBox 0 ![2, 1, 1] rank → inBox (nghostOf 1 2)
      (fun a => localExt ![4, 1, 1] ![2, 1, 1] (nghostOf 1 2) rank a - nghostOf 1 2 a) c → (R.val rank c).rho = .nan := by
    intro hi rank c hr hc
    have hg := hglob rank c hr hc
    have hi' : (1 : ℤ) ≤ i := by exact_mod_cast hi
    have g0 := hg 0
    have g1 := hg 1
    have g2 := hg 2
    simp only [Pi.zero_apply, Matrix.cons_val_zero, Matrix.cons_val_one, Matrix.cons_val] at g0 g1 g2
    set g := globalOf ![4, 1, 1] ![2, 1, 1] (nghostOf 1 2) rank c with hgdef
    by_cases hlow : g 0 ≤ 1
    · refine e2 hi rank c hr (hext rank c hc) hg ⟨fun a ha => ?_, fun h => (by cases h), ?_⟩
      · fin_cases a
        · simp at ha
        · show g 1 = 0; omega
        · show g 2 = 0; omega
      · show |g 0 - 1| + |g 1 - 0| + |g 2 - 0| ≤ (i : ℤ)
        have a0 : |g 0 - 1| ≤ 1 := by rw [abs_le]; omega
        have a1 : |g 1 - 0| = 0 := by rw [abs_eq_zero]; omega
        have a2 : |g 2 - 0| = 0 := by rw [abs_eq_zero]; omega
        omega
    · refine e2' hi rank c hr (hext rank c hc) hg ⟨fun a ha => ?_, fun h => (by cases h), ?_⟩
      · fin_cases a
        · simp at ha
        · show g 1 = 0; omega
        · show g 2 = 0; omega
      · show |g 0 - 2| + |g 1 - 0| + |g 2 - 0| ≤ (i : ℤ)
        have a0 : |g 0 - 2| ≤ 1 := by rw [abs_le]; omega
        have a1 : |g 1 - 0| = 0 := by rw [abs_eq_zero]; omega
        have a2 : |g 2 - 0| = 0 := by rw [abs_eq_zero]; omega
        omega
  have hRext : ∀ r, inBox 0 ![2, 1, 1] r → R.ext r = localExt ![4, 1, 1] ![2, 1, 1] (nghostOf 1 2) r ∧
      (i = 0 → ∀ c, inBox (nghostOf 1 2) (fun a => localExt ![4, 1, 1] ![2, 1, 1] (nghostOf 1 2) r a - nghostOf 1 2 a) c →
        R.val r c = vacuumTube (globalOf ![4, 1, 1] ![2, 1, 1] (nghostOf 1 2) r c)) := by
    intro r hr
    obtain ⟨W, R1, hist1, f1, f2, -⟩ := ieee_run tr (by norm_num) (by norm_num) (p := p) hpk hplo hN0 (by norm_num)
      hb (order := [0, 1]) (by decide) rfl hdec (G := vacuumTube) (D := D) (fun _ _ => rfl) (fun _ _ _ _ => rfl) hin1
      (hbad _ (Or.inl rfl)) i
    rw [e1] at f1
    simp only [Option.some.injEq, Prod.mk.injEq] at f1
    obtain ⟨rfl, rfl⟩ := f1
    refine ⟨f2.ext r hr, ?_⟩
    rintro rfl c hc
    obtain ⟨R2, k1, k2⟩ := distBcs_holds (by norm_num) hN0 hdec.pos (by norm_num) hdec.size p.user hdec.order hb (order := [0, 1]) (by decide)
      vacuumTube D (fun _ _ => rfl) (fun _ _ _ _ => rfl)
    have : R = R2 := by
      unfold kRun at e1
      rw [show p.order = [0, 1].map some from rfl, k1] at e1
      cases e1
      rfl
    rw [this, k2.val r hr c (hext r c hc)]
    have hc' : c + startCell ![4, 1, 1] ![2, 1, 1] r = globalOf ![4, 1, 1] ![2, 1, 1] (nghostOf 1 2) r c + nghostOf 1 2 := by
      funext a
      simp only [Pi.add_apply, globalOf, startCell]
      ring
    rw [hc', bcGlob_inside p.bcs (by norm_num) (by norm_num) (by decide) _ (hglob r c hr hc)]
  refine ⟨R, hist, e1, fun parts hparts => ?_, hnan, fun h4 => ?_⟩
  · obtain ⟨m, q1, -, q3⟩ := C90_energy_check_partial (ranks := boxList 0 ![2, 1, 1]) (by decide) tr (parts := parts) (D := R)
      (fun r hr c hc => by
        have hr' := ((boxList_isSchedule 0 ![2, 1, 1]).2 r).1 hr
        rw [(hRext r hr').1]
        exact hext r c (hparts r hr' c hc))
    refine ⟨m, q1, fun hstop => ?_⟩
    obtain ⟨r, hr, c, hc, hlt⟩ := q3.1 hstop
    have hr' := ((boxList_isSchedule 0 ![2, 1, 1]).2 r).1 hr
    rcases Nat.eq_zero_or_pos i with h0 | h0
    · rw [(hRext r hr').2 h0 c (hparts r hr' c hc)] at hlt
      unfold vacuumTube at hlt
      split at hlt
      · change (evolOps ieeeOps .zero (fun _ : Fin 1 => .zero) .zero).ltb .zero = true at hlt
        exact absurd hlt (by decide +kernel)
      · change (evolOps ieeeOps (.lit 1) (fun _ : Fin 1 => .zero) (.lit 1)).ltb .zero = true at hlt
        exact absurd hlt (by decide +kernel)
    · have := hnan h0 r c hr' (hparts r hr' c hc)
      rw [oEvol_nan (ieee_nanLaws tr) this] at hlt
      exact absurd hlt (by decide)
  · obtain ⟨j, rfl⟩ : ∃ j, i = j + 1 := ⟨i - 1, by omega⟩
    obtain ⟨R1, hist1, f1, -, R2, f2⟩ := C90_nan_everywhere tr (by norm_num) (by norm_num) (p := p) hpk (by decide) rfl hN0
      (by decide) (by norm_num) hb (order := [0, 1]) (by decide) rfl hdec (G := vacuumTube) (D := D) (fun _ _ => rfl) (fun _ _ _ _ => rfl) hin1
      (hbad _ (Or.inl rfl)) j (by omega) (by show (4 : ℤ) + 1 + 1 - 3 ≤ j; omega)
    rw [e1] at f2
    simp only [Option.some.injEq, Prod.mk.injEq] at f2
    exact ⟨hist1, f2.2⟩

end Ieee

end Heracles
