import Verif.Lemmas.CalmFlow
import Verif.Props.Ordered

/-!
# C85: a uniform flow stays uniform bit by bit
-/

namespace Heracles

open Arith

-- the reductions of `kRun` compare with the linear order
attribute [-instance] Arith.toLT

variable {d n : ℕ} {F : Type} [Arith F]

theorem bcPure_const {bcs : Fin d → Fin 2 → BcKind} {ext nghost : Cell} {s : Fields d n F}
    (hb : ∀ a f, bcs a f = .reflexive → -(s.rhou a) = s.rhou a) (id : ℕ) :
    bcPure bcs (fun _ _ => true) ext nghost (fun _ => s) id = fun _ => s := by
  unfold bcPure
  split
  · rename_i h
    dsimp only
    rw [if_pos rfl]
    funext c
    unfold condPure
    split
    · generalize hk : bcs ⟨id / 2, h⟩ (Fin.ofNat 2 (id % 2)) = k
      cases k
      case reflexive =>
        show s.flip _ = s
        unfold Fields.flip
        rw [hb _ _ hk, Function.update_eq_self]
      all_goals rfl
    · rfl
  · rfl

theorem bcGlob_const {bcs : Fin d → Fin 2 → BcKind} {nx nghost : Cell} {s : Fields d n F} {G : Cell → Fields d n F}
    (hG : ∀ C, G (wrap nx (C - nghost)) = s)
    (hb : ∀ a f, bcs a f = .reflexive → -(s.rhou a) = s.rhou a) (order : List ℕ) : bcGlob bcs nx nghost order G = fun _ => s := by
  unfold bcGlob
  have : (fun C => G (wrap nx (C - nghost))) = fun _ => s := funext hG
  rw [this]
  induction order with
  | nil => rfl
  | cons id l ih => rw [List.foldl_cons, bcPure_const hb, ih]

omit [Arith F] in
theorem calm_stencil (hd3 : d ≤ 3) {nx : Cell} {ng : ℤ} (hng : 2 ≤ ng) {g : Cell} (hg : inBox 0 nx g) :
    inExt (globExt nx (nghostOf d ng)) (g + nghostOf d ng) = true ∧
    StencilIn d (globExt nx (nghostOf d ng)) (g + nghostOf d ng) ∧
    ∀ (a : Fin d) (t : ℤ), -1 ≤ t → t ≤ 1 → StencilIn d (globExt nx (nghostOf d ng)) (nb (g + nghostOf d ng) (ax a) t) := by
  have hsmall : ∀ c' : Cell, (∀ b : Fin 3, b.val < d → |c' b - (g + nghostOf d ng) b| ≤ 2) →
      (∀ b : Fin 3, ¬ b.val < d → c' b = (g + nghostOf d ng) b) → inExt (globExt nx (nghostOf d ng)) c' = true := by
    intro c' h1 h2
    refine inExt_iff.2 fun b => ?_
    have hb := hg b
    simp only [Pi.zero_apply] at hb
    by_cases h : b.val < d
    · have := abs_le.1 (h1 b h)
      simp only [globExt, nghostOf, Pi.add_apply, h, if_true] at this ⊢
      omega
    · have := h2 b h
      simp only [globExt, nghostOf, Pi.add_apply, h, if_false] at this ⊢
      omega
  have hnb : ∀ (c' : Cell) (a : Fin d) (t : ℤ) (b : Fin 3), nb c' (ax a) t b = c' b + if b = ax a then t else 0 := by
    intro c' a t b
    unfold nb
    by_cases hba : b = ax a
    · subst hba; simp
    · simp [hba]
  have hax : ∀ (a : Fin d) (b : Fin 3), ¬ b.val < d → b ≠ ax a := by
    intro a b hb h
    apply hb
    have : (ax a).val = a.val := by
      show a.val % 3 = a.val
      exact Nat.mod_eq_of_lt (lt_of_lt_of_le a.isLt hd3)
    rw [h, this]
    exact a.isLt
  refine ⟨hsmall _ (fun b _ => by simp) fun _ _ => rfl, fun a t h1 h2 => hsmall _ (fun b _ => ?_) fun b hb => ?_,
    fun a t h1 h2 a' t' h1' h2' => hsmall _ (fun b _ => ?_) fun b hb => ?_⟩
  · rw [hnb, add_sub_cancel_left, abs_le]
    split <;> constructor <;> omega
  · rw [hnb, if_neg (hax a b hb), add_zero]
  · rw [hnb, hnb, abs_le]
    split <;> split <;> constructor <;> omega
  · rw [hnb, hnb, if_neg (hax a b hb), if_neg (hax a' b hb), add_zero, add_zero]

/-- **C85.** A uniform flow: all cells hold the same density, momentum, energy and scalars, on a Cartesian grid (of any cell sizes)
without gravity and without pressure fix, any limiter, any of the three solvers, any equation of state, boundary conditions
periodic, null gradient or reflexive (the latter across directions without momentum, `-(rhou) = rhou`). The operations are performed
in the order of the code and need only satisfy `ZeroLaws` - `x - x = 0`, `x + 0 = x`, `x * 0 = 0` and the like for finite numbers -
which rounded operations do; nothing is assumed of sums and products of other numbers. The numbers of the flow are finite
(`FiniteGrid`, `FiniteState`, `FiniteStep`). Then a run on any process grid holds, after any number `i` of iterations, in every cell,
ghosts included, bit by bit the same density, momentum and energy as at the beginning, and the scalars follow `x * rho / rho`, clamped
to [0, 1], once per iteration. The full statement is that the scalars stay as well; it fails (`C85_scalar_violated`). -/
theorem C85_uniform_flow_partial [LinearOrder F] {fin : F → Prop} (hz : ZeroLaws F fin) (hd3 : d ≤ 3) {p : KernelParams d n F}
    {lim : Limiter} {sol : Solver} {eos : EoS F} (hk : p.k = orderedKernels lim sol eos .cartesian none) (hgeom : p.geom = .cartesian)
    {nx : Cell} {ng : ℤ} (hN : ∀ a, 0 < nx a) (hng : 2 ≤ ng) (hb : ∀ a f, p.bcs a f ≠ .userDefined) {order : List ℕ}
    (ho : ∀ id ∈ order, id < 2 * d) (hpo : p.order = order.map some) {X : Fin 3 → ℤ → F} {dims : Cell}
    {sched : Cell → Cell → List Cell} {grav : DistView (Fields d n F) → Cell → GravField d F} {M : ℕ → Cell → RankMem d n F}
    {lf : ℕ → Cell → List Cell} (h : KDecomposition p nx ng X (fun _ _ _ => 0) dims sched grav M lf) {s : Fields d n F}
    (hbr : ∀ a f, p.bcs a f = .reflexive → -(s.rhou a) = s.rhou a)
    (hgrid : FiniteGrid fin (globExt nx (nghostOf d ng)) X)
    (hstate : ∀ i, FiniteState fin eos sol (globExt nx (nghostOf d ng)) X (calm^[i] s))
    (hstep : ∀ l, FiniteStep fin (globExt nx (nghostOf d ng)) X (p.policy l) ∧
      FiniteStep fin (globExt nx (nghostOf d ng)) X (p.policy l / lit 2))
    {D : DistView (Fields d n F)} (hext : ∀ rank, inBox 0 dims rank → D.ext rank = localExt nx dims (nghostOf d ng) rank)
    (hint : ∀ rank, inBox 0 dims rank → ∀ c, inBox (nghostOf d ng) (fun a => D.ext rank a - nghostOf d ng a) c → D.val rank c = s)
    (i : ℕ) :
    ∃ R hist, kRun p sched (borderOf dims) (nghostOf d ng) dims grav M lf D i = some (R, hist) ∧
      ∀ rank c, inBox 0 dims rank → inExt (localExt nx dims (nghostOf d ng) rank) c = true →
        R.val rank c = { s with fx := fun j => (fun x => oClamp (x * s.rho / s.rho) 0 (lit 1))^[i] (s.fx j) } := by
  have hN' : ∀ a, 0 ≤ nx a := fun a => (hN a).le
  have hcalm : ∀ i, calm^[i] s = { s with fx := fun j => (fun x => oClamp (x * s.rho / s.rho) 0 (lit 1))^[i] (s.fx j) } := by
    intro i
    induction i with
    | zero => rfl
    | succ i ih =>
      rw [Function.iterate_succ_apply', ih]
      unfold calm carried
      simp only [Function.iterate_succ_apply']
  have key : ∃ R hist, kRun p sched (borderOf dims) (nghostOf d ng) dims grav M lf D i = some (R, hist) ∧
      HoldsAll nx dims (nghostOf d ng) (fun _ => calm^[i] s) R := by
    induction i with
    | zero =>
      obtain ⟨R, e1, e2⟩ := distBcs_holds hd3 hN' h.pos (by omega) h.size p.user h.order hb ho (fun _ => s) D hext hint
      rw [bcGlob_const (fun _ => rfl) hbr] at e2
      refine ⟨R, [], ?_, e2⟩
      unfold kRun; rw [hpo, e1]; rfl
    | succ i ih =>
      obtain ⟨R, hist, e1, e2⟩ := ih
      obtain ⟨m, R1, q1, q2, q3⟩ := kIter_holds hd3 hN' hng hb ho hpo h i e2 hist
      refine ⟨R1, p.k.inv m :: hist, ?_, ?_⟩
      · unfold kRun; rw [e1, Option.bind_eq_bind, Option.bind_some]; exact q2
      · unfold kIterGlob at q3
        rw [bcGlob_const (s := calm (calm^[i] s)) ?_ ?_] at q3
        · rw [Function.iterate_succ_apply']
          exact q3
        · intro C
          have hw : inBox 0 nx (wrap nx (C - nghostOf d ng)) := fun a =>
            ⟨Int.emod_nonneg _ (hN a).ne', Int.emod_lt_of_pos _ (hN a)⟩
          obtain ⟨s1, s2, s3⟩ := calm_stencil hd3 hng hw
          rw [hk, hgeom]
          exact kStepVal_const hz lim hd3 (hstep _).1 (hstep _).2 (hstate i) hgrid s1 s2 s3
        · intro a f hr
          have : (calm (calm^[i] s)).rhou = s.rhou := by rw [hcalm i]; rfl
          rw [this]
          exact hbr a f hr
  obtain ⟨R, hist, e1, e2⟩ := key
  refine ⟨R, hist, e1, fun rank c hr hc => ?_⟩
  rw [e2.val rank hr c hc, hcalm]

/-! ### Double precision -/

theorem dblArith_zeroLaws {rnd : ℚ → ℚ} (hr : Nearest rnd) (tr : Trig FinDbl) :
    @ZeroLaws FinDbl (dblArith rnd hr tr) fun _ => True := by
  have h0 : rnd 0 = 0 := hr.eq_self isDouble_zero
  have h1 : rnd 1 = 1 := hr.eq_self (by exact_mod_cast isDouble_int (m := 1) (by norm_num))
  letI := dblArith rnd hr tr
  exact
  { fin_zero := trivial
    lit_zero := Subtype.ext (show rnd ((0 : ℕ) : ℚ) = 0 by rw [Nat.cast_zero, h0])
    sub_self := fun x _ => Subtype.ext (show rnd (x.1 - x.1) = 0 by rw [sub_self, h0])
    sub_zero := fun x => Subtype.ext (show rnd (x.1 - 0) = x.1 by rw [sub_zero, hr.eq_self x.2])
    add_zero := fun x => Subtype.ext (show rnd (x.1 + 0) = x.1 by rw [add_zero, hr.eq_self x.2])
    zero_add := fun x => Subtype.ext (show rnd (0 + x.1) = x.1 by rw [zero_add, hr.eq_self x.2])
    one_mul := fun x => Subtype.ext (show rnd (rnd ((1 : ℕ) : ℚ) * x.1) = x.1 by rw [Nat.cast_one, h1, one_mul, hr.eq_self x.2])
    mul_zero := fun x _ => Subtype.ext (show rnd (x.1 * 0) = 0 by rw [mul_zero, h0])
    zero_mul := fun x _ => Subtype.ext (show rnd (0 * x.1) = 0 by rw [zero_mul, h0])
    zero_div := fun x _ _ => Subtype.ext (show rnd (0 / x.1) = 0 by rw [zero_div, h0])
    lt_irrefl := lt_irrefl (0 : ℚ) }

theorem dbl_finiteGrid {rnd : ℚ → ℚ} (hr : Nearest rnd) (tr : Trig FinDbl) {E : Cell} {X : Fin 3 → ℤ → FinDbl}
    (hX : ∀ a i, 0 ≤ i → i < E a → X a i < X a (i + 1)) : @FiniteGrid FinDbl (dblArith rnd hr tr) (fun _ => True) E X := by
  letI := dblArith rnd hr tr
  refine ⟨fun _ _ _ _ => trivial, fun _ _ _ _ => trivial, fun a i h0 h1 => ⟨trivial, fun h => ?_⟩⟩
  have e : rnd (rnd (rnd ((X a (i + 1)).1 - (X a i).1) + rnd ((X a (i + 1 + 1)).1 - (X a (i + 1)).1)) / rnd ((2 : ℕ) : ℚ)) = 0 :=
    congrArg Subtype.val h
  have p1 := hr.pos (sub_pos.2 (hX a i h0 (by omega)))
  have p2 := hr.pos (sub_pos.2 (hX a (i + 1) (by omega) h1))
  have p3 := hr.pos (add_pos p1 p2)
  have p4 : 0 < rnd ((2 : ℕ) : ℚ) := hr.pos (by norm_num)
  have p5 := hr.pos (div_pos p3 p4)
  exact p5.ne' e

/-- **C85, double precision.** The same when the numbers are the finite `double`s and every operation rounds its result to nearest,
with any rule for ties, on a grid with increasing nodes. (The type has no infinities and NaN: a division by 0, as for density 0, is a
number here, and the statement says nothing about such a run of the machine. What has to be finite is spelled out in
`C85_uniform_flow_partial`.) -/
theorem C85_uniform_flow_double_partial {rnd : ℚ → ℚ} (hr : Nearest rnd) (tr : Trig FinDbl) (hd3 : d ≤ 3) {p : KernelParams d n FinDbl}
    {lim : Limiter} {sol : Solver} {eos : EoS FinDbl} (hk : p.k = @orderedKernels d n FinDbl (dblArith rnd hr tr) lim sol eos .cartesian none)
    (hgeom : p.geom = .cartesian)
    {nx : Cell} {ng : ℤ} (hN : ∀ a, 0 < nx a) (hng : 2 ≤ ng) (hb : ∀ a f, p.bcs a f ≠ .userDefined) {order : List ℕ}
    (ho : ∀ id ∈ order, id < 2 * d) (hpo : p.order = order.map some) {X : Fin 3 → ℤ → FinDbl}
    (hX : ∀ a i, 0 ≤ i → i < globExt nx (nghostOf d ng) a → X a i < X a (i + 1)) {dims : Cell}
    {sched : Cell → Cell → List Cell} {grav : DistView (Fields d n FinDbl) → Cell → GravField d FinDbl}
    {M : ℕ → Cell → RankMem d n FinDbl} {lf : ℕ → Cell → List Cell} :
    letI := dblArith rnd hr tr
    KDecomposition p nx ng X (fun _ _ _ => 0) dims sched grav M lf → ∀ {s : Fields d n FinDbl},
    (∀ a f, p.bcs a f = .reflexive → (s.rhou a).1 = 0) →
    ∀ {D : DistView (Fields d n FinDbl)}, (∀ rank, inBox 0 dims rank → D.ext rank = localExt nx dims (nghostOf d ng) rank) →
    (∀ rank, inBox 0 dims rank → ∀ c, inBox (nghostOf d ng) (fun a => D.ext rank a - nghostOf d ng a) c → D.val rank c = s) →
    ∀ i, ∃ R hist, kRun p sched (borderOf dims) (nghostOf d ng) dims grav M lf D i = some (R, hist) ∧
      ∀ rank c, inBox 0 dims rank → inExt (localExt nx dims (nghostOf d ng) rank) c = true →
        R.val rank c = { s with fx := fun j => (fun x => oClamp (x * s.rho / s.rho) 0 (lit 1))^[i] (s.fx j) } := by
  letI := dblArith rnd hr tr
  intro h s hbr D hext hint i
  have tf : ∀ {a : Fin d} {f : Flux d FinDbl} {fx : Fin n → FinDbl},
      FiniteFlux (fun _ => True) (globExt nx (nghostOf d ng)) X a f fx :=
    ⟨fun _ _ => trivial, fun _ _ _ => trivial, fun _ _ => trivial, fun _ _ _ => trivial⟩
  refine C85_uniform_flow_partial (dblArith_zeroLaws hr tr) hd3 hk hgeom hN hng hb ho hpo h (fun a f e => Subtype.ext ?_)
    (dbl_finiteGrid hr tr hX)
    (fun i => ⟨trivial, fun _ => trivial, fun _ => trivial, trivial, fun _ => trivial, fun _ => trivial, fun _ => tf, fun _ => tf⟩)
    (fun l => ⟨⟨trivial, fun _ _ => trivial⟩, trivial, fun _ _ => trivial⟩) hext hint i
  show -(s.rhou a).1 = (s.rhou a).1
  rw [hbr a f e, neg_zero]

/-- **C85, pure fluids.** In double precision the scalars 0 and 1 stay as they are: with them the whole uniform state is kept bit by
bit. -/
theorem C85_pure_scalars {rnd : ℚ → ℚ} (hr : Nearest rnd) (tr : Trig FinDbl) {rho x : FinDbl} (hrho : rho.1 ≠ 0)
    (hx : x.1 = 0 ∨ x.1 = 1) (i : ℕ) :
    letI := dblArith rnd hr tr
    (fun x : FinDbl => oClamp (x * rho / rho) 0 (lit 1))^[i] x = x := by
  letI := dblArith rnd hr tr
  have h0 : rnd 0 = 0 := hr.eq_self isDouble_zero
  have h1 : rnd 1 = 1 := hr.eq_self (by exact_mod_cast isDouble_int (m := 1) (by norm_num))
  have hl : ((lit 1 : FinDbl)).1 = 1 := by
    show rnd ((1 : ℕ) : ℚ) = 1
    rw [Nat.cast_one, h1]
  have hm : (x * rho / rho : FinDbl).1 = x.1 := by
    show rnd (rnd (x.1 * rho.1) / rho.1) = x.1
    rcases hx with e | e
    · rw [e, zero_mul, h0, zero_div, h0]
    · rw [e, one_mul, hr.eq_self rho.2, div_self hrho, h1]
  apply Function.iterate_fixed
  apply Subtype.ext
  show (oClamp (x * rho / rho : FinDbl) 0 (lit 1)).1 = x.1
  unfold oClamp
  rw [if_neg, if_neg]
  · exact hm
  · show ¬ (lit 1 : FinDbl).1 < (x * rho / rho : FinDbl).1
    rw [hm, hl]
    rcases hx with e | e <;> rw [e] <;> norm_num
  · show ¬ (x * rho / rho : FinDbl).1 < 0
    rw [hm]
    rcases hx with e | e <;> rw [e] <;> norm_num

/-! ### The scalars change -/

/-- The `double` closest to 0.11. -/
def dbl011 : FinDbl := ⟨(7926335344172073 : ℤ) * 2 ^ (-56 : ℤ), 7926335344172073, -56, by norm_num, rfl⟩

/-- A small integer as a `double`. -/
def dblNat (m : ℕ) (h : (m : ℤ) ≤ 2 ^ 53) : FinDbl := ⟨m, m, 0, by simpa using h, by simp⟩

/-- Multiplied by 5, divided by 5 and clamped, the `double` 0.11 becomes the next one. -/
theorem calm_011 {rnd : ℚ → ℚ} (hr : Nearest rnd) (tr : Trig FinDbl) :
    letI := dblArith rnd hr tr
    (oClamp (dbl011 * dblNat 5 (by norm_num) / dblNat 5 (by norm_num)) 0 (lit 1) : FinDbl).1 = (7926335344172074 : ℤ) * 2 ^ (-56 : ℤ) := by
  letI := dblArith rnd hr tr
  have h1 : rnd (((7926335344172073 : ℤ) : ℚ) * 2 ^ (-56 : ℤ) * (5 : ℕ)) = ((4953959590107546 : ℤ) : ℚ) * 2 ^ (-53 : ℤ) :=
    hr.eq_of_close (by norm_num) (by norm_num) (by rw [abs_lt]; constructor <;> norm_num)
  have h2 : rnd (((4953959590107546 : ℤ) : ℚ) * 2 ^ (-53 : ℤ) / (5 : ℕ)) = ((7926335344172074 : ℤ) : ℚ) * 2 ^ (-56 : ℤ) :=
    hr.eq_of_close (by norm_num) (by norm_num) (by rw [abs_lt]; constructor <;> norm_num)
  have h3 : rnd ((1 : ℕ) : ℚ) = 1 := by
    rw [Nat.cast_one]
    exact hr.eq_self (by exact_mod_cast isDouble_int (m := 1) (by norm_num))
  have e : (dbl011 * dblNat 5 (by norm_num) / dblNat 5 (by norm_num) : FinDbl).1 = (7926335344172074 : ℤ) * 2 ^ (-56 : ℤ) := by
    show rnd (rnd (((7926335344172073 : ℤ) : ℚ) * 2 ^ (-56 : ℤ) * (5 : ℕ)) / (5 : ℕ)) = _
    rw [h1, h2]
  unfold oClamp
  rw [if_neg, if_neg]
  · exact e
  · show ¬ rnd ((1 : ℕ) : ℚ) < _
    rw [e, h3]
    norm_num
  · show ¬ (_ : ℚ) < 0
    rw [e]
    norm_num

/-- Nodes 0, 1, 2, ... -/
def dblNodes (i : ℤ) : FinDbl := ⟨(max 0 (min i 1000) : ℤ), isDouble_int (by
  rw [abs_of_nonneg (le_max_left _ _)]
  exact max_le (by norm_num) ((min_le_right _ _).trans (by norm_num)))⟩

/-- **C85, scalars: violated.** The statement that a uniform flow stays as it is bit by bit fails for the scalars, whichever way the
machine breaks ties of its rounding to nearest: a periodic tube of 8 cells on two ranks, density 5, a mass fraction 0.11, any
velocity, pressure, solver, limiter and equation of state. The density, momentum and energy stay, and the mass fraction is another
`double` in every cell after the first iteration, although nothing moves relative to anything. -/
theorem C85_scalar_violated {rnd : ℚ → ℚ} (hr : Nearest rnd) (tr : Trig FinDbl) (lim : Limiter) (sol : Solver) (eos : EoS FinDbl)
    (mom energy : FinDbl) (policy : List FinDbl → FinDbl) (lo : FinDbl) (user : UserBc 1 1 FinDbl) :
    letI := dblArith rnd hr tr
    ∃ (M : ℕ → Cell → RankMem 1 1 FinDbl) (lf : ℕ → Cell → List Cell) (D : DistView (Fields 1 1 FinDbl)),
      (∀ rank c, D.val rank c = ⟨dblNat 5 (by norm_num), fun _ => mom, energy, fun _ => dbl011⟩) ∧
      ∃ R hist, kRun ⟨orderedKernels lim sol eos .cartesian none, .cartesian, lo, policy, user, fun _ _ => .periodic, [some 0, some 1]⟩
          boxList (borderOf ![2, 1, 1]) (nghostOf 1 2) ![2, 1, 1] (fun _ _ _ _ => some 0) M lf D 1 = some (R, hist) ∧
        ∀ rank c, inBox 0 ![2, 1, 1] rank → inExt (localExt ![8, 1, 1] ![2, 1, 1] (nghostOf 1 2) rank) c = true →
          (R.val rank c).rho = dblNat 5 (by norm_num) ∧ (R.val rank c).rhou 0 = mom ∧ (R.val rank c).E = energy ∧
          (R.val rank c).fx 0 ≠ dbl011 := by
  letI := dblArith rnd hr tr
  set p : KernelParams 1 1 FinDbl :=
    ⟨orderedKernels lim sol eos .cartesian none, .cartesian, lo, policy, user, fun _ _ => .periodic, [some 0, some 1]⟩ with hp
  have hN : ∀ a, 0 < (![8, 1, 1] : Cell) a := by decide
  have hex : ∀ r, ∃ (m : RankMem 1 1 FinDbl) (lf : List Cell),
      inBox 0 ![2, 1, 1] r → KRankOk p.k p.geom ![8, 1, 1] ![2, 1, 1] 2 (fun _ => dblNodes) r m lf := fun r => by
    by_cases hr' : inBox 0 ![2, 1, 1] r
    · obtain ⟨m, lf, hm⟩ := exists_kRankOk p.k p.geom (fun a => (hN a).le) (by decide) (by norm_num : (0 : ℤ) ≤ 2) hr' (fun _ => dblNodes)
      exact ⟨m, lf, fun _ => hm⟩
    · obtain ⟨m, lf, hm⟩ := exists_kRankOk p.k p.geom (dims := ![2, 1, 1]) (fun a => (hN a).le) (by decide) (by norm_num : (0 : ℤ) ≤ 2)
        (rank := 0) (by decide) (fun _ => dblNodes)
      exact ⟨m, lf, fun h => absurd h hr'⟩
  choose m lf hm using hex
  have hdec : KDecomposition p ![8, 1, 1] 2 (fun _ => dblNodes) (fun _ _ _ => 0) ![2, 1, 1] boxList (fun _ _ _ _ => some 0)
      (fun _ => m) (fun _ => lf) :=
    ⟨by decide, by
      intro a ha r h0 h1
      rw [localSize_eq (hN a).le (lt_of_le_of_lt h0 h1)]
      fin_cases a
      · simp [not_lt.2 h0]
      · simp at ha
      · simp at ha, fun b e => boxList_isSchedule b e, fun _ _ _ _ _ _ _ _ => rfl, fun _ r hr => hm r hr⟩
  refine ⟨fun _ => m, fun _ => lf, ⟨fun r => localExt ![8, 1, 1] ![2, 1, 1] (nghostOf 1 2) r,
    fun _ _ => ⟨dblNat 5 (by norm_num), fun _ => mom, energy, fun _ => dbl011⟩⟩, fun _ _ => rfl, ?_⟩
  obtain ⟨R, hist, e1, e2⟩ := C85_uniform_flow_double_partial hr tr (by norm_num) (p := p) rfl rfl hN (by norm_num) (fun a f => by simp [hp])
    (order := [0, 1]) (by decide) rfl (by
      intro a i h0 h1
      have hi : i < 1000 := lt_of_lt_of_le h1 (by fin_cases a <;> decide)
      show ((max 0 (min i 1000) : ℤ) : ℚ) < ((max 0 (min (i + 1) 1000) : ℤ) : ℚ)
      have : max 0 (min i 1000) < max 0 (min (i + 1) 1000) := by omega
      exact_mod_cast this) hdec
    (s := ⟨dblNat 5 (by norm_num), fun _ => mom, energy, fun _ => dbl011⟩)
    (fun a f h => by simp [hp] at h)
    (D := ⟨fun r => localExt ![8, 1, 1] ![2, 1, 1] (nghostOf 1 2) r,
      fun _ _ => ⟨dblNat 5 (by norm_num), fun _ => mom, energy, fun _ => dbl011⟩⟩) (fun _ _ => rfl) (fun _ _ _ _ => rfl) 1
  refine ⟨R, hist, e1, fun rank c hr' hc => ?_⟩
  have h := e2 rank c hr' hc
  rw [h]
  refine ⟨rfl, rfl, rfl, fun e => ?_⟩
  have e' := congrArg Subtype.val e
  simp only [Function.iterate_one] at e'
  rw [calm_011 hr tr] at e'
  revert e'
  show ¬ ((7926335344172074 : ℤ) : ℚ) * 2 ^ (-56 : ℤ) = ((7926335344172073 : ℤ) : ℚ) * 2 ^ (-56 : ℤ)
  norm_num

end Heracles
