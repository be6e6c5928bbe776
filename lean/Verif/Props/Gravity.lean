import Verif.Model.Gravity
import Verif.Props.Reduce
import Verif.Lemmas.Geometry
import Mathlib.Algebra.BigOperators.Intervals
import Mathlib.Algebra.BigOperators.Field
import Mathlib.Tactic.FieldSimp

/-!
# C49 Gravity fields
-/

namespace Heracles

variable {K : Type} {d : ℕ}

section Field
variable [Field K]

/-! ## Specification -/

/-- Sum over the cells of the global grid with first index `i`. -/
noncomputable def shellTotal (nx : Cell) (f : Cell → K) (i : ℤ) : K := ∑ c ∈ cells 0 ![1, nx 1, nx 2], f ![i, c 1, c 2]

/-- Mean density of the shell `i` for the density `R` and cell volumes `V`. -/
noncomputable def shellMean (nx : Cell) (R V : Cell → K) (i : ℤ) : K := shellTotal nx (fun c => R c * V c) i / shellTotal nx V i

/-- Mass inside radius `c i`, between the nodes `x i` and `x (i+1)`: the central mass, the whole shells before `i` and the part of
shell `i` below the radius, each shell having uniform density `m`. Node `x 0` is the inner radius of the grid. -/
noncomputable def enclosedMass (pi Mc : K) (x c m : ℤ → K) (i : ℤ) : K :=
  Mc + ∑ k ∈ Finset.Ico 0 i, 4 * pi / 3 * (x (k + 1) ^ 3 - x k ^ 3) * m k + 4 * pi / 3 * (c i ^ 3 - x i ^ 3) * m i

/-! ## Lemmas -/

theorem intRange_snoc (b : ℤ) (k : ℕ) : intRange b (b + (k + 1 : ℕ)) = intRange b (b + k) ++ [b + k] := by
  unfold intRange
  rw [show (b + ((k + 1 : ℕ) : ℤ) - b).toNat = k + 1 by omega, show (b + (k : ℤ) - b).toNat = k by omega, List.range_succ, List.map_append]
  rfl

theorem parFor_append {ι S : Type} (l l' : List ι) (body : ι → S → Option S) (s : S) :
    parFor (l ++ l') body s = (parFor l body s).bind (parFor l' body) := by
  induction l generalizing s with
  | nil => rfl
  | cons a l ih =>
    rw [List.cons_append, parFor_cons, parFor_cons, Option.bind_assoc]
    exact congrArg _ (funext fun t => ih t)

theorem line_ext {n : ℤ} {f g : ℤ → K} (h : f = g) : View.line n f = View.line n g := by rw [h]

theorem line_dom {V : Type} {n : ℤ} {f : ℤ → V} {i : ℤ} (h0 : 0 ≤ i) (h1 : i < n) : (View.line n f).dom i = true := by
  simp [View.line, h0, h1]

theorem wr_mk {V : Type} {dom : ℤ → Bool} {val : ℤ → V} {i : ℤ} {y : V} (h : dom i = true) :
    View.wr ⟨dom, val⟩ i y = some ⟨dom, Function.update val i y⟩ := View.wr_of_dom (v := ⟨dom, val⟩) h

/-- The scan: iteration `i` stores the sum of the increments up to `i`. -/
theorem scan_eq (b n : ℤ) (f : ℤ → Option K) (T : ℤ → K) (M : View ℤ K) (k : ℕ) (hk : b + k ≤ n)
    (hf : ∀ i, b ≤ i → i < n → f i = some (T i)) (hM : ∀ i, b ≤ i → i < n → M.dom i = true) :
    parFor (intRange b (b + k)) (fun i s => do
      let t ← f i
      let M ← s.2.wr i (s.1 + t)
      return (s.1 + t, M)) ((0 : K), M) =
    some (∑ j ∈ Finset.Ico b (b + k), T j,
      { M with val := fun i => if b ≤ i ∧ i < b + k then ∑ j ∈ Finset.Ico b (i + 1), T j else M.val i }) := by
  induction k with
  | zero =>
    have : intRange b (b + (0 : ℕ)) = [] := by simp [intRange]
    rw [this, parFor_nil]
    simp only [Nat.cast_zero, add_zero, Finset.Ico_self, Finset.sum_empty]
    congr 2
    refine View.ext' rfl (funext fun i => (if_neg ?_).symm)
    omega
  | succ k ih =>
    have hk' : b + (k : ℤ) < n := by push_cast at hk; omega
    rw [intRange_snoc, parFor_append, ih (by omega), Option.bind_some, parFor_cons, hf _ (by omega) hk']
    have hsum : ∑ j ∈ Finset.Ico b (b + ((k + 1 : ℕ) : ℤ)), T j = ∑ j ∈ Finset.Ico b (b + (k : ℤ)), T j + T (b + k) := by
      have : Finset.Ico b (b + ((k + 1 : ℕ) : ℤ)) = insert (b + (k : ℤ)) (Finset.Ico b (b + (k : ℤ))) := by
        ext i
        simp only [Finset.mem_Ico, Finset.mem_insert]
        push_cast
        omega
      rw [this, Finset.sum_insert (by simp), add_comm]
    simp only [Option.bind_eq_bind, Option.bind_some]
    rw [wr_mk (hM _ (by omega) hk')]
    simp only [Option.bind_some, Option.pure_def, parFor_nil, ← hsum]
    congr 2
    refine View.ext' rfl (funext fun i => ?_)
    by_cases hi : i = b + k
    · subst hi
      simp only [Function.update_self]
      rw [if_pos (by push_cast; omega), show b + (k : ℤ) + 1 = b + ((k + 1 : ℕ) : ℤ) by push_cast; ring]
    · show Function.update (fun i => if b ≤ i ∧ i < b + (k : ℤ) then ∑ j ∈ Finset.Ico b (i + 1), T j else M.val i) (b + (k : ℤ)) _ i = _
      rw [Function.update_of_ne hi]
      refine if_congr (P := b ≤ i ∧ i < b + (k : ℤ)) ?_ rfl rfl
      push_cast
      omega

theorem Ico_succ_sum (f : ℤ → K) {b i : ℤ} (h : b ≤ i) : ∑ j ∈ Finset.Ico b (i + 1), f j = ∑ j ∈ Finset.Ico b i, f j + f i := by
  have : Finset.Ico b (i + 1) = insert i (Finset.Ico b i) := by
    ext j
    simp only [Finset.mem_Ico, Finset.mem_insert]
    omega
  rw [this, Finset.sum_insert (by simp), add_comm]

/-- The increments of the code add up to the enclosed mass. -/
theorem increments_sum (pi Mc : K) (ng : ℤ) (x c m : ℤ → K) (i : ℤ) (hi : ng ≤ i) :
    ∑ j ∈ Finset.Ico ng (i + 1), (if j = ng then Mc + 4 * pi / 3 * (c j * c j * c j - x j * x j * x j) * m (j - ng)
      else 4 * pi / 3 * (x j * x j * x j - c (j - 1) * c (j - 1) * c (j - 1)) * m (j - ng - 1) +
        4 * pi / 3 * (c j * c j * c j - x j * x j * x j) * m (j - ng)) =
    enclosedMass pi Mc (fun k => x (k + ng)) (fun k => c (k + ng)) m (i - ng) := by
  induction i, hi using Int.le_induction with
  | base =>
    rw [Ico_succ_sum _ le_rfl]
    simp only [Finset.Ico_self, Finset.sum_empty, if_true, zero_add, sub_self, enclosedMass, add_zero]
    ring
  | succ i hi ih =>
    rw [Ico_succ_sum _ (by omega), ih]
    simp only [show ¬ (i + 1 = ng) by omega, if_false]
    unfold enclosedMass
    rw [show i + 1 - ng = (i - ng) + 1 by ring, Ico_succ_sum _ (by omega : (0 : ℤ) ≤ i - ng)]
    simp only [sub_add_cancel, show i - ng + 1 + ng = i + 1 by ring, add_sub_cancel_right]
    ring

theorem shellSum_eq (nghost : Cell) (r : ShellRank K) (i : ℤ) (f w : Cell → K)
    (hp : IsPartition (r.parts i) 0 ![1, r.nxLocal 1, r.nxLocal 2])
    (hr : ∀ c, inBox 0 ![1, r.nxLocal 1, r.nxLocal 2] c →
      r.rho.rd ![i + nghost 0, c 1 + nghost 1, c 2 + nghost 2] = some (f c) ∧
      r.dv.rd ![i + nghost 0, c 1 + nghost 1, c 2 + nghost 2] = some (w c)) :
    shellSum nghost r i = some (∑ c ∈ cells 0 ![1, r.nxLocal 1, r.nxLocal 2], f c * w c, ∑ c ∈ cells 0 ![1, r.nxLocal 1, r.nxLocal 2], w c) := by
  have := parReduce_eq (e := (0 : K × K)) (join := (· + ·)) (op := (· + ·)) (parts := r.parts i)
    (f := fun c => do
      let x ← r.rho.rd ![i + nghost 0, c 1 + nghost 1, c 2 + nghost 2]
      let y ← r.dv.rd ![i + nghost 0, c 1 + nghost 1, c 2 + nghost 2]
      return (x * y, y))
    (g := fun c => (f c * w c, w c))
    (fun c hc => by
      obtain ⟨a, b⟩ := hr c ((hp.2 c).1 hc)
      simp only [a, b]
      rfl)
  unfold shellSum
  simp only [Option.bind_eq_bind, Option.bind_assoc, Option.pure_def, Option.bind_some] at this ⊢
  rw [this, parReduce_sum, schedule_sum hp]
  congr 1
  refine Prod.ext ?_ ?_
  · rw [Prod.fst_sum]; rfl
  · rw [Prod.snd_sum]; rfl

theorem shellSums_eq (nghost : Cell) (n : ℤ) (r : ShellRank K) (S : ℤ → K × K) (h : ∀ i, 0 ≤ i → i < n → shellSum nghost r i = some (S i)) :
    shellSums nghost n r = some (View.line n fun i => if 0 ≤ i ∧ i < n then S i else 0) := by
  unfold shellSums
  rw [parFor_update (intRange 0 n) (intRange_nodup 0 n) _ _ S fun i hi w hw _ => ?_]
  · congr 1
    refine View.ext' rfl (funext fun i => ?_)
    simp only [mem_intRange, View.line]
  · rw [mem_intRange] at hi
    rw [h i hi.1 hi.2]
    exact View.wr_of_dom (by rw [hw]; exact line_dom hi.1 hi.2)

theorem allReduce_lines (n : ℤ) {ι : Type} (l : List ι) (hne : l ≠ []) (f : ι → ℤ → K × K) :
    allReduce (fun v w : View ℤ (K × K) => View.line n fun i => v.val i + w.val i) (l.map fun r => View.line n (f r)) =
      some (View.line n fun i => (l.map fun r => f r i).sum) := by
  cases l with
  | nil => exact absurd rfl hne
  | cons a l =>
    show some _ = some _
    congr 1
    have key : ∀ (q : List ι) (g : ℤ → K × K), (q.map fun r => View.line n (f r)).foldl
        (fun v w : View ℤ (K × K) => View.line n fun i => v.val i + w.val i) (View.line n g) = View.line n fun i => g i + (q.map fun r => f r i).sum := by
      intro q
      induction q with
      | nil => intro g; simp
      | cons b q ih =>
        intro g
        rw [List.map_cons, List.foldl_cons]
        refine (ih (fun i => g i + f b i)).trans ?_
        simp only [List.map_cons, List.sum_cons, add_assoc]
    rw [key]
    simp only [List.map_cons, List.sum_cons]

/-- Summing over the shells of all ranks is summing over the shell of the global grid. -/
theorem shell_ranks {nx dims : Cell} (hN : ∀ a, 0 ≤ nx a) (hd : ∀ a, 0 < dims a) (hd0 : dims 0 = 1) (f : Cell → K) (i : ℤ)
    {ranks : List Cell} (hranks : IsSchedule ranks 0 dims) :
    (ranks.map fun r => ∑ c ∈ cells 0 ![1, localSize (nx 1) (dims 1) (r 1), localSize (nx 2) (dims 2) (r 2)],
      f ![i, localStart (nx 1) (dims 1) (r 1) + c 1, localStart (nx 2) (dims 2) (r 2) + c 2]).sum = shellTotal nx f i := by
  have h := sum_ranks (A := K) 0 (nx := ![1, nx 1, nx 2]) (dims := dims) 0 (by
    intro a
    fin_cases a
    · exact zero_le_one
    · exact hN 1
    · exact hN 2) hd (fun c => f ![i, c 1, c 2])
  rw [schedule_sum hranks]
  unfold shellTotal
  rw [← h]
  refine Finset.sum_congr rfl fun r hr => ?_
  have hr' := mem_cells.1 hr
  have hr0 : r 0 = 0 := by
    have := hr' 0
    simp only [Pi.zero_apply, hd0] at this
    omega
  have e1 : interiorEnd 0 ![1, nx 1, nx 2] dims r 0 = ![1, localSize (nx 1) (dims 1) (r 1), localSize (nx 2) (dims 2) (r 2)] := by
    funext a
    fin_cases a
    · show nghostOf 0 0 0 + localSize 1 (dims 0) (r 0) = 1
      rw [hd0, hr0]
      rfl
    · show nghostOf 0 0 1 + localSize (nx 1) (dims 1) (r 1) = _
      simp [nghostOf]
    · show nghostOf 0 0 2 + localSize (nx 2) (dims 2) (r 2) = _
      simp [nghostOf]
  have e2 : interiorBegin 0 0 = 0 := by
    funext a
    simp [interiorBegin, nghostOf]
  rw [e1, e2]
  refine Finset.sum_congr rfl fun c _ => ?_
  congr 1
  funext a
  fin_cases a
  · rfl
  · simp [globalOf, nghostOf]
  · simp [globalOf, nghostOf]

theorem shellTotals_eq {nx dims nghost : Cell} (hN : ∀ a, 0 ≤ nx a) (hd : ∀ a, 0 < dims a) (hd0 : dims 0 = 1) (n : ℤ)
    {ranks : List Cell} (hranks : IsSchedule ranks 0 dims) (sr : Cell → ShellRank K) (R V : Cell → K)
    (hsr : ∀ r ∈ ranks, (sr r).nxLocal 1 = localSize (nx 1) (dims 1) (r 1) ∧ (sr r).nxLocal 2 = localSize (nx 2) (dims 2) (r 2) ∧
      ∀ i, 0 ≤ i → i < n → IsPartition ((sr r).parts i) 0 ![1, (sr r).nxLocal 1, (sr r).nxLocal 2] ∧
        ∀ j k, 0 ≤ j → j < (sr r).nxLocal 1 → 0 ≤ k → k < (sr r).nxLocal 2 →
          (sr r).rho.rd ![i + nghost 0, j + nghost 1, k + nghost 2] =
            some (R ![i, localStart (nx 1) (dims 1) (r 1) + j, localStart (nx 2) (dims 2) (r 2) + k]) ∧
          (sr r).dv.rd ![i + nghost 0, j + nghost 1, k + nghost 2] =
            some (V ![i, localStart (nx 1) (dims 1) (r 1) + j, localStart (nx 2) (dims 2) (r 2) + k])) :
    shellTotals nghost n (ranks.map sr) =
      some (View.line n fun i => if 0 ≤ i ∧ i < n then (shellTotal nx (fun c => R c * V c) i, shellTotal nx V i) else 0) := by
  have hne : ranks ≠ [] := by
    intro h
    have : (0 : Cell) ∈ ranks := (hranks.2 0).2 fun a => ⟨le_rfl, hd a⟩
    rw [h] at this
    cases this
  let S : Cell → ℤ → K × K := fun r i =>
    (∑ c ∈ cells 0 ![1, localSize (nx 1) (dims 1) (r 1), localSize (nx 2) (dims 2) (r 2)],
      R ![i, localStart (nx 1) (dims 1) (r 1) + c 1, localStart (nx 2) (dims 2) (r 2) + c 2] *
      V ![i, localStart (nx 1) (dims 1) (r 1) + c 1, localStart (nx 2) (dims 2) (r 2) + c 2],
     ∑ c ∈ cells 0 ![1, localSize (nx 1) (dims 1) (r 1), localSize (nx 2) (dims 2) (r 2)],
      V ![i, localStart (nx 1) (dims 1) (r 1) + c 1, localStart (nx 2) (dims 2) (r 2) + c 2])
  have h1 : ∀ r ∈ ranks, shellSums nghost n (sr r) = some (View.line n fun i => if 0 ≤ i ∧ i < n then S r i else 0) := by
    intro r hr
    obtain ⟨e1, e2, h⟩ := hsr r hr
    refine shellSums_eq nghost n (sr r) (S r) fun i h0 h1 => ?_
    obtain ⟨hp, hv⟩ := h i h0 h1
    rw [shellSum_eq nghost (sr r) i (fun c => R ![i, localStart (nx 1) (dims 1) (r 1) + c 1, localStart (nx 2) (dims 2) (r 2) + c 2])
      (fun c => V ![i, localStart (nx 1) (dims 1) (r 1) + c 1, localStart (nx 2) (dims 2) (r 2) + c 2]) hp]
    · rw [e1, e2]
    · intro c hc
      exact hv (c 1) (c 2) (hc 1).1 (hc 1).2 (hc 2).1 (hc 2).2
  unfold shellTotals
  rw [List.mapM_map, mapM_some (f := shellSums nghost n ∘ sr) ranks h1, Option.bind_eq_bind, Option.bind_some, allReduce_lines n ranks hne]
  show some _ = some _
  congr 1
  refine View.ext' rfl (funext fun i => ?_)
  show (ranks.map fun r => if 0 ≤ i ∧ i < n then S r i else 0).sum =
    if 0 ≤ i ∧ i < n then (shellTotal nx (fun c => R c * V c) i, shellTotal nx V i) else 0
  by_cases hi : 0 ≤ i ∧ i < n
  · simp only [hi, and_self, if_true]
    refine Prod.ext ?_ ?_
    · rw [← shell_ranks hN hd hd0 (fun c => R c * V c) i hranks]
      exact (map_list_sum (AddMonoidHom.fst K K) _).trans (by rw [List.map_map]; rfl)
    · rw [← shell_ranks hN hd hd0 V i hranks]
      exact (map_list_sum (AddMonoidHom.snd K K) _).trans (by rw [List.map_map]; rfl)
  · simp [hi]

theorem shellMeans_eq {n : ℤ} {l : List ℤ} (hl : IsLineSchedule l n) (tot : ℤ → K × K) :
    ∃ m, shellMeans n l (View.line n tot) = some (View.line n m) ∧ ∀ i, 0 ≤ i → i < n → m i = (tot i).1 / (tot i).2 := by
  refine ⟨fun i => if i ∈ l then (tot i).1 / (tot i).2 else (tot i).1, ?_, fun i h0 h1 => if_pos ((hl.2 i).2 ⟨h0, h1⟩)⟩
  unfold shellMeans
  refine (parFor_update l hl.1 _ _ (fun i => (tot i).1 / (tot i).2) fun i hi w hw hwv => ?_).trans rfl
  have h := (hl.2 i).1 hi
  have hdm : w.dom i = true := by rw [hw]; exact line_dom h.1 h.2
  rw [View.rd_of_dom hdm, View.rd_of_dom (line_dom h.1 h.2), hwv i (Or.inr rfl)]
  exact View.wr_of_dom hdm

theorem massProfile_eq (pi Mc : K) {ng n : ℤ} (hng : 0 ≤ ng) (hn : ng ≤ n) {l : List ℤ} (hl : IsLineSchedule l ng) (x xc m : ℤ → K) :
    ∃ M, massProfile pi Mc ng n l (View.line (n + 1) x) (View.line n xc) (View.line (n - ng) m) = some (View.line n M) ∧
      (∀ i, 0 ≤ i → i < ng → M i = Mc) ∧
      ∀ i, ng ≤ i → i < n → M i = enclosedMass pi Mc (fun k => x (k + ng)) (fun k => xc (k + ng)) m (i - ng) := by
  have h1 : parFor l (fun i M => M.wr i Mc) (View.line n fun _ => (0 : K)) = some (View.line n fun i => if i ∈ l then Mc else 0) := by
    refine (parFor_update l hl.1 _ _ (fun _ => Mc) fun i hi w hw _ => ?_).trans rfl
    have h := (hl.2 i).1 hi
    exact View.wr_of_dom (by rw [hw]; exact line_dom h.1 (by omega))
  obtain ⟨k, hk⟩ : ∃ k : ℕ, n = ng + k := ⟨(n - ng).toNat, by omega⟩
  let T : ℤ → K := fun j => if j = ng then Mc + 4 * pi / 3 * (xc j * xc j * xc j - x j * x j * x j) * m (j - ng)
      else 4 * pi / 3 * (x j * x j * x j - xc (j - 1) * xc (j - 1) * xc (j - 1)) * m (j - ng - 1) +
        4 * pi / 3 * (xc j * xc j * xc j - x j * x j * x j) * m (j - ng)
  have hT : ∀ i, ng ≤ i → i < n → massIncrement pi Mc ng (View.line (n + 1) x) (View.line n xc) (View.line (n - ng) m) i = some (T i) := by
    intro i h0 h1
    unfold massIncrement
    have r1 : (View.line (n + 1) x).rd i = some (x i) := View.rd_of_dom (line_dom (by omega) (by omega))
    have r2 : (View.line n xc).rd i = some (xc i) := View.rd_of_dom (line_dom (by omega) h1)
    have r3 : (View.line (n - ng) m).rd (i - ng) = some (m (i - ng)) := View.rd_of_dom (line_dom (by omega) (by omega))
    simp only [r1, r2, r3, Option.bind_eq_bind, Option.bind_some]
    by_cases hi : i = ng
    · simp only [T, hi, if_true]
      rfl
    · have r4 : (View.line n xc).rd (i - 1) = some (xc (i - 1)) := View.rd_of_dom (line_dom (by omega) (by omega))
      have r5 : (View.line (n - ng) m).rd (i - ng - 1) = some (m (i - ng - 1)) := View.rd_of_dom (line_dom (by omega) (by omega))
      simp only [T, if_neg hi, r4, r5, Option.bind_some]
      rfl
  have h2 := scan_eq ng n _ T (View.line n fun i => if i ∈ l then Mc else 0) k hk.ge hT (fun i h0 h1 => line_dom (by omega) h1)
  rw [← hk] at h2
  refine ⟨fun i => if ng ≤ i ∧ i < n then ∑ j ∈ Finset.Ico ng (i + 1), T j else if i ∈ l then Mc else 0, ?_, fun i h0 h1 => ?_, fun i h0 h1 => ?_⟩
  · unfold massProfile
    rw [h1, Option.bind_eq_bind, Option.bind_some, h2]
    rfl
  · exact (if_neg (by omega)).trans (if_pos ((hl.2 i).2 ⟨h0, h1⟩))
  · exact (if_pos ⟨h0, h1⟩).trans (increments_sum pi Mc ng x xc m i h0)

theorem gravityFromMass_eq (G : K) {n : ℤ} {l : List ℤ} (hl : IsLineSchedule l n) (xc M : ℤ → K) :
    ∃ g, gravityFromMass G n l (View.line n xc) (View.line n M) = some (View.line n g) ∧
      ∀ i, 0 ≤ i → i < n → g i = -G * M i / (xc i) ^ 2 := by
  refine ⟨fun i => if i ∈ l then -G * M i / (xc i * xc i) else 0, ?_, fun i h0 h1 => ?_⟩
  · refine (parFor_update l hl.1 _ _ (fun i => -G * M i / (xc i * xc i)) fun i hi w hw _ => ?_).trans rfl
    have h := (hl.2 i).1 hi
    rw [View.rd_of_dom (line_dom h.1 h.2), View.rd_of_dom (line_dom h.1 h.2)]
    exact View.wr_of_dom (by rw [hw]; exact line_dom h.1 h.2)
  · rw [sq]
    exact if_pos ((hl.2 i).2 ⟨h0, h1⟩)

/-! ## C49 -/

/-- C49: uniform gravity has the configured component in every cell. -/
theorem C49_uniform (hd : d ≤ 3) (g : Fin 3 → K) (c : Cell) (dir : Fin d) :
    uniformGravity (makeUniformGravity (g 0) (g 1) (g 2)) c dir = some (g ⟨dir.val, dir.isLt.trans_le hd⟩) := by
  unfold uniformGravity makeUniformGravity
  have h := dir.isLt
  rw [View.rd_of_dom (line_dom (by omega) (by omega))]
  congr 1
  obtain ⟨v, hv⟩ := dir
  match v, hv with
  | 0, _ => rfl
  | 1, _ => rfl
  | 2, _ => rfl
  | v + 3, hv => omega

/-- C49: point-mass gravity follows the inverse-square law along the first direction, in every cell including ghosts and in any loop
order, and vanishes along the others. -/
theorem C49_point_mass (G M : K) {n : ℤ} {l : List ℤ} (hl : IsLineSchedule l n) (xc : ℤ → K) :
    ∃ g, makePointMass G M n l (View.line n xc) = some g ∧ ∀ (c : Cell) (dir : Fin d), 0 ≤ c 0 → c 0 < n →
      radialGravity g c dir = some (if dir.val = 0 then -(G * M / (xc (c 0)) ^ 2) else 0) := by
  refine ⟨_, parFor_update l hl.1 _ _ (fun i => -G * M / (xc i * xc i)) fun i hi w hw _ => ?_, fun c dir h0 h1 => ?_⟩
  · have h := (hl.2 i).1 hi
    rw [View.rd_of_dom (line_dom h.1 h.2)]
    exact View.wr_of_dom (by rw [hw]; exact line_dom h.1 h.2)
  · unfold radialGravity
    by_cases hdir : dir.val = 0
    · rw [if_pos hdir, if_pos hdir]
      refine (View.rd_of_dom (v := ⟨(View.line n fun _ => (0 : K)).dom, _⟩) (i := c 0) (line_dom h0 h1)).trans ?_
      congr 1
      refine (if_pos ((hl.2 _).2 ⟨h0, h1⟩)).trans ?_
      ring
    · rw [if_neg hdir, if_neg hdir]

/-- C49: internal-mass gravity, on any decomposition of the directions 1 and 2, reads and writes in bounds and is radial, with the strength
of the mass enclosed by the centre of the cell (shells of uniform mean density), and of the central mass in the inner ghosts. -/
theorem C49_internal_mass (G pi Mc : K) {nx dims : Cell} {ng : ℤ} (hdim : 0 < d) (hng : 0 ≤ ng) (hN : ∀ a, 0 ≤ nx a) (hd : ∀ a, 0 < dims a)
    (hd0 : dims 0 = 1) {ranks : List Cell} (hranks : IsSchedule ranks 0 dims) (sr : Cell → ShellRank K) (R V : Cell → K)
    (hsr : ∀ r ∈ ranks, (sr r).nxLocal 1 = localSize (nx 1) (dims 1) (r 1) ∧ (sr r).nxLocal 2 = localSize (nx 2) (dims 2) (r 2) ∧
      ∀ i, 0 ≤ i → i < nx 0 + ng → IsPartition ((sr r).parts i) 0 ![1, (sr r).nxLocal 1, (sr r).nxLocal 2] ∧
        ∀ j k, 0 ≤ j → j < (sr r).nxLocal 1 → 0 ≤ k → k < (sr r).nxLocal 2 →
          (sr r).rho.rd ![i + nghostOf d ng 0, j + nghostOf d ng 1, k + nghostOf d ng 2] =
            some (R ![i, localStart (nx 1) (dims 1) (r 1) + j, localStart (nx 2) (dims 2) (r 2) + k]) ∧
          (sr r).dv.rd ![i + nghostOf d ng 0, j + nghostOf d ng 1, k + nghostOf d ng 2] =
            some (V ![i, localStart (nx 1) (dims 1) (r 1) + j, localStart (nx 2) (dims 2) (r 2) + k]))
    {lm lg ln : List ℤ} (hlm : IsLineSchedule lm (nx 0 + ng)) (hlg : IsLineSchedule lg ng) (hln : IsLineSchedule ln (nx 0 + 2 * ng))
    (x xc : ℤ → K) :
    ∃ g, makeInternalMass G pi Mc dims (nghostOf d ng) (nx 0) (ranks.map sr) lm lg ln (View.line (nx 0 + 2 * ng + 1) x)
        (View.line (nx 0 + 2 * ng) xc) = .ok (some g) ∧
      ∀ (c : Cell) (dir : Fin d), 0 ≤ c 0 → c 0 < nx 0 + 2 * ng → radialGravity g c dir = some
        (if dir.val = 0 then
          -(G * (if c 0 < ng then Mc
            else enclosedMass pi Mc (fun k => x (k + ng)) (fun k => xc (k + ng)) (shellMean nx R V) (c 0 - ng)) / (xc (c 0)) ^ 2)
        else 0) := by
  have hg0 : nghostOf d ng 0 = ng := by simp [nghostOf, hdim]
  have hN0 := hN 0
  obtain ⟨m, hm, hm'⟩ := shellMeans_eq hlm fun i =>
    if 0 ≤ i ∧ i < nx 0 + ng then (shellTotal nx (fun c => R c * V c) i, shellTotal nx V i) else 0
  obtain ⟨M, hM, hM1, hM2⟩ := massProfile_eq pi Mc hng (by omega : ng ≤ nx 0 + 2 * ng) hlg x xc m
  obtain ⟨g, hg, hg'⟩ := gravityFromMass_eq G hln xc M
  rw [show nx 0 + 2 * ng - ng = nx 0 + ng by ring] at hM
  refine ⟨View.line (nx 0 + 2 * ng) g, ?_, fun c dir h0 h1 => ?_⟩
  · unfold makeInternalMass
    rw [if_neg (by simpa using hd0), hg0, shellTotals_eq hN hd hd0 (nx 0 + ng) hranks sr R V hsr]
    simp only [Option.bind_eq_bind, Option.bind_some, hm, hM, hg]
  · unfold radialGravity
    by_cases hdir : dir.val = 0
    · rw [if_pos hdir, if_pos hdir, View.rd_of_dom (line_dom h0 h1)]
      show some (g (c 0)) = _
      rw [hg' _ h0 h1]
      congr 1
      by_cases hi : c 0 < ng
      · rw [if_pos hi, hM1 _ h0 hi]
        ring
      · rw [if_neg hi, hM2 _ (by omega) h1]
        have : enclosedMass pi Mc (fun k => x (k + ng)) (fun k => xc (k + ng)) m (c 0 - ng) =
            enclosedMass pi Mc (fun k => x (k + ng)) (fun k => xc (k + ng)) (shellMean nx R V) (c 0 - ng) := by
          have hmm : ∀ k, 0 ≤ k → k < nx 0 + ng → m k = shellMean nx R V k := by
            intro k a b
            rw [hm' k a b, if_pos ⟨a, b⟩]
            rfl
          unfold enclosedMass
          rw [hmm _ (by omega) (by omega)]
          congr 2
          refine Finset.sum_congr rfl fun k hk => ?_
          rw [Finset.mem_Ico] at hk
          rw [hmm k hk.1 (by omega)]
        rw [this]
        ring
    · rw [if_neg hdir, if_neg hdir]

/-- C49: a decomposition of the radial direction is rejected. -/
theorem C49_rejects_radial_decomposition (G pi Mc : K) (dims nghost : Cell) (nx0 : ℤ) (ranks : List (ShellRank K)) (lm lg ln : List ℤ)
    (x xc : View ℤ K) (h : dims 0 ≠ 1) : ∃ e, makeInternalMass G pi Mc dims nghost nx0 ranks lm lg ln x xc = .error e :=
  ⟨_, if_pos h⟩

/-- C49: for a density that depends on the shell only, the mean is that density. -/
theorem C49_shell_mean (nx : Cell) (R V : Cell → K) (i : ℤ) (r : K) (hR : ∀ j k, R ![i, j, k] = r) (hV : shellTotal nx V i ≠ 0) :
    shellMean nx R V i = r := by
  unfold shellMean
  rw [div_eq_iff hV]
  unfold shellTotal
  rw [Finset.mul_sum]
  exact Finset.sum_congr rfl fun c _ => by simp only [hR]

/-- C49: a sphere of uniform density `r` on a grid that starts at the radius `x 0`: the mass inside the centre of cell `i` is the
central mass plus density times the volume between the radii `x 0` and `c i`; with `x 0 = 0` that of the full ball. -/
theorem C49_uniform_sphere (pi Mc r : K) (x c m : ℤ → K) (i : ℤ) (hi : 0 ≤ i) (hm : ∀ k, 0 ≤ k → k ≤ i → m k = r) :
    enclosedMass pi Mc x c m i = Mc + r * (4 / 3 * pi * (c i ^ 3 - x 0 ^ 3)) := by
  have h : ∀ j, 0 ≤ j → j ≤ i → ∑ k ∈ Finset.Ico 0 j, 4 * pi / 3 * (x (k + 1) ^ 3 - x k ^ 3) * m k = r * (4 / 3 * pi * (x j ^ 3 - x 0 ^ 3)) := by
    intro j hj
    induction j, hj using Int.le_induction with
    | base => intro _; simp
    | succ j hj ih =>
      intro hji
      rw [Ico_succ_sum _ hj, ih (by omega), hm j hj (by omega)]
      ring
  unfold enclosedMass
  rw [h i hi le_rfl, hm i hi le_rfl]
  ring

end Field

section Order
variable [Field K] [LinearOrder K] [IsStrictOrderedRing K]

/-- C49: point-mass gravity of a positive mass points inwards and weakens with the square of the radius. -/
theorem C49_point_mass_attractive (G M : K) (hG : 0 < G) (hM : 0 < M) {n : ℤ} {l : List ℤ} (hl : IsLineSchedule l n) (xc : ℤ → K) (g : View ℤ K)
    (hg : makePointMass G M n l (View.line n xc) = some g) (c c' : Cell) (a a' : K) (h0 : 0 ≤ c 0) (h1 : c 0 < n) (h0' : 0 ≤ c' 0) (h1' : c' 0 < n)
    (hx : xc (c 0) ≠ 0) (hx' : xc (c' 0) ≠ 0) (ha : radialGravity g c (0 : Fin (d + 1)) = some a)
    (ha' : radialGravity g c' (0 : Fin (d + 1)) = some a') :
    a < 0 ∧ a * (xc (c 0)) ^ 2 = a' * (xc (c' 0)) ^ 2 := by
  obtain ⟨g', hg', h⟩ := C49_point_mass (d := d + 1) G M hl xc
  rw [hg] at hg'
  cases hg'
  rw [h c 0 h0 h1] at ha
  rw [h c' 0 h0' h1'] at ha'
  simp only [Fin.val_zero, if_true, Option.some.injEq] at ha ha'
  subst ha ha'
  refine ⟨?_, ?_⟩
  · have : 0 < G * M / xc (c 0) ^ 2 := by positivity
    linarith
  · field_simp

/-- C49: for non-negative shell densities on non-negative increasing radii the enclosed mass is at least the central mass and does
not decrease outwards: internal-mass gravity is at least as strong as that of the central mass alone. -/
theorem C49_at_least_central (pi Mc : K) (hpi : 0 ≤ pi) (x c m : ℤ → K) (i : ℤ) (hi : 0 ≤ i) (hx0 : 0 ≤ x 0)
    (hx : ∀ k, 0 ≤ k → k ≤ i → x k ≤ c k ∧ c k ≤ x (k + 1)) (hm : ∀ k, 0 ≤ k → k ≤ i → 0 ≤ m k) :
    Mc ≤ enclosedMass pi Mc x c m i ∧ (0 < i → enclosedMass pi Mc x c m (i - 1) ≤ enclosedMass pi Mc x c m i) := by
  have hpos : ∀ k, 0 ≤ k → k ≤ i → 0 ≤ x k := by
    intro k hk
    induction k, hk using Int.le_induction with
    | base => intro _; exact hx0
    | succ k hk ih =>
      intro h
      have := hx k hk (by omega)
      linarith [ih (by omega), this.1, this.2]
  have h1 : ∀ k, 0 ≤ k → k ≤ i → 0 ≤ 4 * pi / 3 * (c k ^ 3 - x k ^ 3) * m k := by
    intro k a b
    have h := pow_le_pow_left₀ (hpos k a b) (hx k a b).1 3
    have := hm k a b
    have : 0 ≤ c k ^ 3 - x k ^ 3 := by linarith
    positivity
  have h2 : ∀ k, 0 ≤ k → k ≤ i → 0 ≤ 4 * pi / 3 * (x (k + 1) ^ 3 - c k ^ 3) * m k := by
    intro k a b
    have h := pow_le_pow_left₀ ((hpos k a b).trans (hx k a b).1) (hx k a b).2 3
    have := hm k a b
    have : 0 ≤ x (k + 1) ^ 3 - c k ^ 3 := by linarith
    positivity
  have h3 : ∀ k, 0 ≤ k → k ≤ i → 0 ≤ 4 * pi / 3 * (x (k + 1) ^ 3 - x k ^ 3) * m k := by
    intro k a b
    have := h1 k a b
    have := h2 k a b
    have e : 4 * pi / 3 * (x (k + 1) ^ 3 - x k ^ 3) * m k = 4 * pi / 3 * (c k ^ 3 - x k ^ 3) * m k + 4 * pi / 3 * (x (k + 1) ^ 3 - c k ^ 3) * m k := by
      ring
    linarith
  refine ⟨?_, fun hi0 => ?_⟩
  · unfold enclosedMass
    have hs : 0 ≤ ∑ k ∈ Finset.Ico 0 i, 4 * pi / 3 * (x (k + 1) ^ 3 - x k ^ 3) * m k :=
      Finset.sum_nonneg fun k hk => by
        rw [Finset.mem_Ico] at hk
        exact h3 k hk.1 hk.2.le
    linarith [h1 i hi le_rfl]
  · unfold enclosedMass
    have e := Ico_succ_sum (fun k => 4 * pi / 3 * (x (k + 1) ^ 3 - x k ^ 3) * m k) (by omega : (0 : ℤ) ≤ i - 1)
    rw [sub_add_cancel] at e
    rw [e]
    have a := h2 (i - 1) (by omega) (by omega)
    have b := h1 i hi le_rfl
    have e3 : i - 1 + 1 = i := by ring
    simp only [e3] at a ⊢
    have e2 : 4 * pi / 3 * (x i ^ 3 - x (i - 1) ^ 3) * m (i - 1) = 4 * pi / 3 * (c (i - 1) ^ 3 - x (i - 1) ^ 3) * m (i - 1) +
        4 * pi / 3 * (x i ^ 3 - c (i - 1) ^ 3) * m (i - 1) := by ring
    linarith

end Order

/-! ## Examples -/

example := C49_uniform (d := 2) (by norm_num) ![(1 : ℚ), -2, 3] ![5, 6, 7] 1

example := C49_point_mass (d := 3) (1 : ℚ) 2 (n := 5) (l := intRange 0 5) ⟨intRange_nodup 0 5, fun _ => mem_intRange⟩ (fun i => i + 1)

/-- Four shells (one outer ghost each side), density 2 everywhere, radii 0, 1, 2, 3, central mass 5: the code finds the mass of the ball. -/
example : enclosedMass (3 : ℚ) 5 (fun k => k) (fun k => k + 1 / 2) (fun _ => 2) 2 = 5 + 2 * (4 / 3 * 3 * (5 / 2) ^ 3) := by
  rw [C49_uniform_sphere 3 5 2 _ _ _ 2 (by norm_num) (fun _ _ _ => rfl)]
  norm_num

example := C49_at_least_central (3 : ℚ) 5 (by norm_num) (fun k => k) (fun k => k + 1 / 2) (fun _ => 2) 2 (by norm_num) (by norm_num)
  (fun k _ _ => by norm_num) (fun _ _ _ => by norm_num)

/-- Two ranks along direction 1 with two cells each; three shells plus a ghost. -/
example : ∃ g, makeInternalMass (1 : ℚ) 3 5 ![1, 2, 1] (nghostOf 2 1) 3
    ((boxList 0 ![1, 2, 1]).map fun _ => ⟨⟨inExt ![5, 4, 1], fun _ => 2⟩, ⟨inExt ![5, 4, 1], fun _ => 1⟩, ![3, 2, 1], fun _ => [boxList 0 ![1, 2, 1]]⟩)
    (intRange 0 4) (intRange 0 1) (intRange 0 5) (View.line 6 fun i => i - 1) (View.line 5 fun i => i - 1 / 2) = .ok (some g) := by
  obtain ⟨g, hg, -⟩ := C49_internal_mass (d := 2) (1 : ℚ) 3 5 (nx := ![3, 4, 1]) (dims := ![1, 2, 1]) (ng := 1) (by norm_num) (by norm_num)
    (by decide) (by decide) rfl (boxList_isSchedule 0 ![1, 2, 1])
    (fun _ => ⟨⟨inExt ![5, 4, 1], fun _ => 2⟩, ⟨inExt ![5, 4, 1], fun _ => 1⟩, ![3, 2, 1], fun _ => [boxList 0 ![1, 2, 1]]⟩)
    (fun _ => 2) (fun _ => 1) (by
      intro r hr
      have hb : inBox 0 ![1, 2, 1] r := ((boxList_isSchedule 0 ![1, 2, 1]).2 r).1 hr
      have h1 := hb 1
      have h2 := hb 2
      simp only [Pi.zero_apply] at h1 h2
      replace h1 : 0 ≤ r 1 ∧ r 1 < 2 := h1
      replace h2 : 0 ≤ r 2 ∧ r 2 < 1 := h2
      have c1 : r 1 = 0 ∨ r 1 = 1 := by omega
      have c2 : r 2 = 0 := by omega
      refine ⟨?_, ?_, fun i h0 h1 => ⟨?_, fun j k a b a' b' => ?_⟩⟩
      · show (2 : ℤ) = localSize 4 2 (r 1)
        rcases c1 with e | e <;> rw [e] <;> rfl
      · show (1 : ℤ) = localSize 1 1 (r 2)
        rw [c2]; rfl
      · simpa [IsPartition] using boxList_isSchedule 0 ![1, 2, 1]
      · replace h1 : i < 4 := h1
        replace b : j < 2 := b
        replace b' : k < 1 := b'
        have hin : inExt ![5, 4, 1] ![i + nghostOf 2 1 0, j + nghostOf 2 1 1, k + nghostOf 2 1 2] = true := by
          rw [inExt_iff]
          intro q
          fin_cases q <;> simp [nghostOf] <;> omega
        exact ⟨View.rd_of_dom hin, View.rd_of_dom hin⟩)
    (lm := intRange 0 4) ⟨intRange_nodup _ _, fun _ => mem_intRange⟩ (lg := intRange 0 1) ⟨intRange_nodup _ _, fun _ => mem_intRange⟩
    (ln := intRange 0 5) ⟨intRange_nodup _ _, fun _ => mem_intRange⟩ (fun i => i - 1) (fun i => i - 1 / 2)
  exact ⟨g, hg⟩

end Heracles
