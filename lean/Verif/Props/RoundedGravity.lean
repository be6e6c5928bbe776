import Verif.Lemmas.RoundedGravity
import Verif.Props.CalmFlow

/-!
# C87: sums over processes and threads in double precision
-/

namespace Heracles

open Arith

/-! ### Integrals -/

section Integral
variable {rnd : ℚ → ℚ} (hr : Nearest rnd) (tr : Trig FinDbl)
include hr

/-- **C87, integrals.** In double precision, on any process grid, with any distribution of the cells over workers and any order of
joining, the integral of a quantity that is not negative differs from the exact one by at most `q + 2` units of 2^-53 of it, where
every cell goes through at most `q` additions. The full statement is that the number does not depend on the distribution at all; it
fails (`C87_integral_violated`). -/
theorem C87_integral_partial (ndim : ℕ) {nx dims : Cell} (ng : ℤ) (hN : ∀ a, 0 ≤ nx a) (hd : ∀ a, 0 < dims a) {ranks : JoinTree Cell}
    (hranks : IsSchedule ranks.leaves 0 dims) {parts : Cell → JoinTree (List Cell)}
    (hparts : ∀ r ∈ ranks.leaves, IsSchedule (parts r).leaves.flatten (interiorBegin ndim ng) (interiorEnd ndim nx dims r ng))
    {var dv : Cell → View Cell FinDbl} {G V : Cell → FinDbl} (hG : ∀ c, 0 ≤ (G c).1) (hV : ∀ c, 0 ≤ (V c).1)
    (hvar : ∀ r ∈ ranks.leaves, ∀ c, inBox (interiorBegin ndim ng) (interiorEnd ndim nx dims r ng) c →
      (var r).rd c = some (G (globalOf nx dims (nghostOf ndim ng) r c)) ∧ (dv r).rd c = some (V (globalOf nx dims (nghostOf ndim ng) r c)))
    {q : ℕ} (hq : ∀ r ∈ ranks.leaves, ∀ l ∈ (parts r).leaves, l.length + (parts r).depth + ranks.depth ≤ q) (hq1 : q ≤ 10 ^ 7) :
    letI := dblArith rnd hr tr
    ∃ I, oIntegrate ranks parts dv var = some I ∧
      |I.1 - ∑ c ∈ cells 0 nx, (G c).1 * (V c).1| ≤ (q + 2) / 2 ^ 53 * ∑ c ∈ cells 0 nx, (G c).1 * (V c).1 := by
  letI := dblArith rnd hr tr
  set g := fun r c => globalOf nx dims (nghostOf ndim ng) r c
  refine ⟨_, JoinTree.reduce_some (g := fun r => (parts r).fold (· + ·) fun l => l.foldl (fun s c => s + G (g r c) * V (g r c)) 0) ranks
    fun r hrr => JoinTree.reduce_some _ fun l hl => parFor_worker l (g := fun c s => s + G (g r c) * V (g r c)) (fun c hc s => ?_) 0, ?_⟩
  · obtain ⟨a, b⟩ := hvar r hrr c (((hparts r hrr).2 c).1 (List.mem_flatten.2 ⟨l, hl, hc⟩))
    simp only [a, b]
    rfl
  · have e1 : (ranks.fold (· + ·) fun r => (parts r).fold (· + ·) fun l : List Cell => l.foldl (fun s c => s + G (g r c) * V (g r c)) (0 : FinDbl)).1 =
        ranks.fold (fun x y => rnd (x + y)) fun r => (parts r).fold (fun x y => rnd (x + y)) fun l =>
          l.foldl (fun s c => rnd (s + rnd ((G (g r c)).1 * (V (g r c)).1))) 0 := by
      refine (JoinTree.fold_comp (fun p : FinDbl => p.1) (op' := fun x y => rnd (x + y)) (fun _ _ => rfl) _ ranks).trans ?_
      congr 1; funext r
      refine (JoinTree.fold_comp (fun p : FinDbl => p.1) (op' := fun x y => rnd (x + y)) (fun _ _ => rfl) _ (parts r)).trans ?_
      congr 1; funext l
      exact foldl_val hr tr l (fun c => G (g r c) * V (g r c)) 0
    have h1 := near_tree hr (t := ranks) (parts := parts) (h := fun r c => rnd ((G (g r c)).1 * (V (g r c)).1))
      (S := fun r c => (G (g r c)).1 * (V (g r c)).1) (m := 1)
      (fun r _ l _ c _ => ((Near.refl (hG _)).mul (Near.refl (hV _))).rnd_pos hr) hq
    have e2 : (ranks.leaves.map fun r => ((parts r).leaves.flatten.map fun c => (G (g r c)).1 * (V (g r c)).1).sum).sum =
        ∑ c ∈ cells 0 nx, (G c).1 * (V c).1 := by
      rw [← sum_ranks ndim ng hN hd fun c => (G c).1 * (V c).1, cells, ← schedule_sum hranks]
      congr 1
      refine List.map_congr_left fun r hrr => ?_
      exact schedule_sum (hparts r hrr) _
    rw [e2, ← e1] at h1
    have h2 := h1.abs_sub_le (by
      have : (q : ℚ) ≤ 10 ^ 7 := by exact_mod_cast hq1
      have h0 : (0 : ℚ) ≤ q := Nat.cast_nonneg q
      unfold eps53
      push_cast
      nlinarith)
    have e3 : (((q + 1 : ℕ) : ℚ) + 1) * eps53 = (q + 2) / 2 ^ 53 := by unfold eps53; push_cast; ring
    rw [e3] at h2
    exact h2

/-- The `double`s 0.4, 0.6, 0.1, 0.1. -/
def fourCells (i : ℤ) : FinDbl :=
  if i = 0 then ⟨(7205759403792794 : ℤ) * 2 ^ (-54 : ℤ), 7205759403792794, -54, by norm_num, rfl⟩
  else if i = 1 then ⟨(5404319552844595 : ℤ) * 2 ^ (-53 : ℤ), 5404319552844595, -53, by norm_num, rfl⟩
  else ⟨(7205759403792794 : ℤ) * 2 ^ (-56 : ℤ), 7205759403792794, -56, by norm_num, rfl⟩

/-- Added from left to right they give 1.2000000000000002. -/
theorem fourCells_seq : rnd (rnd (rnd (rnd (0 + (fourCells 0).1) + (fourCells 1).1) + (fourCells 2).1) + (fourCells 3).1) =
    ((5404319552844596 : ℤ) : ℚ) * 2 ^ (-52 : ℤ) := by
  have h0 : rnd (0 + (fourCells 0).1) = (fourCells 0).1 := by rw [zero_add]; exact hr.eq_self (fourCells 0).2
  have h1 : rnd ((fourCells 0).1 + (fourCells 1).1) = 1 := by
    have : (fourCells 0).1 + (fourCells 1).1 = 1 := by norm_num [fourCells]
    rw [this]
    exact hr.eq_self (by exact_mod_cast isDouble_int (m := 1) (by norm_num))
  have h2 : rnd (1 + (fourCells 2).1) = ((4953959590107546 : ℤ) : ℚ) * 2 ^ (-52 : ℤ) :=
    hr.eq_of_close (by norm_num) (by norm_num) (by rw [abs_lt]; constructor <;> norm_num [fourCells])
  rw [h0, h1, h2]
  exact hr.eq_of_close (by norm_num) (by norm_num) (by rw [abs_lt]; constructor <;> norm_num [fourCells])

/-- Added in pairs they give 1.2. -/
theorem fourCells_pair : rnd (rnd (rnd (0 + (fourCells 0).1) + (fourCells 1).1) + rnd (rnd (0 + (fourCells 2).1) + (fourCells 3).1)) =
    ((5404319552844595 : ℤ) : ℚ) * 2 ^ (-52 : ℤ) := by
  have h0 : rnd (0 + (fourCells 0).1) = (fourCells 0).1 := by rw [zero_add]; exact hr.eq_self (fourCells 0).2
  have h1 : rnd ((fourCells 0).1 + (fourCells 1).1) = 1 := by
    have : (fourCells 0).1 + (fourCells 1).1 = 1 := by norm_num [fourCells]
    rw [this]
    exact hr.eq_self (by exact_mod_cast isDouble_int (m := 1) (by norm_num))
  have h2 : rnd (0 + (fourCells 2).1) = (fourCells 2).1 := by rw [zero_add]; exact hr.eq_self (fourCells 2).2
  have h3 : rnd ((fourCells 2).1 + (fourCells 3).1) = ((7205759403792794 : ℤ) : ℚ) * 2 ^ (-55 : ℤ) := by
    have : (fourCells 2).1 + (fourCells 3).1 = ((7205759403792794 : ℤ) : ℚ) * 2 ^ (-55 : ℤ) := by norm_num [fourCells]
    rw [this]
    exact hr.eq_self (IsDouble.of_le (by norm_num))
  rw [h0, h1, h2, h3]
  exact hr.eq_of_close (by norm_num) (by norm_num) (by rw [abs_lt]; constructor <;> norm_num)

/-- The hypotheses of `C87_integral_partial` hold for one process with two workers, in the tube of four cells below. -/
example := C87_integral_partial hr tr 1 (nx := ![4, 1, 1]) (dims := ![1, 1, 1]) 2 (by decide) (by decide) (ranks := .leaf 0)
  ⟨by simp [JoinTree.leaves], fun c => by
    simp only [JoinTree.leaves, List.mem_singleton]
    constructor
    · rintro rfl; decide
    · intro h
      funext a
      have := h a
      fin_cases a <;> simp at this ⊢ <;> omega⟩
  (parts := fun _ => .node (.leaf [![4, 0, 0], ![2, 0, 0]]) (.leaf [![3, 0, 0], ![5, 0, 0]]))
  (fun r hrr => by
    simp only [JoinTree.leaves, List.mem_singleton] at hrr
    subst hrr
    have hb := boxList_isSchedule (interiorBegin 1 2) (interiorEnd 1 ![4, 1, 1] ![1, 1, 1] 0 2)
    have b1 : boxList (interiorBegin 1 2) (interiorEnd 1 ![4, 1, 1] ![1, 1, 1] 0 2) = [![2, 0, 0], ![3, 0, 0], ![4, 0, 0], ![5, 0, 0]] := by
      decide
    rw [b1] at hb
    refine ⟨by simp only [JoinTree.leaves]; decide, fun c => ?_⟩
    rw [← hb.2 c]
    simp only [JoinTree.leaves, List.cons_append, List.nil_append, List.flatten_cons, List.flatten_nil, List.mem_append, List.mem_cons,
      List.not_mem_nil]
    tauto)
  (var := fun r => ⟨inExt (localExt ![4, 1, 1] ![1, 1, 1] (nghostOf 1 2) r),
    fun c => fourCells (globalOf ![4, 1, 1] ![1, 1, 1] (nghostOf 1 2) r c 0)⟩)
  (dv := fun r => ⟨inExt (localExt ![4, 1, 1] ![1, 1, 1] (nghostOf 1 2) r), fun _ => dblNat 3 (by norm_num)⟩)
  (G := fun C => fourCells (C 0)) (V := fun _ => dblNat 3 (by norm_num))
  (fun c => by unfold fourCells; split_ifs <;> norm_num) (fun c => by norm_num [dblNat])
  (fun r hrr c hc => by
    simp only [JoinTree.leaves, List.mem_singleton] at hrr
    subst hrr
    have hin : inExt (localExt ![4, 1, 1] ![1, 1, 1] (nghostOf 1 2) 0) c = true := by
      have : c ∈ boxList (interiorBegin 1 2) (interiorEnd 1 ![4, 1, 1] ![1, 1, 1] 0 2) := ((boxList_isSchedule _ _).2 c).2 hc
      have hall : ∀ c ∈ boxList (interiorBegin 1 2) (interiorEnd 1 ![4, 1, 1] ![1, 1, 1] 0 2),
          inExt (localExt ![4, 1, 1] ![1, 1, 1] (nghostOf 1 2) 0) c = true := by decide
      exact hall c this
    exact ⟨View.rd_of_dom hin, View.rd_of_dom hin⟩)
  (q := 3) (by decide) (by norm_num)

/-- The integral of the densities 0.4, 0.6, 0.1, 0.1 over a tube of four cells of volume 1, one worker per rank. -/
def tubeIntegral (dims : Cell) (ranks : JoinTree Cell) : Option FinDbl :=
  letI := dblArith rnd hr tr
  oIntegrate ranks (fun r => .leaf (boxList (interiorBegin 1 2) (interiorEnd 1 ![4, 1, 1] dims r 2)))
    (fun r => ⟨inExt (localExt ![4, 1, 1] dims (nghostOf 1 2) r), fun _ => dblNat 1 (by norm_num)⟩)
    (fun r => ⟨inExt (localExt ![4, 1, 1] dims (nghostOf 1 2) r), fun c => fourCells (globalOf ![4, 1, 1] dims (nghostOf 1 2) r c 0)⟩)

/-- **C87 is violated for integrals.** The integral of the densities 0.4, 0.6, 0.1, 0.1 is 1.2000000000000002 on one process and 1.2 on
two, for every rounding to nearest. -/
theorem C87_integral_violated :
    ∃ a b, tubeIntegral hr tr ![1, 1, 1] (.leaf 0) = some a ∧ tubeIntegral hr tr ![2, 1, 1] (.node (.leaf 0) (.leaf ![1, 0, 0])) = some b ∧
      a.1 = ((5404319552844596 : ℤ) : ℚ) * 2 ^ (-52 : ℤ) ∧ b.1 = ((5404319552844595 : ℤ) : ℚ) * 2 ^ (-52 : ℤ) := by
  letI := dblArith rnd hr tr
  have hm : ∀ x : FinDbl, x * dblNat 1 (by norm_num) = x := fun x => Subtype.ext (by
    show rnd (x.1 * ((1 : ℕ) : ℚ)) = x.1
    rw [Nat.cast_one, mul_one, hr.eq_self x.2])
  have key : ∀ (dims r : Cell) (l : List Cell), (∀ c ∈ l, inExt (localExt ![4, 1, 1] dims (nghostOf 1 2) r) c = true) →
      parFor l (fun c s => do
        let x ← (⟨inExt (localExt ![4, 1, 1] dims (nghostOf 1 2) r),
          fun c => fourCells (globalOf ![4, 1, 1] dims (nghostOf 1 2) r c 0)⟩ : View Cell FinDbl).rd c
        let y ← (⟨inExt (localExt ![4, 1, 1] dims (nghostOf 1 2) r), fun _ => dblNat 1 (by norm_num)⟩ : View Cell FinDbl).rd c
        return s + x * y) (0 : FinDbl) = some (l.foldl (fun s c => s + fourCells (globalOf ![4, 1, 1] dims (nghostOf 1 2) r c 0)) 0) := by
    intro dims r l hl
    refine parFor_worker l (g := fun c s => s + fourCells (globalOf ![4, 1, 1] dims (nghostOf 1 2) r c 0)) (fun c hc s => ?_) 0
    rw [View.rd_of_dom (hl c hc), View.rd_of_dom (hl c hc)]
    show some (s + fourCells _ * dblNat 1 (by norm_num)) = _
    rw [hm]
  have b1 : boxList (interiorBegin 1 2) (interiorEnd 1 ![4, 1, 1] ![1, 1, 1] 0 2) = [![2, 0, 0], ![3, 0, 0], ![4, 0, 0], ![5, 0, 0]] := by
    decide
  have b2 : boxList (interiorBegin 1 2) (interiorEnd 1 ![4, 1, 1] ![2, 1, 1] 0 2) = [![2, 0, 0], ![3, 0, 0]] := by decide
  have b3 : boxList (interiorBegin 1 2) (interiorEnd 1 ![4, 1, 1] ![2, 1, 1] ![1, 0, 0] 2) = [![2, 0, 0], ![3, 0, 0]] := by decide
  refine ⟨fourCells 0 |> (0 + ·) |> (· + fourCells 1) |> (· + fourCells 2) |> (· + fourCells 3),
    (0 + fourCells 0 + fourCells 1) + (0 + fourCells 2 + fourCells 3), ?_, ?_, fourCells_seq hr, fourCells_pair hr⟩
  · unfold tubeIntegral oIntegrate
    simp only [JoinTree.reduce, b1]
    rw [key _ _ _ (by decide)]
    rfl
  · unfold tubeIntegral oIntegrate
    simp only [JoinTree.reduce, b2, b3]
    rw [key _ _ _ (by decide), key _ _ _ (by decide)]
    rfl

end Integral

/-! ### The gravity of the mass inside -/

/-- How a run distributes the work of `make_internal_mass_gravity`: process grid, arrays of the ranks, order of joining the ranks,
orders of the loops, blocks of the scan. -/
structure ShellConfig (F : Type) where
  dims : Cell
  ranks : JoinTree Cell
  sr : Cell → OShellRank F
  lm : List ℤ
  lg : List ℤ
  ln : List ℤ
  blocks : List (List ℤ)

namespace ShellConfig
variable {F : Type}

/-- The configuration holds the densities `R` and volumes `V` of the whole domain (outer ghosts included); every loop runs every
iteration once; the blocks of the scan follow each other. -/
structure Ok (C : ShellConfig F) (d : ℕ) (nx : Cell) (ng : ℤ) (R V : Cell → F) : Prop where
  one : C.dims 0 = 1
  pos : ∀ a, 0 < C.dims a
  ranks : IsSchedule C.ranks.leaves 0 C.dims
  size : ∀ r ∈ C.ranks.leaves, (C.sr r).nxLocal 1 = localSize (nx 1) (C.dims 1) (r 1) ∧
    (C.sr r).nxLocal 2 = localSize (nx 2) (C.dims 2) (r 2)
  parts : ∀ r ∈ C.ranks.leaves, ∀ i, 0 ≤ i → i < nx 0 + ng →
    IsSchedule ((C.sr r).parts i).leaves.flatten 0 ![1, (C.sr r).nxLocal 1, (C.sr r).nxLocal 2]
  arrays : ∀ r ∈ C.ranks.leaves, ∀ i, 0 ≤ i → i < nx 0 + ng → ∀ j k, 0 ≤ j → j < (C.sr r).nxLocal 1 → 0 ≤ k → k < (C.sr r).nxLocal 2 →
    (C.sr r).rho.rd ![i + nghostOf d ng 0, j + nghostOf d ng 1, k + nghostOf d ng 2] =
      some (R ![i, localStart (nx 1) (C.dims 1) (r 1) + j, localStart (nx 2) (C.dims 2) (r 2) + k]) ∧
    (C.sr r).dv.rd ![i + nghostOf d ng 0, j + nghostOf d ng 1, k + nghostOf d ng 2] =
      some (V ![i, localStart (nx 1) (C.dims 1) (r 1) + j, localStart (nx 2) (C.dims 2) (r 2) + k])
  lm : IsLineSchedule C.lm (nx 0 + ng)
  lg : IsLineSchedule C.lg ng
  ln : IsLineSchedule C.ln (nx 0 + 2 * ng)
  blocks : C.blocks.flatten = intRange ng (nx 0 + 2 * ng)

/-- Every cell of a shell goes through at most `q` additions, every shell through at most `s`. -/
structure Additions (C : ShellConfig F) (n : ℤ) (q s : ℕ) : Prop where
  shell : ∀ r ∈ C.ranks.leaves, ∀ i, 0 ≤ i → i < n → ∀ l ∈ ((C.sr r).parts i).leaves,
    l.length + ((C.sr r).parts i).depth + C.ranks.depth ≤ q
  scan : ∀ b ∈ C.blocks, 2 * b.length + C.blocks.length ≤ s

/-- The gravity of the configuration for the nodes `x` and centres `xc` of the first direction. -/
def run [Arith F] (C : ShellConfig F) (G Mc : F) (d : ℕ) (nx : Cell) (ng : ℤ) (x xc : ℤ → F) : Option (View ℤ F) :=
  oInternalMass G Mc (nghostOf d ng) (nx 0) (C.ranks.map C.sr) C.lm C.lg C.ln C.blocks (View.line (nx 0 + 2 * ng + 1) x)
    (View.line (nx 0 + 2 * ng) xc)

/-- The sums over the shell `i` as the configuration adds them up. -/
def totals [Arith F] (C : ShellConfig F) (nx : Cell) (R V : Cell → F) (i : ℤ) : F × F :=
  C.ranks.fold (fun x y => (x.1 + y.1, x.2 + y.2)) fun r =>
    ((C.sr r).parts i).fold (fun x y => (x.1 + y.1, x.2 + y.2)) (workerSum
      (fun c => R ![i, localStart (nx 1) (C.dims 1) (r 1) + c 1, localStart (nx 2) (C.dims 2) (r 2) + c 2])
      (fun c => V ![i, localStart (nx 1) (C.dims 1) (r 1) + c 1, localStart (nx 2) (C.dims 2) (r 2) + c 2]))

theorem Ok.eval [Arith F] {C : ShellConfig F} {d : ℕ} {nx : Cell} {ng : ℤ} {R V : Cell → F} (h : C.Ok d nx ng R V) (hdim : 0 < d)
    (hng : 0 ≤ ng) (hN : ∀ a, 0 ≤ nx a) (G Mc : F) (x xc : ℤ → F) :
    ∃ (m M g : ℤ → F), C.run G Mc d nx ng x xc = some (View.line (nx 0 + 2 * ng) g) ∧
      (∀ i, 0 ≤ i → i < nx 0 + ng → m i = (C.totals nx R V i).1 / (C.totals nx R V i).2) ∧
      (∀ i, 0 ≤ i → i < ng → M i = Mc) ∧
      (∀ pre u i v post, C.blocks = pre ++ (u ++ i :: v) :: post → M i = (u ++ [i]).foldl (fun s j => s + incVal Mc ng x xc m j)
        (pre.foldl (fun s b => s + b.foldl (fun s j => s + incVal Mc ng x xc m j) 0) 0)) ∧
      ∀ i, 0 ≤ i → i < nx 0 + 2 * ng → g i = -G * M i / (xc i * xc i) := by
  have hg0 : nghostOf d ng 0 = ng := by simp [nghostOf, hdim]
  have hN0 := hN 0
  obtain ⟨tot, ht, ht'⟩ := oShellTotals_eq (nghostOf d ng) (nx 0 + ng) C.ranks C.sr (fun r i =>
    ((C.sr r).parts i).fold (fun x y => (x.1 + y.1, x.2 + y.2)) (workerSum
      (fun c => R ![i, localStart (nx 1) (C.dims 1) (r 1) + c 1, localStart (nx 2) (C.dims 2) (r 2) + c 2])
      (fun c => V ![i, localStart (nx 1) (C.dims 1) (r 1) + c 1, localStart (nx 2) (C.dims 2) (r 2) + c 2])))
    (fun r hr i h0 h1 => oShellSum_eq _ _ _ _ _ fun l hl c hc => by
      have hb := ((h.parts r hr i h0 h1).2 c).1 (List.mem_flatten.2 ⟨l, hl, hc⟩)
      exact h.arrays r hr i h0 h1 (c 1) (c 2) (hb 1).1 (hb 1).2 (hb 2).1 (hb 2).2)
  obtain ⟨m, hm, hm'⟩ := oShellMeans_eq h.lm tot
  obtain ⟨M, hM, hM1, hM2⟩ := oMassProfile_eq Mc hng (by omega : ng ≤ nx 0 + 2 * ng) h.lg (blocks := C.blocks)
    ⟨by rw [h.blocks]; exact intRange_nodup _ _, fun i => by rw [h.blocks]; exact mem_intRange⟩ x xc m
  obtain ⟨g, hg, hg'⟩ := oGravityFromMass_eq G h.ln xc M
  rw [show nx 0 + 2 * ng - ng = nx 0 + ng by ring] at hM
  refine ⟨m, M, g, ?_, fun i h0 h1 => ?_, hM1, hM2, hg'⟩
  · unfold run oInternalMass
    rw [hg0, ht]
    simp only [Option.bind_eq_bind, Option.bind_some, hm, hM, hg]
  · rw [hm' i h0 h1, ht' i h0 h1]
    rfl

end ShellConfig

theorem Nearest.neg {rnd : ℚ → ℚ} (hr : Nearest rnd) : Nearest fun x => -rnd (-x) :=
  ⟨fun x => (hr.double _).neg, fun x y hy => by
    have := hr.nearest (-x) (-y) hy.neg
    rw [← abs_neg, ← abs_neg (x - y)]
    convert this using 2 <;> ring⟩

theorem intRange_sorted (b e : ℤ) : (intRange b e).Pairwise (· < ·) := by
  unfold intRange
  rw [List.pairwise_map]
  exact (List.pairwise_lt_range (n := (e - b).toNat)).imp fun h => by omega

section Gravity
variable {rnd : ℚ → ℚ} (hr : Nearest rnd) (tr : Trig FinDbl)
include hr

/-- The strength of the gravity with exact sums: shell means, sum over the shells; the volumes of the shells, `G` and the square of
the radius as the machine has them. -/
noncomputable def refGravity (G Mc : FinDbl) (nx : Cell) (ng : ℤ) (R V : Cell → FinDbl) (x xc : ℤ → FinDbl) (i : ℤ) : ℚ :=
  letI := dblArith rnd hr tr
  let w : ℤ → ℚ := fun j => (lit 4 * pi / lit 3 * (xc j * xc j * xc j - x j * x j * x j) : FinDbl).1
  let v : ℤ → ℚ := fun j => (lit 4 * pi / lit 3 * (x j * x j * x j - xc (j - 1) * xc (j - 1) * xc (j - 1)) : FinDbl).1
  let m : ℤ → ℚ := shellMean nx (fun c => (R c).1) fun c => (V c).1
  let t : ℤ → ℚ := fun j => if j = ng then Mc.1 + w j * m (j - ng) else v j * m (j - ng - 1) + w j * m (j - ng)
  G.1 * (((intRange ng (nx 0 + 2 * ng)).filter fun j => decide (j ≤ i)).map t).sum / (xc i * xc i : FinDbl).1

theorem near_gravity {C : ShellConfig FinDbl} {d : ℕ} {nx : Cell} {ng : ℤ} {R V : Cell → FinDbl} (h : C.Ok d nx ng R V) {q s : ℕ}
    (hA : C.Additions (nx 0 + ng) q s) (hdim : 0 < d) (hng : 0 ≤ ng) (hN : ∀ a, 0 < nx a) {G Mc : FinDbl} (hG : 0 ≤ G.1) (hMc : 0 ≤ Mc.1)
    (hpi : 0 ≤ tr.pi.1) (hR : ∀ c, 0 ≤ (R c).1) (hV : ∀ c, 0 < (V c).1) {x xc : ℤ → FinDbl}
    (hx : ∀ i, ng ≤ i → i < nx 0 + 2 * ng → 0 ≤ (x i).1 ∧ (x i).1 ≤ (xc i).1 ∧ 0 < (xc i).1)
    (hx' : ∀ i, ng < i → i < nx 0 + 2 * ng → (xc (i - 1)).1 ≤ (x i).1) :
    letI := dblArith rnd hr tr
    ∃ g, C.run G Mc d nx ng x xc = some (View.line (nx 0 + 2 * ng) g) ∧
      (∀ i, 0 ≤ i → i < ng → g i = -G * Mc / (xc i * xc i)) ∧
      ∀ i, ng ≤ i → i < nx 0 + 2 * ng → Near (2 * q + s + 6) (refGravity hr tr G Mc nx ng R V x xc i) (-(g i).1) := by
  letI := dblArith rnd hr tr
  have hN' : ∀ a, 0 ≤ nx a := fun a => (hN a).le
  obtain ⟨m, M, g, e1, e2, e3, e4, e5⟩ := h.eval hdim hng hN' G Mc x xc
  refine ⟨g, e1, fun i h0 h1 => ?_, fun i h0 h1 => ?_⟩
  · rw [e5 i h0 (by linarith [hN 0]), e3 i h0 h1]
  -- the means
  have hm : ∀ j, 0 ≤ j → j < nx 0 + ng → Near (2 * q + 2) (shellMean nx (fun c => (R c).1) (fun c => (V c).1) j) (m j).1 := by
    intro j j0 j1
    rw [e2 j j0 j1]
    have hp : ∀ (f : Cell → ℚ), (C.ranks.leaves.map fun r => (((C.sr r).parts j).leaves.flatten.map fun c =>
        f ![j, localStart (nx 1) (C.dims 1) (r 1) + c 1, localStart (nx 2) (C.dims 2) (r 2) + c 2]).sum).sum = shellTotal nx f j := by
      intro f
      rw [← shell_ranks hN' h.pos h.one f j h.ranks]
      congr 1
      refine List.map_congr_left fun r hrr => ?_
      have := schedule_sum (h.parts r hrr j j0 j1) fun c => f ![j, localStart (nx 1) (C.dims 1) (r 1) + c 1, localStart (nx 2) (C.dims 2) (r 2) + c 2]
      rw [this, (h.size r hrr).1, (h.size r hrr).2]
      rfl
    obtain ⟨n1, n2⟩ := near_shell hr tr (t := C.ranks) (parts := fun r => (C.sr r).parts j)
      (f := fun r c => R ![j, localStart (nx 1) (C.dims 1) (r 1) + c 1, localStart (nx 2) (C.dims 2) (r 2) + c 2])
      (w := fun r c => V ![j, localStart (nx 1) (C.dims 1) (r 1) + c 1, localStart (nx 2) (C.dims 2) (r 2) + c 2]) (q := q)
      (fun r _ l _ c _ => ⟨hR _, (hV _).le⟩) (fun r hrr l hl => hA.shell r hrr j j0 j1 l hl)
    rw [hp fun c => (R c).1 * (V c).1] at n1
    rw [hp fun c => (V c).1] at n2
    have hpos : 0 < shellTotal nx (fun c => (V c).1) j := by
      unfold shellTotal
      refine Finset.sum_pos (fun c _ => hV _) ⟨0, mem_cells.2 fun a => ?_⟩
      fin_cases a
      · exact ⟨le_rfl, zero_lt_one⟩
      · exact ⟨le_rfl, hN 1⟩
      · exact ⟨le_rfl, hN 2⟩
    exact ((n1.div n2 hpos).rnd_pos hr).mono (show q + 1 + q + 1 ≤ 2 * q + 2 by omega)
  -- the volumes
  have hvol : 0 ≤ (lit 4 * pi / lit 3 : FinDbl).1 :=
    hr.nonneg (div_nonneg (hr.nonneg (mul_nonneg (hr.nonneg (by positivity)) hpi)) (hr.nonneg (by positivity)))
  have hcube : ∀ a b : FinDbl, 0 ≤ a.1 → a.1 ≤ b.1 → (a * a * a).1 ≤ (b * b * b).1 := by
    intro a b ha hab
    have hb := ha.trans hab
    have h1 : rnd (a.1 * a.1) ≤ rnd (b.1 * b.1) := hr.mono (mul_le_mul hab hab ha hb)
    exact hr.mono (mul_le_mul h1 hab ha (hr.nonneg (mul_nonneg hb hb)))
  have hW : ∀ j, ng ≤ j → j < nx 0 + 2 * ng → 0 ≤ (lit 4 * pi / lit 3 * (xc j * xc j * xc j - x j * x j * x j) : FinDbl).1 := by
    intro j j0 j1
    obtain ⟨a, b, -⟩ := hx j j0 j1
    exact hr.nonneg (mul_nonneg hvol (hr.nonneg (sub_nonneg.2 (hcube _ _ a b))))
  have hU : ∀ j, ng < j → j < nx 0 + 2 * ng →
      0 ≤ (lit 4 * pi / lit 3 * (x j * x j * x j - xc (j - 1) * xc (j - 1) * xc (j - 1)) : FinDbl).1 := by
    intro j j0 j1
    obtain ⟨-, -, a⟩ := hx (j - 1) (by omega) (by omega)
    exact hr.nonneg (mul_nonneg hvol (hr.nonneg (sub_nonneg.2 (hcube _ _ a.le (hx' j j0 j1)))))
  set w : ℤ → ℚ := fun j => (lit 4 * pi / lit 3 * (xc j * xc j * xc j - x j * x j * x j) : FinDbl).1 with hw
  set v : ℤ → ℚ := fun j => (lit 4 * pi / lit 3 * (x j * x j * x j - xc (j - 1) * xc (j - 1) * xc (j - 1)) : FinDbl).1 with hv
  set mr : ℤ → ℚ := shellMean nx (fun c => (R c).1) fun c => (V c).1 with hmr
  set t : ℤ → ℚ := fun j => if j = ng then Mc.1 + w j * mr (j - ng) else v j * mr (j - ng - 1) + w j * mr (j - ng) with ht
  have hT : ∀ j ∈ C.blocks.flatten, Near (2 * q + 4) (t j) (incVal Mc ng x xc m j).1 := by
    intro j hj
    rw [h.blocks, mem_intRange] at hj
    have n1 := ((Near.refl (hW j hj.1 hj.2)).mul (hm (j - ng) (by omega) (by omega))).rnd_pos hr
    by_cases e : j = ng
    · have : (incVal Mc ng x xc m j).1 = rnd (Mc.1 + rnd (w j * (m (j - ng)).1)) := by
        unfold incVal; rw [if_pos e]; rfl
      rw [this, ht]
      simp only [if_pos e]
      exact ((((Near.refl hMc).mono (Nat.zero_le _)).add n1).rnd_pos hr).mono (show 0 + (2 * q + 2) + 1 + 1 ≤ 2 * q + 4 by omega)
    · have : (incVal Mc ng x xc m j).1 = rnd (rnd (v j * (m (j - ng - 1)).1) + rnd (w j * (m (j - ng)).1)) := by
        unfold incVal; rw [if_neg e]; rfl
      have n2 := ((Near.refl (hU j (by omega) hj.2)).mul (hm (j - ng - 1) (by omega) (by omega))).rnd_pos hr
      rw [this, ht]
      simp only [if_neg e]
      exact ((n2.add n1).rnd_pos hr).mono (show 0 + (2 * q + 2) + 1 + 1 ≤ 2 * q + 4 by omega)
  -- the scan
  have hi : i ∈ C.blocks.flatten := by rw [h.blocks]; exact mem_intRange.2 ⟨h0, h1⟩
  obtain ⟨b, hb, hib⟩ := List.mem_flatten.1 hi
  obtain ⟨pre, post, hpp⟩ := List.append_of_mem hb
  obtain ⟨u, u', huu⟩ := List.append_of_mem hib
  rw [huu] at hpp
  have n3 := near_scan hr (T := fun j => (incVal Mc ng x xc m j).1) (t := t) hpp (by rw [h.blocks]; exact intRange_sorted _ _) hT hA.scan
  have eM : (M i).1 = (u ++ [i]).foldl (fun s j => rnd (s + (incVal Mc ng x xc m j).1))
      (pre.foldl (fun s b => rnd (s + b.foldl (fun s j => rnd (s + (incVal Mc ng x xc m j).1)) 0)) 0) := by
    rw [e4 pre u i u' post hpp]
    refine (foldl_val hr tr (u ++ [i]) (incVal Mc ng x xc m) _).trans ?_
    congr 1
    refine (foldl_val hr tr pre (fun b => b.foldl (fun s j => s + incVal Mc ng x xc m j) 0) 0).trans ?_
    congr 1
    funext s b
    congr 2
    exact foldl_val hr tr b (incVal Mc ng x xc m) 0
  rw [← eM, h.blocks] at n3
  -- the division
  have hxx : 0 < (xc i * xc i : FinDbl).1 := hr.pos (mul_pos (hx i h0 h1).2.2 (hx i h0 h1).2.2)
  have n4 := (((Near.refl hG).mul n3).rnd_pos hr.neg)
  have n5 := (n4.div (Near.refl hxx.le) hxx).rnd_pos hr.neg
  have e6 : -(g i).1 = -rnd (-(-rnd (-(G.1 * (M i).1)) / (xc i * xc i : FinDbl).1)) := by
    rw [e5 i (hng.trans h0) h1]
    show -rnd (rnd (-G.1 * (M i).1) / (xc i * xc i : FinDbl).1) = _
    rw [neg_mul, neg_div, neg_neg]
  rw [e6]
  exact n5.mono (show 0 + (2 * q + 4 + s) + 1 + 0 + 1 ≤ 2 * q + s + 6 by omega)

/-- **C87, gravity.** In double precision, for densities and central mass that are not negative: two runs on different process grids,
with different distributions over workers and different orders of joining, compute gravities that differ by at most `4 q + 2 s + 13`
units of 2^-53 of themselves; where every cell goes through at most `q` additions and every shell through at most `s`. In the inner
ghosts they are equal. The full statement is that they are equal everywhere; it fails (`C87_gravity_violated`). -/
theorem C87_gravity_partial {C C' : ShellConfig FinDbl} {d : ℕ} {nx : Cell} {ng : ℤ} {R V : Cell → FinDbl} (h : C.Ok d nx ng R V)
    (h' : C'.Ok d nx ng R V) {q s : ℕ} (hA : C.Additions (nx 0 + ng) q s) (hA' : C'.Additions (nx 0 + ng) q s)
    (hqs : 2 * q + s ≤ 10 ^ 7) (hdim : 0 < d) (hng : 0 ≤ ng)
    (hN : ∀ a, 0 < nx a) {G Mc : FinDbl} (hG : 0 ≤ G.1) (hMc : 0 ≤ Mc.1) (hpi : 0 ≤ tr.pi.1) (hR : ∀ c, 0 ≤ (R c).1) (hV : ∀ c, 0 < (V c).1)
    {x xc : ℤ → FinDbl} (hx : ∀ i, ng ≤ i → i < nx 0 + 2 * ng → 0 ≤ (x i).1 ∧ (x i).1 ≤ (xc i).1 ∧ 0 < (xc i).1)
    (hx' : ∀ i, ng < i → i < nx 0 + 2 * ng → (xc (i - 1)).1 ≤ (x i).1) :
    letI := dblArith rnd hr tr
    ∃ g g', C.run G Mc d nx ng x xc = some (View.line (nx 0 + 2 * ng) g) ∧ C'.run G Mc d nx ng x xc = some (View.line (nx 0 + 2 * ng) g') ∧
      (∀ i, 0 ≤ i → i < ng → g' i = g i) ∧
      ∀ i, ng ≤ i → i < nx 0 + 2 * ng → |(g' i).1 - (g i).1| ≤ (4 * q + 2 * s + 13) / 2 ^ 53 * |(g i).1| := by
  letI := dblArith rnd hr tr
  obtain ⟨g, a1, a2, a3⟩ := near_gravity hr tr h hA hdim hng hN hG hMc hpi hR hV hx hx'
  obtain ⟨g', b1, b2, b3⟩ := near_gravity hr tr h' hA' hdim hng hN hG hMc hpi hR hV hx hx'
  refine ⟨g, g', a1, b1, fun i h0 h1 => (b2 i h0 h1).trans (a2 i h0 h1).symm, fun i h0 h1 => ?_⟩
  have n1 := (a3 i h0 h1).symm.trans (b3 i h0 h1)
  have n2 := n1.abs_sub_le (by
    have : ((2 * q + s : ℕ) : ℚ) ≤ 10 ^ 7 := by exact_mod_cast hqs
    have hz : (0 : ℚ) ≤ ((2 * q + s : ℕ) : ℚ) := Nat.cast_nonneg _
    have e : ((2 * q + s + 6 + (2 * q + s + 6) : ℕ) : ℚ) = 2 * ((2 * q + s : ℕ) : ℚ) + 12 := by push_cast; ring
    rw [e]
    unfold eps53
    nlinarith)
  have e1 : (((2 * q + s + 6 + (2 * q + s + 6) : ℕ) : ℚ) + 1) * eps53 = (4 * q + 2 * s + 13) / 2 ^ 53 := by
    unfold eps53; push_cast; ring
  rw [e1] at n2
  have hneg : |(g i).1| = -(g i).1 := abs_of_nonpos (by have := (a3 i h0 h1).right; linarith)
  rw [hneg, ← abs_neg]
  convert n2 using 2
  ring

end Gravity

/-! ### A configuration with one worker per rank -/

section Plain
variable {F : Type}

/-- Arrays cut out of the densities `R` and volumes `V` of the whole domain, one worker per rank, loops in increasing order. -/
def plainConfig (d : ℕ) (nx : Cell) (ng : ℤ) (R V : Cell → F) (dims : Cell) (ranks : JoinTree Cell) : ShellConfig F where
  dims := dims
  ranks := ranks
  sr := fun r =>
    { rho := ⟨inExt (localExt nx dims (nghostOf d ng) r), fun c => R ![c 0 - nghostOf d ng 0,
        localStart (nx 1) (dims 1) (r 1) + (c 1 - nghostOf d ng 1), localStart (nx 2) (dims 2) (r 2) + (c 2 - nghostOf d ng 2)]⟩
      dv := ⟨inExt (localExt nx dims (nghostOf d ng) r), fun c => V ![c 0 - nghostOf d ng 0,
        localStart (nx 1) (dims 1) (r 1) + (c 1 - nghostOf d ng 1), localStart (nx 2) (dims 2) (r 2) + (c 2 - nghostOf d ng 2)]⟩
      nxLocal := fun a => localSize (nx a) (dims a) (r a)
      parts := fun _ => .leaf (boxList 0 ![1, localSize (nx 1) (dims 1) (r 1), localSize (nx 2) (dims 2) (r 2)]) }
  lm := intRange 0 (nx 0 + ng)
  lg := intRange 0 ng
  ln := intRange 0 (nx 0 + 2 * ng)
  blocks := [intRange ng (nx 0 + 2 * ng)]

theorem plainConfig_ok {d : ℕ} (hd : 0 < d) {nx : Cell} (hN : ∀ a, 0 ≤ nx a) {ng : ℤ} (hng : 0 ≤ ng) (R V : Cell → F) {dims : Cell} (h1 : dims 0 = 1) (hp : ∀ a, 0 < dims a)
    {ranks : JoinTree Cell} (hr : IsSchedule ranks.leaves 0 dims) : (plainConfig d nx ng R V dims ranks).Ok d nx ng R V := by
  refine ⟨h1, hp, hr, fun r _ => ⟨rfl, rfl⟩, fun r _ i _ _ => ?_, fun r hrr i h0 h1' j k j0 j1 k0 k1 => ?_,
    ⟨intRange_nodup _ _, fun _ => mem_intRange⟩, ⟨intRange_nodup _ _, fun _ => mem_intRange⟩, ⟨intRange_nodup _ _, fun _ => mem_intRange⟩, ?_⟩
  · simpa [plainConfig, JoinTree.leaves] using
      boxList_isSchedule 0 ![1, localSize (nx 1) (dims 1) (r 1), localSize (nx 2) (dims 2) (r 2)]
  · have hr0 : r 0 = 0 := by
      have := (hr.2 r).1 hrr 0
      rw [h1] at this
      simp only [Pi.zero_apply] at this
      omega
    have hg : ∀ a, 0 ≤ nghostOf d ng a := fun a => by unfold nghostOf; split <;> omega
    have hg0 : nghostOf d ng 0 = ng := by simp [nghostOf, hd]
    replace j1 : j < localSize (nx 1) (dims 1) (r 1) := j1
    replace k1 : k < localSize (nx 2) (dims 2) (r 2) := k1
    have hs0 : localSize (nx 0) (dims 0) (r 0) = nx 0 := by
      rw [h1, hr0]; unfold localSize; simp
    have hin : inExt (localExt nx dims (nghostOf d ng) r) ![i + nghostOf d ng 0, j + nghostOf d ng 1, k + nghostOf d ng 2] = true := by
      rw [inExt_iff]
      have g1 := hg 1
      have g2 := hg 2
      intro a
      fin_cases a
      · show 0 ≤ i + nghostOf d ng 0 ∧ i + nghostOf d ng 0 < localSize (nx 0) (dims 0) (r 0) + 2 * nghostOf d ng 0
        rw [hs0, hg0]; omega
      · show 0 ≤ j + nghostOf d ng 1 ∧ j + nghostOf d ng 1 < localSize (nx 1) (dims 1) (r 1) + 2 * nghostOf d ng 1
        omega
      · show 0 ≤ k + nghostOf d ng 2 ∧ k + nghostOf d ng 2 < localSize (nx 2) (dims 2) (r 2) + 2 * nghostOf d ng 2
        omega
    refine ⟨(View.rd_of_dom hin).trans ?_, (View.rd_of_dom hin).trans ?_⟩
    · show some (R ![i + nghostOf d ng 0 - nghostOf d ng 0, localStart (nx 1) (dims 1) (r 1) + (j + nghostOf d ng 1 - nghostOf d ng 1),
        localStart (nx 2) (dims 2) (r 2) + (k + nghostOf d ng 2 - nghostOf d ng 2)]) = _
      simp only [add_sub_cancel_right]
      rfl
    · show some (V ![i + nghostOf d ng 0 - nghostOf d ng 0, localStart (nx 1) (dims 1) (r 1) + (j + nghostOf d ng 1 - nghostOf d ng 1),
        localStart (nx 2) (dims 2) (r 2) + (k + nghostOf d ng 2 - nghostOf d ng 2)]) = _
      simp only [add_sub_cancel_right]
      rfl
  · simp [plainConfig]

end Plain

theorem ranks_one : IsSchedule (JoinTree.leaf (0 : Cell)).leaves 0 ![1, 1, 1] :=
  ⟨by simp [JoinTree.leaves], fun c => by
    simp only [JoinTree.leaves, List.mem_singleton]
    constructor
    · rintro rfl; decide
    · intro h
      funext a
      have := h a
      fin_cases a <;> simp at this ⊢ <;> omega⟩

theorem ranks_two : IsSchedule (JoinTree.node (.leaf (0 : Cell)) (.leaf ![0, 1, 0])).leaves 0 ![1, 2, 1] :=
  ⟨by simp only [JoinTree.leaves]; decide, fun c => by
    simp only [JoinTree.leaves, List.mem_append, List.mem_singleton]
    constructor
    · rintro (rfl | rfl) <;> decide
    · intro h
      have h0 := h 0
      have h1 := h 1
      have h2 := h 2
      simp at h0 h1 h2
      have : c 1 = 0 ∨ c 1 = 1 := by omega
      rcases this with e | e
      · left; funext a; fin_cases a <;> simp <;> omega
      · right; funext a; fin_cases a <;> simp <;> omega⟩

section Violation
variable {rnd : ℚ → ℚ} (hr : Nearest rnd) (tr : Trig FinDbl)
include hr

/-- `units::G` = 6.6743015E-11. -/
def dblG : FinDbl := ⟨(5163990663195295 : ℤ) * 2 ^ (-86 : ℤ), 5163990663195295, -86, by norm_num, rfl⟩

/-- One shell of four cells along direction 1 with densities 0.4, 0.6, 0.1, 0.1 and volumes 1. -/
def fourConfig (dims : Cell) (ranks : JoinTree Cell) : ShellConfig FinDbl :=
  plainConfig 2 ![1, 4, 1] 2 (fun c => fourCells (c 1)) (fun _ => dblNat 1 (by norm_num)) dims ranks

/-- The gravity at the centre of the first cell. -/
theorem four_chain (hpi : tr.pi.1 = (7074237752028440 : ℤ) * 2 ^ (-51 : ℤ)) {dims : Cell} {ranks : JoinTree Cell} (h1 : dims 0 = 1)
    (hp : ∀ a, 0 < dims a) (hrk : IsSchedule ranks.leaves 0 dims) :
    letI := dblArith rnd hr tr
    ∃ g, (fourConfig dims ranks).run dblG 0 2 ![1, 4, 1] 2 (fun i => dblNodes (2 * (i - 2))) (fun i => dblNodes (2 * (i - 2) + 1)) =
        some (View.line 5 g) ∧
      (g 2).1 = rnd (-dblG.1 * rnd (((4716158501352293 : ℤ) : ℚ) * 2 ^ (-50 : ℤ) *
        rnd (((fourConfig dims ranks).totals ![1, 4, 1] (fun c => fourCells (c 1)) (fun _ => dblNat 1 (by norm_num)) 0).1.1 /
          ((fourConfig dims ranks).totals ![1, 4, 1] (fun c => fourCells (c 1)) (fun _ => dblNat 1 (by norm_num)) 0).2.1))) := by
  letI := dblArith rnd hr tr
  have hok : (fourConfig dims ranks).Ok 2 ![1, 4, 1] 2 (fun c => fourCells (c 1)) (fun _ => dblNat 1 (by norm_num)) :=
    plainConfig_ok (by norm_num) (by decide) (by norm_num) _ _ h1 hp hrk
  obtain ⟨m, M, g, e1, e2, -, e4, e5⟩ := hok.eval (by norm_num) (by norm_num) (by decide) dblG 0 (fun i => dblNodes (2 * (i - 2)))
    (fun i => dblNodes (2 * (i - 2) + 1))
  refine ⟨g, e1, ?_⟩
  have hM := e4 [] [] 2 [3, 4] [] rfl
  have hm := congrArg Subtype.val (e2 0 le_rfl (by decide))
  set T := (fourConfig dims ranks).totals ![1, 4, 1] (fun c => fourCells (c 1)) (fun _ => dblNat 1 (by norm_num)) 0
  have i0 : rnd 0 = 0 := hr.eq_self isDouble_zero
  have i1 : rnd 1 = 1 := hr.eq_self (by exact_mod_cast isDouble_int (m := 1) (by norm_num))
  have i3 : rnd ((3 : ℕ) : ℚ) = 3 := by
    rw [hr.eq_self (by exact_mod_cast isDouble_int (m := 3) (by norm_num))]; norm_num
  have i4 : rnd ((4 : ℕ) : ℚ) = 4 := by
    rw [hr.eq_self (by exact_mod_cast isDouble_int (m := 4) (by norm_num))]; norm_num
  have v1 : rnd (4 * (((7074237752028440 : ℤ) : ℚ) * 2 ^ (-51 : ℤ))) = ((7074237752028440 : ℤ) : ℚ) * 2 ^ (-49 : ℤ) := by
    have : 4 * (((7074237752028440 : ℤ) : ℚ) * 2 ^ (-51 : ℤ)) = ((7074237752028440 : ℤ) : ℚ) * 2 ^ (-49 : ℤ) := by norm_num
    rw [this]
    exact hr.eq_self (IsDouble.of_le (by norm_num))
  have v2 : rnd (((7074237752028440 : ℤ) : ℚ) * 2 ^ (-49 : ℤ) / 3) = ((4716158501352293 : ℤ) : ℚ) * 2 ^ (-50 : ℤ) :=
    hr.eq_of_close (by norm_num) (by norm_num) (by rw [abs_lt]; constructor <;> norm_num)
  have v3 : rnd (((4716158501352293 : ℤ) : ℚ) * 2 ^ (-50 : ℤ)) = ((4716158501352293 : ℤ) : ℚ) * 2 ^ (-50 : ℤ) :=
    hr.eq_self (IsDouble.of_le (by norm_num))
  have n0 : (dblNodes (2 * (2 - 2))).1 = 0 := by norm_num [dblNodes]
  have n1 : (dblNodes (2 * (2 - 2) + 1)).1 = 1 := by norm_num [dblNodes]
  have hM' : (M 2).1 = rnd (((4716158501352293 : ℤ) : ℚ) * 2 ^ (-50 : ℤ) * rnd (T.1.1 / T.2.1)) := by
    rw [hM]
    unfold incVal
    show rnd (0 + rnd (0 + rnd (rnd (rnd (rnd (rnd ((4 : ℕ) : ℚ) * tr.pi.1) / rnd ((3 : ℕ) : ℚ)) *
      rnd (rnd (rnd ((dblNodes (2 * (2 - 2) + 1)).1 * (dblNodes (2 * (2 - 2) + 1)).1) * (dblNodes (2 * (2 - 2) + 1)).1) -
        rnd (rnd ((dblNodes (2 * (2 - 2))).1 * (dblNodes (2 * (2 - 2))).1) * (dblNodes (2 * (2 - 2))).1))) * (m 0).1))) = _
    have c1 : rnd (rnd (1 * 1) * 1) = 1 := by rw [mul_one, mul_one, i1, i1]
    have c0 : rnd (rnd (0 * 0) * 0) = 0 := by rw [mul_zero, i0]
    rw [n0, n1, hpi, i3, i4, v1, v2, c1, c0, sub_zero, i1, mul_one, v3, hm, zero_add, zero_add]
    show rnd (rnd (rnd (_ * rnd (T.1.1 / T.2.1)))) = _
    rw [hr.eq_self (hr.double _), hr.eq_self (hr.double _)]
  rw [e5 2 (by norm_num) (by decide)]
  show rnd (rnd (-dblG.1 * (M 2).1) / rnd ((dblNodes (2 * (2 - 2) + 1)).1 * (dblNodes (2 * (2 - 2) + 1)).1)) = _
  rw [n1, mul_one, i1, div_one, hM', hr.eq_self (hr.double _)]

/-- The sums of a worker over cells of volume 1. -/
theorem workerSum_one (f : Cell → FinDbl) (l : List Cell) :
    letI := dblArith rnd hr tr
    workerSum f (fun _ => dblNat 1 (by norm_num)) l = (l.foldl (fun s c => s + f c) 0, l.foldl (fun s _ => s + dblNat 1 (by norm_num)) 0) := by
  letI := dblArith rnd hr tr
  have hm : ∀ x : FinDbl, x * dblNat 1 (by norm_num) = x := fun x => Subtype.ext (by
    show rnd (x.1 * ((1 : ℕ) : ℚ)) = x.1
    rw [Nat.cast_one, mul_one, hr.eq_self x.2])
  unfold workerSum
  simp only [hm]

theorem four_one :
    letI := dblArith rnd hr tr
    let T := (fourConfig ![1, 1, 1] (.leaf 0)).totals ![1, 4, 1] (fun c => fourCells (c 1)) (fun _ => dblNat 1 (by norm_num)) 0
    T.1.1 = ((5404319552844596 : ℤ) : ℚ) * 2 ^ (-52 : ℤ) ∧ T.2.1 = 4 := by
  letI := dblArith rnd hr tr
  intro T
  have bl : boxList 0 ![1, localSize 4 1 0, localSize 1 1 0] = [![0, 0, 0], ![0, 1, 0], ![0, 2, 0], ![0, 3, 0]] := by decide
  have e : T = workerSum (fun c : Cell => fourCells (0 + c 1)) (fun _ => dblNat 1 (by norm_num))
      (boxList 0 ![1, localSize 4 1 0, localSize 1 1 0]) := rfl
  rw [e, workerSum_one, bl]
  refine ⟨fourCells_seq hr, ?_⟩
  show rnd (rnd (rnd (rnd (0 + ((1 : ℕ) : ℚ)) + ((1 : ℕ) : ℚ)) + ((1 : ℕ) : ℚ)) + ((1 : ℕ) : ℚ)) = 4
  have i1 : rnd 1 = 1 := hr.eq_self (by exact_mod_cast isDouble_int (m := 1) (by norm_num))
  have i2 : rnd 2 = 2 := hr.eq_self (by exact_mod_cast isDouble_int (m := 2) (by norm_num))
  have i3 : rnd 3 = 3 := hr.eq_self (by exact_mod_cast isDouble_int (m := 3) (by norm_num))
  have i4 : rnd 4 = 4 := hr.eq_self (by exact_mod_cast isDouble_int (m := 4) (by norm_num))
  rw [Nat.cast_one, zero_add, i1, one_add_one_eq_two, i2, show (2 : ℚ) + 1 = 3 by norm_num, i3, show (3 : ℚ) + 1 = 4 by norm_num, i4]

theorem four_two :
    letI := dblArith rnd hr tr
    let T := (fourConfig ![1, 2, 1] (.node (.leaf 0) (.leaf ![0, 1, 0]))).totals ![1, 4, 1] (fun c => fourCells (c 1))
      (fun _ => dblNat 1 (by norm_num)) 0
    T.1.1 = ((5404319552844595 : ℤ) : ℚ) * 2 ^ (-52 : ℤ) ∧ T.2.1 = 4 := by
  letI := dblArith rnd hr tr
  intro T
  have bl : boxList 0 ![1, localSize 4 2 0, localSize 1 1 0] = [![0, 0, 0], ![0, 1, 0]] := by decide
  have bl' : boxList 0 ![1, localSize 4 2 1, localSize 1 1 0] = [![0, 0, 0], ![0, 1, 0]] := by decide
  have e : T =
      ((workerSum (fun c : Cell => fourCells (0 + c 1)) (fun _ => dblNat 1 (by norm_num)) (boxList 0 ![1, localSize 4 2 0, localSize 1 1 0])).1 +
        (workerSum (fun c : Cell => fourCells (2 + c 1)) (fun _ => dblNat 1 (by norm_num)) (boxList 0 ![1, localSize 4 2 1, localSize 1 1 0])).1,
      (workerSum (fun c : Cell => fourCells (0 + c 1)) (fun _ => dblNat 1 (by norm_num)) (boxList 0 ![1, localSize 4 2 0, localSize 1 1 0])).2 +
        (workerSum (fun c : Cell => fourCells (2 + c 1)) (fun _ => dblNat 1 (by norm_num)) (boxList 0 ![1, localSize 4 2 1, localSize 1 1 0])).2) := rfl
  rw [e, workerSum_one, workerSum_one, bl, bl']
  refine ⟨fourCells_pair hr, ?_⟩
  show rnd (rnd (rnd (0 + ((1 : ℕ) : ℚ)) + ((1 : ℕ) : ℚ)) + rnd (rnd (0 + ((1 : ℕ) : ℚ)) + ((1 : ℕ) : ℚ))) = 4
  have i1 : rnd 1 = 1 := hr.eq_self (by exact_mod_cast isDouble_int (m := 1) (by norm_num))
  have i2 : rnd 2 = 2 := hr.eq_self (by exact_mod_cast isDouble_int (m := 2) (by norm_num))
  have i4 : rnd 4 = 4 := hr.eq_self (by exact_mod_cast isDouble_int (m := 4) (by norm_num))
  rw [Nat.cast_one, zero_add, i1, one_add_one_eq_two, i2, show (2 : ℚ) + 2 = 4 by norm_num, i4]

/-- Negative numbers. -/
theorem Nearest.neg_of_close {m e : ℤ} {x : ℚ} (h0 : 2 ^ 52 < m) (h1 : m ≤ 2 ^ 53) (h : |x - m * 2 ^ e| < 2 ^ e / 2) :
    rnd (-x) = -(m * 2 ^ e) := by
  have := hr.neg.eq_of_close h0 h1 h
  linarith

/-- **C87 is violated for the gravity.** One shell of four cells with densities 0.4, 0.6, 0.1, 0.1 and volumes 1, the constants `G` and
pi of the code, no central mass, radius 1: the gravity is -6489262052280249 / 2^86 on one process and -6489262052280248 / 2^86 on two
processes along direction 1, for every rounding to nearest. -/
theorem C87_gravity_violated (hpi : tr.pi.1 = (7074237752028440 : ℤ) * 2 ^ (-51 : ℤ)) :
    letI := dblArith rnd hr tr
    ∃ g g',
      (fourConfig ![1, 1, 1] (.leaf 0)).run dblG 0 2 ![1, 4, 1] 2 (fun i => dblNodes (2 * (i - 2))) (fun i => dblNodes (2 * (i - 2) + 1)) =
        some (View.line 5 g) ∧
      (fourConfig ![1, 2, 1] (.node (.leaf 0) (.leaf ![0, 1, 0]))).run dblG 0 2 ![1, 4, 1] 2 (fun i => dblNodes (2 * (i - 2)))
        (fun i => dblNodes (2 * (i - 2) + 1)) = some (View.line 5 g') ∧
      (g 2).1 = -((6489262052280249 : ℤ) * 2 ^ (-86 : ℤ)) ∧ (g' 2).1 = -((6489262052280248 : ℤ) * 2 ^ (-86 : ℤ)) := by
  letI := dblArith rnd hr tr
  obtain ⟨g, a1, a2⟩ := four_chain hr tr hpi (dims := ![1, 1, 1]) (ranks := .leaf 0) rfl (by decide) ranks_one
  obtain ⟨g', b1, b2⟩ := four_chain hr tr hpi (dims := ![1, 2, 1]) (ranks := .node (.leaf 0) (.leaf ![0, 1, 0])) rfl (by decide) ranks_two
  refine ⟨g, g', a1, b1, ?_, ?_⟩
  · rw [a2]
    obtain ⟨t1, t2⟩ := four_one hr tr
    rw [t1, t2]
    have m1 : rnd (((5404319552844596 : ℤ) : ℚ) * 2 ^ (-52 : ℤ) / 4) = ((5404319552844596 : ℤ) : ℚ) * 2 ^ (-54 : ℤ) := by
      have : ((5404319552844596 : ℤ) : ℚ) * 2 ^ (-52 : ℤ) / 4 = ((5404319552844596 : ℤ) : ℚ) * 2 ^ (-54 : ℤ) := by norm_num
      rw [this]; exact hr.eq_self (IsDouble.of_le (by norm_num))
    have m2 : rnd (((4716158501352293 : ℤ) : ℚ) * 2 ^ (-50 : ℤ) * (((5404319552844596 : ℤ) : ℚ) * 2 ^ (-54 : ℤ))) =
        ((5659390201622752 : ℤ) : ℚ) * 2 ^ (-52 : ℤ) :=
      hr.eq_of_close (by norm_num) (by norm_num) (by rw [abs_lt]; constructor <;> norm_num)
    rw [m1, m2, neg_mul]
    exact hr.neg_of_close (by norm_num) (by norm_num) (by unfold dblG; rw [abs_lt]; constructor <;> norm_num)
  · rw [b2]
    obtain ⟨t1, t2⟩ := four_two hr tr
    rw [t1, t2]
    have m1 : rnd (((5404319552844595 : ℤ) : ℚ) * 2 ^ (-52 : ℤ) / 4) = ((5404319552844595 : ℤ) : ℚ) * 2 ^ (-54 : ℤ) := by
      have : ((5404319552844595 : ℤ) : ℚ) * 2 ^ (-52 : ℤ) / 4 = ((5404319552844595 : ℤ) : ℚ) * 2 ^ (-54 : ℤ) := by norm_num
      rw [this]; exact hr.eq_self (IsDouble.of_le (by norm_num))
    have m2 : rnd (((4716158501352293 : ℤ) : ℚ) * 2 ^ (-50 : ℤ) * (((5404319552844595 : ℤ) : ℚ) * 2 ^ (-54 : ℤ))) =
        ((5659390201622751 : ℤ) : ℚ) * 2 ^ (-52 : ℤ) :=
      hr.eq_of_close (by norm_num) (by norm_num) (by rw [abs_lt]; constructor <;> norm_num)
    rw [m1, m2, neg_mul]
    exact hr.neg_of_close (by norm_num) (by norm_num) (by unfold dblG; rw [abs_lt]; constructor <;> norm_num)

/-- The hypotheses of `C87_gravity_partial` hold for the two configurations of `C87_gravity_violated`, with at most 5 additions in a
shell and 7 in the scan: the two gravities differ by at most 47 / 2^53 of themselves. -/
example (hpi : 0 ≤ tr.pi.1) :=
  C87_gravity_partial hr tr (C := fourConfig ![1, 1, 1] (.leaf 0)) (C' := fourConfig ![1, 2, 1] (.node (.leaf 0) (.leaf ![0, 1, 0])))
    (nx := ![1, 4, 1]) (ng := 2) (R := fun c => fourCells (c 1)) (V := fun _ => dblNat 1 (by norm_num))
    (plainConfig_ok (by norm_num) (by decide) (by norm_num) _ _ rfl (by decide) ranks_one)
    (plainConfig_ok (by norm_num) (by decide) (by norm_num) _ _ rfl (by decide) ranks_two) (q := 5) (s := 7)
    ⟨fun r hrr i _ _ l hl => by
      simp only [fourConfig, plainConfig, JoinTree.leaves, List.mem_singleton] at hrr hl
      subst hrr hl
      show _ + 0 + 0 ≤ 5
      decide, by decide⟩
    ⟨fun r hrr i _ _ l hl => by
      simp only [fourConfig, plainConfig, JoinTree.leaves, List.mem_append, List.mem_singleton] at hrr hl
      rcases hrr with rfl | rfl <;> subst hl <;> show _ + 0 + 1 ≤ 5 <;> decide, by decide⟩
    (by norm_num) (by norm_num) (by norm_num) (by decide) (G := dblG) (Mc := dblNat 3 (by norm_num))
    (by norm_num [dblG]) (by norm_num [dblNat]) hpi
    (fun c => by unfold fourCells; split_ifs <;> norm_num) (fun c => by norm_num [dblNat])
    (x := fun i => dblNodes (2 * (i - 2))) (xc := fun i => dblNodes (2 * (i - 2) + 1))
    (fun i h0 h1 => by
      have h1' : i < 5 := h1
      refine ⟨?_, ?_, ?_⟩
      · show (0 : ℚ) ≤ ((max 0 (min (2 * (i - 2)) 1000) : ℤ) : ℚ)
        exact_mod_cast le_max_left _ _
      · show ((max 0 (min (2 * (i - 2)) 1000) : ℤ) : ℚ) ≤ ((max 0 (min (2 * (i - 2) + 1) 1000) : ℤ) : ℚ)
        have : max 0 (min (2 * (i - 2)) 1000) ≤ max 0 (min (2 * (i - 2) + 1) 1000) := by omega
        exact_mod_cast this
      · show (0 : ℚ) < ((max 0 (min (2 * (i - 2) + 1) 1000) : ℤ) : ℚ)
        have : 0 < max 0 (min (2 * (i - 2) + 1) 1000) := by omega
        exact_mod_cast this)
    (fun i h0 h1 => by
      show ((max 0 (min (2 * (i - 1 - 2) + 1) 1000) : ℤ) : ℚ) ≤ ((max 0 (min (2 * (i - 2)) 1000) : ℤ) : ℚ)
      have : max 0 (min (2 * (i - 1 - 2) + 1) 1000) ≤ max 0 (min (2 * (i - 2)) 1000) := by omega
      exact_mod_cast this)

end Violation

end Heracles
