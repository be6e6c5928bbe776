import Verif.Lemmas.InitBits

/-!
# C92: initial states of the shipped input files in double precision

Every `double` operation is carried out by the kernel of Lean.
-/

namespace Heracles

variable {lim : Limiter} {sol : Solver} {eos : EoS Ieee} {fix : Option Ieee} {d : ℕ}

/-! ### Implosion -/

/-- The cells `i` of the diagonal `i + j = 199` that the code takes for points beyond the line `x + y = 0.15`. -/
def jagged : List ℕ := [9, 11, 13, 15, 17, 19, 21, 23, 25, 27, 29, 31, 40, 41, 42, 43, 44, 45, 46, 47, 48, 62, 63, 64, 65, 66, 67, 68, 69, 82,
  83, 84, 85, 86, 87, 88, 89, 90, 91, 92, 93, 94, 95, 104, 105, 106, 107, 108, 109, 110, 111, 112, 113, 114, 115, 116, 117, 130, 131, 132, 133,
  134, 135, 136, 137, 151, 152, 153, 154, 155, 156, 157, 158, 159, 168, 170, 172, 174, 176, 178, 180, 182, 184, 186, 188, 190]

/-- The centre of cell `i` when the cells have the length `dx` and start from 0. -/
def centerFrom (dx : Ieee) (i : ℕ) : Ieee :=
  letI := ieeeArith noTrig
  ((oNode 0 Ieee.zero dx i).add (oNode 0 Ieee.zero dx (i + 1))).div (.lit 2)

/-- The length of the cells of inputs/implosion_test.ini, in binary. -/
def implosionDx : Ieee := .fin false ⟨3458764513820541 / 2 ^ 62, 3458764513820541, -62, by norm_num, by norm_num, by norm_num, by norm_num⟩

theorem implosion_dx : @oLength Ieee (ieeeArith noTrig) 400 .zero (.lit (3 / 10)) = implosionDx := by decide +kernel

theorem implosion_center (i : ℕ) : bCenter 400 .zero (.lit (3 / 10)) i = centerFrom implosionDx i := by
  unfold bCenter bNode centerFrom
  rw [implosion_dx]

/-- The test of the code. -/
def beyond (i j : ℕ) : Bool := (Ieee.lit (15 / 100)).ltb ((centerFrom implosionDx i).add (centerFrom implosionDx j))

theorem implosion_tie : ∀ i < 100, beyond i (199 - i) = decide (i ∈ jagged) := by decide +kernel

theorem implosion_near : ∀ i < 400, (let c := centerFrom implosionDx i
    c.small && decide (|c.val - (2 * i + 1) * (3 / 8000)| ≤ 1 / 10000000)) = true := by decide +kernel

theorem jagged_symm : ∀ i < 200, (i ∈ jagged ↔ 199 - i ∈ jagged) := by decide +kernel

theorem lit_hasVal {q : ℚ} (h : 2 ^ (-1022 : ℤ) ≤ q) (h' : q ≤ 400) : Ieee.HasVal (.lit q) (roundDouble q) := by
  have hq : 0 < q := (two_zpow_pos _).trans_le h
  have := Ieee.round_hasVal h h'
  unfold Ieee.lit Ieee.ofRat
  rwa [if_neg hq.ne', abs_of_pos hq, decide_eq_false (by linarith)]

theorem low_bound {q : ℚ} (h : 1 / 2 ^ 20 ≤ q) : (2 : ℚ) ^ (-1022 : ℤ) ≤ q := by
  have : (2 : ℚ) ^ (-1022 : ℤ) ≤ 2 ^ (-20 : ℤ) := zpow_le_zpow_right₀ (by norm_num) (by norm_num)
  refine this.trans (le_trans (le_of_eq ?_) h)
  norm_num

theorem roundDouble_dyadic (m : ℤ) (h : |m| ≤ 2 ^ 53) : roundDouble (m / 4096) = m / 4096 := by
  refine roundDouble_nearest.eq_self ⟨m, -12, h, ?_⟩
  norm_num
  ring

theorem beyond_eq {i j : ℕ} (hi : i < 400) (hj : j < 400) : beyond i j = decide (200 ≤ i + j ∨ (i + j = 199 ∧ i ∈ jagged)) := by
  have near : ∀ k < 400, ∃ a, Ieee.HasVal (centerFrom implosionDx k) a ∧ |a - (2 * k + 1) * (3 / 8000)| ≤ 1 / 10000000 := by
    intro k hk
    have := implosion_near k hk
    simp only [Bool.and_eq_true, decide_eq_true_eq] at this
    exact ⟨_, (Ieee.small_hasVal this.1).1, this.2⟩
  obtain ⟨a, ha, ha'⟩ := near i hi
  obtain ⟨b, hb, hb'⟩ := near j hj
  rw [abs_le] at ha' hb'
  have hi' : (i : ℚ) ≤ 399 := by exact_mod_cast Nat.lt_succ_iff.1 hi
  have hj' : (j : ℚ) ≤ 399 := by exact_mod_cast Nat.lt_succ_iff.1 hj
  have hi0 : (0 : ℚ) ≤ i := Nat.cast_nonneg i
  have hj0 : (0 : ℚ) ≤ j := Nat.cast_nonneg j
  have hlow : (2 : ℚ) ^ (-1022 : ℤ) ≤ a + b := low_bound (by norm_num; linarith [ha'.1, hb'.1])
  have hsum := Ieee.add_hasVal ha hb hlow (by linarith [ha'.2, hb'.2])
  have hc := lit_hasVal (q := 15 / 100) (low_bound (by norm_num)) (by norm_num)
  have hbe : beyond i j = decide (roundDouble (15 / 100) < roundDouble (a + b)) := Ieee.ltb_hasVal hc hsum
  rcases lt_trichotomy (i + j) 199 with h | h | h
  · have hij : (i : ℚ) + j ≤ 198 := by exact_mod_cast Nat.lt_succ_iff.1 h
    rw [hbe, decide_eq_false, decide_eq_false (by omega)]
    exact not_lt.2 (roundDouble_nearest.mono (by linarith [ha'.2, hb'.2]))
  · rw [decide_eq_decide.2 (show (200 ≤ i + j ∨ (i + j = 199 ∧ i ∈ jagged)) ↔ i ∈ jagged from
      ⟨fun q => q.elim (fun q => absurd q (by omega)) And.right, fun q => Or.inr ⟨h, q⟩⟩)]
    by_cases h100 : i < 100
    · rw [← implosion_tie i h100]
      congr 1
      omega
    · have hcomm : beyond i j = beyond j i := by
        rw [hbe, add_comm a b]
        exact (Ieee.ltb_hasVal hc (Ieee.add_hasVal hb ha (by rwa [add_comm]) (by linarith [ha'.2, hb'.2]))).symm
      rw [hcomm, show i = 199 - j by omega, implosion_tie j (by omega)]
      exact decide_eq_decide.2 (jagged_symm j (by omega))
  · have hij : (200 : ℚ) ≤ i + j := by exact_mod_cast h
    rw [hbe, decide_eq_true, decide_eq_true (by omega)]
    have h1 := roundDouble_nearest.mono (show (617 : ℤ) / 4096 ≤ a + b by push_cast; linarith [ha'.1, hb'.1])
    have h2 := roundDouble_nearest.mono (show (15 / 100 : ℚ) ≤ (616 : ℤ) / 4096 by norm_num)
    rw [roundDouble_dyadic _ (by norm_num)] at h1 h2
    refine lt_of_le_of_lt h2 (lt_of_lt_of_le ?_ h1)
    norm_num

/-- The box of inputs/implosion_test.ini; the third direction is not used. -/
def implosionMin : Fin 3 → Ieee := ![.zero, .zero, .zero]
def implosionMax : Fin 3 → Ieee := ![.lit (3 / 10), .lit (3 / 10), .lit 1]

/-- **C92, the implosion.** What the code writes for inputs/implosion_test.ini, on every process grid and for all values of the other
parameters: cell `(i, j)` is outside when `i + j ≥ 200`, inside when `i + j ≤ 198`, and on the diagonal `i + j = 199`, whose centres lie on
the line `x + y = 0.15`, 86 cells of 200 are outside. -/
theorem C92_implosion (rho0 rho1 u0 P0 P1 : Ieee) {ng : ℤ} (hng : 0 ≤ ng) :
    StartsAs (bKernels 2 lim sol eos fix) (implosionBits rho0 rho1 u0 P0 P1) ![400, 400, 1] ng implosionMin implosionMax
      (fun C => if 200 ≤ C 0 + C 1 ∨ (C 0 + C 1 = 199 ∧ (C 0).toNat ∈ jagged) then ⟨rho0, fun _ => u0, P0⟩ else ⟨rho1, fun _ => u0, P1⟩) ∧
    (∀ i j : ℚ, i + j = 199 → (i + 1 / 2) * (3 / 10 / 400) + (j + 1 / 2) * (3 / 10 / 400) = 15 / 100) ∧
    jagged.length = 86 ∧ jagged.Nodup ∧ ∀ i ∈ jagged, i < 200 := by
  refine ⟨?_, fun i j h => ?_, by decide +kernel, by decide +kernel, by decide +kernel⟩
  · refine startsAs_of (by decide) hng (fun _ xc _ => if (Ieee.lit (15 / 100)).ltb ((xc 0).add (xc 1)) then ⟨rho0, fun _ => u0, P0⟩
      else ⟨rho1, fun _ => u0, P1⟩) ?_ ?_
    · intro g c x xc dv _ h _
      unfold implosionBits
      rw [h 0, h 1]
      simp only [Option.bind_eq_bind, Option.bind_some]
      split <;> rfl
    · intro C hC
      obtain ⟨i, hi⟩ := Int.eq_ofNat_of_zero_le (hC 0).1
      obtain ⟨j, hj⟩ := Int.eq_ofNat_of_zero_le (hC 1).1
      have hi4 : C 0 < 400 := (hC 0).2
      have hj4 : C 1 < 400 := (hC 1).2
      have hb := beyond_eq (i := i) (j := j) (by omega) (by omega)
      unfold beyond at hb
      rw [← implosion_center, ← implosion_center] at hb
      show (if (Ieee.lit (15 / 100)).ltb ((bCenter 400 .zero (.lit (3 / 10)) (C 0)).add (bCenter 400 .zero (.lit (3 / 10)) (C 1))) = true
        then _ else _) = _
      rw [hi, hj, hb]
      simp only [decide_eq_true_eq, Int.toNat_natCast]
      exact if_congr (or_congr (by omega) (and_congr (by omega) Iff.rfl)) rfl rfl
  · linear_combination (3 / 4000) * h

/-- The rule of the setup in exact arithmetic. -/
def exactImplosion (rho0 rho1 u0 P0 P1 : Ieee) (C : Cell) : Prim 2 Ieee :=
  if (15 / 100 : ℚ) < (C 0 + 1 / 2) * (3 / 10 / 400) + (C 1 + 1 / 2) * (3 / 10 / 400) then ⟨rho0, fun _ => u0, P0⟩ else ⟨rho1, fun _ => u0, P1⟩

theorem StartsAs.unique {k : Kernels d 0 Ieee} {S : BitsKernel d} {nx : Cell} {ng : ℤ} {xmin xmax : Fin 3 → Ieee} {W W' : Cell → Prim d Ieee}
    (hN : ∀ a, 0 ≤ nx a) (hng : 0 ≤ ng) (h : StartsAs k S nx ng xmin xmax W) (h' : StartsAs k S nx ng xmin xmax W') {C : Cell} (hC : inBox 0 nx C) :
    W C = W' C := by
  obtain ⟨topo, g, r, hg, hr⟩ := exists_bitsGrid k hN (dims := 1) (rank := 0) (fun _ => one_pos) hng (fun a => ⟨le_rfl, one_pos⟩) xmin xmax
  have hp : ∀ a, (0 : ℤ) < (1 : Cell) a := fun _ => one_pos
  have hb : inBox 0 (1 : Cell) 0 := fun a => ⟨le_rfl, one_pos⟩
  obtain ⟨e1, f1, f2⟩ := rank_noGhosts_box hN hp hb hg.ok hr
  obtain ⟨v, q1, -, q3⟩ := h 1 0 topo g r _ ⟨inExt topo.nxLocalWg, fun _ => W C⟩ hp hb hg hr (boxList_isSchedule _ _) rfl
  obtain ⟨v', q1', -, q3'⟩ := h' 1 0 topo g r _ ⟨inExt topo.nxLocalWg, fun _ => W C⟩ hp hb hg hr (boxList_isSchedule _ _) rfl
  rw [q1] at q1'
  cases q1'
  have hs : ∀ a, localStart (nx a) 1 0 = 0 := fun a => by simp [localStart]
  have hz : ∀ a, localSize (nx a) 1 0 = nx a := fun a => by simp [localSize]
  have hc : inBox (r.cellBegin d) (r.cellEnd d) (C + nghostOf d ng) := by
    intro a
    have := hC a
    rw [f1, f2]
    simp only [Pi.add_apply, localExt, Pi.one_apply, Pi.zero_apply, hz] at this ⊢
    omega
  have hgl : globalOf nx 1 (nghostOf d ng) 0 (C + nghostOf d ng) = C := by
    funext a
    simp only [globalOf, Pi.add_apply, Pi.one_apply, Pi.zero_apply, hs]
    omega
  have w1 := q3 _ hc
  have w2 := q3' _ hc
  rw [hgl] at w1 w2
  exact w1.symm.trans w2

/-- **C92, the implosion, violated.** With the values of inputs/implosion_test.ini the state is not the one of the rule of the setup. -/
theorem C92_implosion_violated {ng : ℤ} (hng : 0 ≤ ng) :
    ¬ StartsAs (bKernels 2 lim sol eos fix) (implosionBits (.lit 1) (.lit (125 / 1000)) .zero (.lit 1) (.lit (14 / 100))) ![400, 400, 1] ng
      implosionMin implosionMax (exactImplosion (.lit 1) (.lit (125 / 1000)) .zero (.lit 1) (.lit (14 / 100))) := by
  intro h
  have h1 := h.unique (by decide) hng (C92_implosion (.lit 1) (.lit (125 / 1000)) .zero (.lit 1) (.lit (14 / 100)) hng).1 (C := ![9, 190, 0])
    (by intro a; fin_cases a <;> decide)
  have h2 := congrArg Prim.rho h1
  revert h2
  unfold exactImplosion
  rw [if_neg (by norm_num), if_pos (by right; decide)]
  show ¬ _
  decide +kernel

/-! ### The explosion in two dimensions -/

/-- The node `i` when the cells have the length `dx` and start from -5. -/
def nodeFrom (dx : Ieee) (i : ℕ) : Ieee := @oNode Ieee (ieeeArith noTrig) 0 (.lit (-5)) dx i

/-- The length of the cells of inputs/sedov2d.ini, in binary. -/
def sedovDx : Ieee := .fin false ⟨3602879701896397 / 2 ^ 57, 3602879701896397, -57, by norm_num, by norm_num, by norm_num, by norm_num⟩

theorem sedov_dx : @oLength Ieee (ieeeArith noTrig) 400 (.lit (-5)) (.lit 5) = sedovDx := by decide +kernel

theorem sedov_node (i : ℕ) : bNode 400 (.lit (-5)) (.lit 5) i = nodeFrom sedovDx i := by
  unfold bNode nodeFrom
  rw [sedov_dx]

/-- The square of the coordinate of a node. -/
def nodeSq (i : ℕ) : Ieee := (nodeFrom sedovDx i).mul (nodeFrom sedovDx i)

theorem sedov_far : ∀ i < 400, (let s := nodeSq i
    s.small && decide (s.val ≤ 100) && decide (i = 199 ∨ i = 200 ∨ i = 201 ∨ 1 / 1024 ≤ s.val)) = true := by decide +kernel

/-- The test of the code. -/
def hot (i j : ℕ) : Bool := ((nodeSq i).add (nodeSq j)).sqrt.ltb (.lit (25 / 1000))

theorem sedov_close : ∀ i < 3, ∀ j < 3, hot (199 + i) (199 + j) = decide ((i = 0 ∧ j = 1) ∨ (i = 1 ∧ j = 0) ∨ (i = 1 ∧ j = 1)) := by decide +kernel

theorem hot_eq {i j : ℕ} (hi : i < 400) (hj : j < 400) :
    hot i j = decide ((i = 199 ∧ j = 200) ∨ (i = 200 ∧ j = 199) ∨ (i = 200 ∧ j = 200)) := by
  have far : ∀ k < 400, ∃ a, Ieee.HasVal (nodeSq k) a ∧ a ≤ 100 ∧ (k = 199 ∨ k = 200 ∨ k = 201 ∨ 1 / 1024 ≤ a) := by
    intro k hk
    have := sedov_far k hk
    simp only [Bool.and_eq_true, decide_eq_true_eq] at this
    exact ⟨_, (Ieee.small_hasVal this.1.1).1, this.1.2, this.2⟩
  obtain ⟨a, ha, ha1, ha2⟩ := far i hi
  obtain ⟨b, hb, hb1, hb2⟩ := far j hj
  by_cases hi3 : i = 199 ∨ i = 200 ∨ i = 201
  · by_cases hj3 : j = 199 ∨ j = 200 ∨ j = 201
    · have := sedov_close (i - 199) (by omega) (j - 199) (by omega)
      rw [show 199 + (i - 199) = i by omega, show 199 + (j - 199) = j by omega] at this
      rw [this, decide_eq_decide]
      omega
    · have hf : 1 / 1024 ≤ b := by
        rcases hb2 with h | h | h | h
        · exact absurd (Or.inl h) hj3
        · exact absurd (Or.inr (Or.inl h)) hj3
        · exact absurd (Or.inr (Or.inr h)) hj3
        · exact h
      have hl : 1 / 2 ^ 20 ≤ b := le_trans (by norm_num) hf
      have hnn := ha.nonneg
      rw [decide_eq_false (by omega)]
      have e : (nodeSq i).add (nodeSq j) = (nodeSq j).add (nodeSq i) := by
        obtain ⟨m, h1, h2⟩ := Ieee.add_hasVal ha hb (low_bound (by linarith)) (by linarith)
        obtain ⟨m', h1', h2'⟩ := Ieee.add_hasVal hb ha (low_bound (by linarith)) (by linarith)
        rw [h1, h1', Subtype.ext (h2.trans ((congrArg roundDouble (add_comm a b)).trans h2'.symm))]
      unfold hot
      rw [e]
      exact Ieee.far_square hb ha hf (by linarith)
  · have hf : 1 / 1024 ≤ a := by
      rcases ha2 with h | h | h | h
      · exact absurd (Or.inl h) hi3
      · exact absurd (Or.inr (Or.inl h)) hi3
      · exact absurd (Or.inr (Or.inr h)) hi3
      · exact h
    rw [decide_eq_false (by omega)]
    exact Ieee.far_square ha hb hf (by linarith)

/-- The box of inputs/sedov2d.ini; the third direction has the default limits of src/utils/param.cpp 31-32. -/
def sedovMin : Fin 3 → Ieee := ![.lit (-5), .lit (-5), .zero]
def sedovMax : Fin 3 → Ieee := ![.lit 5, .lit 5, .lit 1]

/-- The volume of a cell of inputs/sedov2d.ini. -/
def sedovVolume (C : Cell) : Ieee :=
  ((bSize 400 (.lit (-5)) (.lit 5) (C 0)).mul (bSize 400 (.lit (-5)) (.lit 5) (C 1))).mul (bSize 1 .zero (.lit 1) (C 2))

/-- **C92, the explosion.** What the code writes for inputs/sedov2d.ini, on every process grid and for all values of the other parameters and
every equation of state: the energy `E1` is put in three cells, `(199, 200)`, `(200, 199)` and `(200, 200)`, and `E0` in the others. -/
theorem C92_sedov2d (rho0 u0 E0 E1 : Ieee) {ng : ℤ} (hng : 0 ≤ ng) :
    StartsAs (bKernels 2 lim sol eos fix) (sedov2dBits eos rho0 u0 E0 E1) ![400, 400, 1] ng sedovMin sedovMax
      (fun C => ⟨rho0, fun _ => u0, eos.presFromEvol rho0
        ((if (C 0 = 199 ∧ C 1 = 200) ∨ (C 0 = 200 ∧ C 1 = 199) ∨ (C 0 = 200 ∧ C 1 = 200) then E1 else E0).div (sedovVolume C))⟩) := by
  refine startsAs_of (by decide) hng (fun x _ dv => ⟨rho0, fun _ => u0, eos.presFromEvol rho0
    (if (((x 0).mul (x 0)).add ((x 1).mul (x 1))).sqrt.ltb (.lit (25 / 1000)) then E1.div dv else E0.div dv)⟩) ?_ ?_
  · intro g c x xc dv h _ h'
    unfold sedov2dBits
    rw [h 0, h 1, h']
    rfl
  · intro C hC
    obtain ⟨i, hi⟩ := Int.eq_ofNat_of_zero_le (hC 0).1
    obtain ⟨j, hj⟩ := Int.eq_ofNat_of_zero_le (hC 1).1
    have hi4 : C 0 < 400 := (hC 0).2
    have hj4 : C 1 < 400 := (hC 1).2
    have hb := hot_eq (i := i) (j := j) (by omega) (by omega)
    unfold hot nodeSq at hb
    rw [← sedov_node, ← sedov_node] at hb
    show (⟨rho0, fun _ => u0, eos.presFromEvol rho0
      (if (((bNode 400 (.lit (-5)) (.lit 5) (C 0)).mul (bNode 400 (.lit (-5)) (.lit 5) (C 0))).add
        ((bNode 400 (.lit (-5)) (.lit 5) (C 1)).mul (bNode 400 (.lit (-5)) (.lit 5) (C 1)))).sqrt.ltb (.lit (25 / 1000)) = true
        then E1.div (sedovVolume C) else E0.div (sedovVolume C))⟩ : Prim 2 Ieee) = _
    congr 2
    rw [hi, hj, hb, apply_ite (fun e : Ieee => e.div (sedovVolume C))]
    simp only [decide_eq_true_eq]
    refine if_congr ?_ rfl rfl
    omega

/-- The rule of the setup in exact arithmetic: the energy `E1` goes to the cells whose lower left node is closer to the origin than 0.025. -/
def exactSedov2d (eos : EoS Ieee) (rho0 u0 E0 E1 : Ieee) (C : Cell) : Prim 2 Ieee :=
  ⟨rho0, fun _ => u0, eos.presFromEvol rho0
    ((if (-5 + C 0 * (10 / 400) : ℚ) ^ 2 + (-5 + C 1 * (10 / 400)) ^ 2 < (25 / 1000) ^ 2 then E1 else E0).div (sedovVolume C))⟩

/-- In exact arithmetic this is one cell. -/
theorem exactSedov2d_one (eos : EoS Ieee) (rho0 u0 E0 E1 : Ieee) (C : Cell) : exactSedov2d eos rho0 u0 E0 E1 C =
    ⟨rho0, fun _ => u0, eos.presFromEvol rho0 ((if C 0 = 200 ∧ C 1 = 200 then E1 else E0).div (sedovVolume C))⟩ := by
  unfold exactSedov2d
  congr 3
  refine if_congr ?_ rfl rfl
  have e : (-5 + C 0 * (10 / 400) : ℚ) ^ 2 + (-5 + C 1 * (10 / 400)) ^ 2 < (25 / 1000) ^ 2 ↔ (C 0 - 200) ^ 2 + (C 1 - 200) ^ 2 < 1 := by
    have : (-5 + C 0 * (10 / 400) : ℚ) ^ 2 + (-5 + C 1 * (10 / 400)) ^ 2 = (((C 0 - 200) ^ 2 + (C 1 - 200) ^ 2 : ℤ) : ℚ) / 1600 := by
      push_cast
      ring
    rw [this, div_lt_iff₀ (by norm_num)]
    constructor
    · intro h
      have : (((C 0 - 200) ^ 2 + (C 1 - 200) ^ 2 : ℤ) : ℚ) < (1 : ℤ) := lt_of_lt_of_eq h (by norm_num)
      exact_mod_cast this
    · intro h
      have : (((C 0 - 200) ^ 2 + (C 1 - 200) ^ 2 : ℤ) : ℚ) < (1 : ℤ) := by exact_mod_cast h
      exact lt_of_lt_of_eq this (by norm_num)
  rw [e]
  constructor
  · intro h
    have h0 := sq_nonneg (C 0 - 200)
    have h1 := sq_nonneg (C 1 - 200)
    have := pow_eq_zero_iff (two_ne_zero) |>.1 (show (C 0 - 200) ^ 2 = 0 by omega)
    have := pow_eq_zero_iff (two_ne_zero) |>.1 (show (C 1 - 200) ^ 2 = 0 by omega)
    omega
  · rintro ⟨h1, h2⟩
    rw [h1, h2]
    norm_num

/-- The gas of inputs/sedov2d.ini: the defaults `gamma = 5. / 3`, `mu = 1.` of src/utils/param.cpp 60-61. -/
def monatomicGas : EoS Ieee :=
  letI := ieeeArith noTrig
  let gamma := (Ieee.lit 5).div (.lit 3)
  oPerfectGas Ieee.sqrt (.lit (1380649 / 10 ^ 29)) (.lit (1672649 / 10 ^ 33)) gamma (gamma.sub (.lit 1)) (.lit 1)

/-- **C92, the explosion, violated.** With the values of inputs/sedov2d.ini the state is not the one of the rule of the setup: the energy
`E1` goes to three cells instead of one. -/
theorem C92_sedov2d_violated {ng : ℤ} (hng : 0 ≤ ng) :
    ¬ StartsAs (bKernels 2 lim sol monatomicGas fix) (sedov2dBits monatomicGas (.lit 1) .zero (.lit (1 / 10 ^ 12)) (.lit (10 ^ 5))) ![400, 400, 1] ng
      sedovMin sedovMax (exactSedov2d monatomicGas (.lit 1) .zero (.lit (1 / 10 ^ 12)) (.lit (10 ^ 5))) := by
  intro h
  have h1 := h.unique (by decide) hng (C92_sedov2d (.lit 1) .zero (.lit (1 / 10 ^ 12)) (.lit (10 ^ 5)) hng) (C := ![199, 200, 0])
    (by intro a; fin_cases a <;> decide)
  have h2 := congrArg Prim.P h1
  revert h2
  rw [exactSedov2d_one]
  show ¬ _
  decide +kernel

/-! ### The shock tube and the advected gap -/

/-- The length of the cells of a tube of length 1 with 100 cells, in binary. -/
def tubeDx : Ieee := .fin false ⟨5764607523034235 / 2 ^ 59, 5764607523034235, -59, by norm_num, by norm_num, by norm_num, by norm_num⟩

theorem tube_dx : @oLength Ieee (ieeeArith noTrig) 100 .zero (.lit 1) = tubeDx := by decide +kernel

theorem tube_center (i : ℕ) : bCenter 100 .zero (.lit 1) i = centerFrom tubeDx i := by
  unfold bCenter bNode centerFrom
  rw [tube_dx]

theorem shockTube_side : ∀ i < 100, (centerFrom tubeDx i).leb (.lit (5 / 10)) = decide (i < 50) := by decide +kernel

theorem advectionGap_side : ∀ i < 100, ((centerFrom tubeDx i).leb (.lit (3 / 10)) || (Ieee.lit (7 / 10)).leb (centerFrom tubeDx i)) =
    decide (i < 30 ∨ 70 ≤ i) := by decide +kernel

/-- **C92, the shock tube.** For inputs/shock_tube.ini the state in double precision is the one of the rule of the setup in exact arithmetic,
`x ≤ 0.5` at the centre `x` of the cell, on every process grid. -/
theorem C92_shock_tube (rho0 rho1 u0 u1 P0 P1 : Ieee) {ng : ℤ} (hng : 0 ≤ ng) :
    StartsAs (bKernels 1 lim sol eos fix) (shockTubeBits rho0 rho1 u0 u1 P0 P1 (.lit (5 / 10))) ![100, 1, 1] ng (fun _ => .zero) (fun _ => .lit 1)
      (fun C => if ((C 0 + 1 / 2) * (1 / 100) : ℚ) ≤ 5 / 10 then ⟨rho0, fun _ => u0, P0⟩ else ⟨rho1, fun _ => u1, P1⟩) := by
  refine startsAs_of (by decide) hng (fun _ xc _ => if (xc 0).leb (.lit (5 / 10)) then ⟨rho0, fun _ => u0, P0⟩
    else ⟨rho1, fun _ => u1, P1⟩) ?_ ?_
  · intro g c x xc dv _ h _
    unfold shockTubeBits
    rw [h 0]
    simp only [Option.bind_eq_bind, Option.bind_some]
    split <;> rfl
  · intro C hC
    obtain ⟨i, hi⟩ := Int.eq_ofNat_of_zero_le (hC 0).1
    have hi4 : C 0 < 100 := (hC 0).2
    have hb := shockTube_side i (by omega)
    rw [← tube_center] at hb
    show (if (bCenter 100 .zero (.lit 1) (C 0)).leb (.lit (5 / 10)) = true then _ else _) = _
    rw [hi, hb]
    simp only [decide_eq_true_eq]
    refine if_congr ?_ rfl rfl
    constructor
    · intro h
      have : (i : ℚ) ≤ 49 := by exact_mod_cast Nat.lt_succ_iff.1 h
      push_cast
      linarith
    · intro h
      have : (i : ℚ) < 50 := by push_cast at h; linarith
      exact_mod_cast this

/-- **C92, the advected gap.** For inputs/advection_gap.ini the state in double precision is the one of the rule of the setup in exact
arithmetic, `x ≤ 0.3` or `x ≥ 0.7` at the centre `x` of the cell, on every process grid. -/
theorem C92_advection_gap (rho0 rho1 u0 P0 : Ieee) {ng : ℤ} (hng : 0 ≤ ng) :
    StartsAs (bKernels 1 lim sol eos fix) (advectionGapBits rho0 rho1 u0 P0) ![100, 1, 1] ng (fun _ => .zero) (fun _ => .lit 1)
      (fun C => ⟨if ((C 0 + 1 / 2) * (1 / 100) : ℚ) ≤ 3 / 10 ∨ 7 / 10 ≤ ((C 0 + 1 / 2) * (1 / 100) : ℚ) then rho0 else rho1, fun _ => u0, P0⟩) := by
  refine startsAs_of (by decide) hng (fun _ xc _ => ⟨if (xc 0).leb (.lit (3 / 10)) || (Ieee.lit (7 / 10)).leb (xc 0) then rho0 else rho1,
    fun _ => u0, P0⟩) ?_ ?_
  · intro g c x xc dv _ h _
    unfold advectionGapBits
    rw [h 0]
    rfl
  · intro C hC
    obtain ⟨i, hi⟩ := Int.eq_ofNat_of_zero_le (hC 0).1
    have hi4 : C 0 < 100 := (hC 0).2
    have hb := advectionGap_side i (by omega)
    rw [← tube_center] at hb
    show (⟨if ((bCenter 100 .zero (.lit 1) (C 0)).leb (.lit (3 / 10)) || (Ieee.lit (7 / 10)).leb (bCenter 100 .zero (.lit 1) (C 0))) = true
      then rho0 else rho1, fun _ => u0, P0⟩ : Prim 1 Ieee) = _
    rw [hi, hb]
    simp only [decide_eq_true_eq]
    congr 1
    refine if_congr ?_ rfl rfl
    constructor
    · rintro (h | h)
      · have : (i : ℚ) ≤ 29 := by exact_mod_cast Nat.lt_succ_iff.1 h
        left
        push_cast
        linarith
      · have : (70 : ℚ) ≤ i := by exact_mod_cast h
        right
        push_cast
        linarith
    · rintro (h | h)
      · have : (i : ℚ) < 30 := by push_cast at h; linarith
        left
        exact_mod_cast this
      · have : (69 : ℚ) < i := by push_cast at h; linarith
        right
        exact_mod_cast this

/-- The hypotheses of `StartsAs` are met: every rank of a process grid has a grid of its own. -/
example : ∃ topo g r, BitsGrid (bKernels 2 .minmod .hllc monatomicGas none) ![400, 400, 1] ![2, 2, 1] 2 sedovMin sedovMax ![1, 0, 0] topo g ∧
    topo.range.noGhosts = .ok r :=
  exists_bitsGrid _ (by decide) (by decide) (by norm_num) (by intro a; fin_cases a <;> decide) _ _

end Heracles
