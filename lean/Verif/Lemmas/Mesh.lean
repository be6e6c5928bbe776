import Verif.Model.Mesh
import Verif.Lemmas.Kokkos
import Mathlib.Tactic.Ring
import Mathlib.Tactic.Linarith

namespace Heracles

theorem localStart_eq {N d r : ℤ} (hN : 0 ≤ N) (_hd : 0 < d) :
    localStart N d r = N / d * r + min r (N % d) := by
  unfold localStart
  rw [Int.tdiv_eq_ediv_of_nonneg hN, Int.tmod_eq_emod_of_nonneg hN]
  simp only
  split
  · rw [min_eq_left (by omega)]
  · rw [min_eq_right (by omega)]

theorem localSize_eq {N d r : ℤ} (hN : 0 ≤ N) (_hd : 0 < d) :
    localSize N d r = N / d + if r < N % d then 1 else 0 := by
  unfold localSize
  rw [Int.tdiv_eq_ediv_of_nonneg hN, Int.tmod_eq_emod_of_nonneg hN]
  simp only
  split <;> simp

theorem localSize_nonneg {N d r : ℤ} (hN : 0 ≤ N) (hd : 0 < d) : 0 ≤ localSize N d r := by
  rw [localSize_eq hN hd]
  have := Int.ediv_nonneg hN hd.le
  split <;> omega

theorem localStart_nonneg {N d r : ℤ} (hN : 0 ≤ N) (hd : 0 < d) (hr : 0 ≤ r) :
    0 ≤ localStart N d r := by
  rw [localStart_eq hN hd]
  have h1 := Int.ediv_nonneg hN hd.le
  have h2 := Int.emod_nonneg N hd.ne'
  have h3 := mul_nonneg h1 hr
  have := le_min hr h2
  omega

theorem localStart_succ {N d r : ℤ} (hN : 0 ≤ N) (hd : 0 < d) :
    localStart N d (r + 1) = localStart N d r + localSize N d r := by
  rw [localStart_eq hN hd, localStart_eq hN hd, localSize_eq hN hd]
  rw [mul_add, mul_one]
  split <;> omega

theorem localStart_zero {N d : ℤ} (hN : 0 ≤ N) (hd : 0 < d) : localStart N d 0 = 0 := by
  rw [localStart_eq hN hd]
  have := Int.emod_nonneg N hd.ne'
  simp [this]

theorem localStart_top {N d : ℤ} (hN : 0 ≤ N) (hd : 0 < d) : localStart N d d = N := by
  rw [localStart_eq hN hd, min_eq_right (Int.emod_lt_of_pos N hd).le]
  have := Int.mul_ediv_add_emod N d
  rw [mul_comm]; exact this

theorem localStart_mono_nat {N d r : ℤ} (hN : 0 ≤ N) (hd : 0 < d) (n : ℕ) :
    localStart N d r ≤ localStart N d (r + n) := by
  induction n with
  | zero => simp
  | succ n ih =>
    have := localStart_succ (r := r + n) hN hd
    have h2 := localSize_nonneg (r := r + n) hN hd
    push_cast
    rw [← add_assoc]
    omega

theorem localStart_mono {N d r s : ℤ} (hN : 0 ≤ N) (hd : 0 < d) (h : r ≤ s) :
    localStart N d r ≤ localStart N d s := by
  have := localStart_mono_nat (r := r) hN hd (s - r).toNat
  have e : r + ((s - r).toNat : ℤ) = s := by omega
  rwa [e] at this

theorem exists_owner_aux {N d c : ℤ} (hN : 0 ≤ N) (hd : 0 < d) (hc : 0 ≤ c) (n : ℕ)
    (hn : c < localStart N d n) :
    ∃ r : ℤ, 0 ≤ r ∧ r < n ∧ localStart N d r ≤ c ∧ c < localStart N d r + localSize N d r := by
  induction n with
  | zero =>
    rw [Nat.cast_zero, localStart_zero hN hd] at hn
    omega
  | succ n ih =>
    by_cases h : c < localStart N d n
    · obtain ⟨r, h1, h2, h3⟩ := ih h
      exact ⟨r, h1, by push_cast; omega, h3⟩
    · refine ⟨n, by omega, by push_cast; omega, by omega, ?_⟩
      rw [← localStart_succ hN hd]
      exact_mod_cast hn

theorem exists_owner {N d c : ℤ} (hN : 0 ≤ N) (hd : 0 < d) (hc : 0 ≤ c) (hcN : c < N) :
    ∃ r : ℤ, 0 ≤ r ∧ r < d ∧ localStart N d r ≤ c ∧ c < localStart N d r + localSize N d r := by
  have e : ((d.toNat : ℕ) : ℤ) = d := by omega
  have := exists_owner_aux hN hd hc d.toNat (by rw [e, localStart_top hN hd]; exact hcN)
  rwa [e] at this

theorem owner_unique {N d c r s : ℤ} (hN : 0 ≤ N) (hd : 0 < d)
    (hr : localStart N d r ≤ c ∧ c < localStart N d r + localSize N d r)
    (hs : localStart N d s ≤ c ∧ c < localStart N d s + localSize N d s) : r = s := by
  rw [← localStart_succ hN hd] at hr hs
  by_contra h
  rcases lt_or_gt_of_ne h with h | h
  · have := localStart_mono (r := r + 1) (s := s) hN hd (by omega)
    omega
  · have := localStart_mono (r := s + 1) (s := r) hN hd (by omega)
    omega

theorem localStart_add_size_le {N d r : ℤ} (hN : 0 ≤ N) (hd : 0 < d) (hr : r < d) :
    localStart N d r + localSize N d r ≤ N := by
  rw [← localStart_succ hN hd]
  have := localStart_mono (r := r + 1) (s := d) hN hd (by omega)
  rwa [localStart_top hN hd] at this

theorem check_ok_iff {cmin cmax : Cell} :
    Range.check cmin cmax = .ok () ↔ ∀ a, 0 ≤ cmin a ∧ cmin a ≤ cmax a := by
  have h3 : (List.finRange 3) = [0, 1, 2] := by decide
  simp only [Range.check, h3]
  constructor
  · intro h
    have key : ∀ a : Fin 3, a = 0 ∨ a = 1 ∨ a = 2 := by decide
    by_cases h0 : cmin 0 < 0 ∨ cmax 0 < 0
    · simp [h0, bind, Except.bind] at h
    by_cases h0' : cmin 0 > cmax 0
    · simp [h0, h0', bind, Except.bind] at h
    by_cases h1 : cmin 1 < 0 ∨ cmax 1 < 0
    · simp [h0, h0', h1, bind, Except.bind] at h
    by_cases h1' : cmin 1 > cmax 1
    · simp [h0, h0', h1, h1', bind, Except.bind] at h
    by_cases h2 : cmin 2 < 0 ∨ cmax 2 < 0
    · simp [h0, h0', h1, h1', h2, bind, Except.bind] at h
    by_cases h2' : cmin 2 > cmax 2
    · simp [h0, h0', h1, h1', h2, h2', bind, Except.bind] at h
    intro a
    rcases key a with rfl | rfl | rfl <;> omega
  · intro h
    have hf : (fun idim : Fin 3 => if cmin idim < 0 ∨ cmax idim < 0 then
        (Except.error "Cmin < 0 || Cmax < 0" : Except String Unit)
        else if cmin idim > cmax idim then .error "Cmin > Cmax" else .ok ()) = fun _ => .ok () := by
      funext a
      have := h a
      rw [if_neg (by omega), if_neg (by omega)]
    rw [hf]
    rfl

theorem Range.mk?_ok {ndim : ℕ} {cmin cmax : Cell} {ng : ℤ} (h : ∀ a, 0 ≤ cmin a ∧ cmin a ≤ cmax a) :
    ∃ r, Range.mk? ndim cmin cmax ng = .ok r ∧ r.cornerMin = cmin ∧ r.cornerMax = cmax ∧ r.ng = ng ∧
      r.ngEff = 0 ∧ r.nghost = fun a => if a.val < ndim then ng else 0 := by
  unfold Range.mk?
  rw [check_ok_iff.mpr h]
  exact ⟨_, rfl, rfl, rfl, rfl, rfl, rfl⟩

theorem Range.mk?_error {ndim : ℕ} {cmin cmax : Cell} {ng : ℤ} (h : ¬ ∀ a, 0 ≤ cmin a ∧ cmin a ≤ cmax a) :
    ∃ e, Range.mk? ndim cmin cmax ng = .error e := by
  unfold Range.mk?
  cases hc : Range.check cmin cmax with
  | ok u => exact absurd (check_ok_iff.mp hc) h
  | error e => exact ⟨e, rfl⟩

/-- The decomposition as an explicit record (all ranks, valid sizes). -/
theorem GridTopo.mk?_ok {ndim : ℕ} {nx dims rank : Cell} {ng : ℤ}
    (hN : ∀ a, 0 ≤ nx a) (hd : ∀ a, 0 < dims a) (hr : ∀ a, 0 ≤ rank a) :
    ∃ g, GridTopo.mk? ndim nx dims rank ng = .ok g ∧
      g.range.cornerMin = (fun a => localStart (nx a) (dims a) (rank a)) ∧
      g.range.cornerMax = (fun a => localStart (nx a) (dims a) (rank a) + localSize (nx a) (dims a) (rank a)) ∧
      g.nxLocal = (fun a => localSize (nx a) (dims a) (rank a)) ∧
      g.nghost = (fun a => if a.val < ndim then ng else 0) ∧
      g.nxLocalWg = (fun a => localSize (nx a) (dims a) (rank a) + 2 * (if a.val < ndim then ng else 0)) ∧
      g.isBorder = (fun a f => if f = 0 then decide (rank a = 0) else decide (rank a = dims a - 1)) ∧
      g.rankCart = rank ∧ g.dimsCart = dims ∧ g.nxGlob = nx ∧ g.ng = ng ∧ g.range.ng = ng ∧
      g.range.ngEff = 0 ∧ g.range.nghost = (fun a => if a.val < ndim then ng else 0) := by
  obtain ⟨r, h1, h2, h3, h4, h5, h6⟩ := Range.mk?_ok (ndim := ndim) (ng := ng)
    (cmin := fun a => localStart (nx a) (dims a) (rank a))
    (cmax := fun a => localStart (nx a) (dims a) (rank a) + localSize (nx a) (dims a) (rank a))
    (fun a => ⟨localStart_nonneg (hN a) (hd a) (hr a), by
      have := localSize_nonneg (r := rank a) (hN a) (hd a); omega⟩)
  unfold GridTopo.mk?
  simp only [h1]
  exact ⟨_, rfl, h2, h3, rfl, rfl, rfl, rfl, rfl, rfl, rfl, rfl, h4, h5, h6⟩

end Heracles
