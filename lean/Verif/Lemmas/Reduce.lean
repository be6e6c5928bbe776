import Verif.Model.Reduce
import Verif.Lemmas.Scheme

/-!
# Reductions do not depend on the distribution of the work
-/

namespace Heracles

variable {d : ℕ} {K ι F R : Type}

theorem mapM_some {α β : Type} (l : List α) {f : α → Option β} {g : α → β} (h : ∀ x ∈ l, f x = some (g x)) :
    l.mapM f = some (l.map g) := by
  induction l with
  | nil => rfl
  | cons x l ih =>
    rw [List.mapM_cons, h x (by simp), ih (fun y hy => h y (by simp [hy]))]
    rfl

theorem parFor_fold (l : List ι) {f : ι → Option K} {g : ι → K} {op : F → K → F} (h : ∀ i ∈ l, f i = some (g i)) (s : F) :
    parFor l (fun i s => do let x ← f i; return op s x) s = some (l.foldl (fun s i => op s (g i)) s) := by
  induction l generalizing s with
  | nil => rfl
  | cons i l ih =>
    rw [parFor_cons, h i (by simp)]
    exact ih (fun j hj => h j (by simp [hj])) _

theorem parReduce_eq {e : F} {join : F → F → F} {op : F → K → F} {parts : List (List ι)} {f : ι → Option K} {g : ι → K}
    (h : ∀ i ∈ parts.flatten, f i = some (g i)) :
    parReduce e join parts (fun i s => do let x ← f i; return op s x) =
      some ((parts.map fun l => l.foldl (fun s i => op s (g i)) e).foldl join e) := by
  unfold parReduce
  rw [mapM_some parts (fun l hl => parFor_fold l (fun i hi => h i (List.mem_flatten.2 ⟨l, hl, hi⟩)) e)]
  rfl

section Order
variable [LinearOrder K]

theorem kmax_eq (a b : K) : kmax a b = max a b := by
  unfold kmax
  split
  · rename_i h; rw [max_eq_right h.le]
  · rename_i h; rw [max_eq_left (not_lt.1 h)]

theorem foldl_max (l : List ι) (g : ι → K) (e : K) :
    let r := l.foldl (fun s i => kmax s (g i)) e
    e ≤ r ∧ (∀ i ∈ l, g i ≤ r) ∧ (r = e ∨ ∃ i ∈ l, r = g i) := by
  induction l generalizing e with
  | nil => exact ⟨le_rfl, by simp, Or.inl rfl⟩
  | cons i l ih =>
    obtain ⟨h1, h2, h3⟩ := ih (kmax e (g i))
    simp only [List.foldl_cons]
    rw [kmax_eq] at h1 h2 h3 ⊢
    refine ⟨(le_max_left _ _).trans h1, fun j hj => ?_, ?_⟩
    · rcases List.mem_cons.1 hj with rfl | hj
      · exact (le_max_right _ _).trans h1
      · exact h2 j hj
    · rcases h3 with h | ⟨j, hj, h⟩
      · rcases le_total e (g i) with h' | h'
        · right; exact ⟨i, by simp, by rw [h, max_eq_right h']⟩
        · left; rw [h, max_eq_left h']
      · exact Or.inr ⟨j, by simp [hj], h⟩

/-- A maximum reduction: the result is at least every value, and one of them (or the identity). -/
theorem parReduce_max {e : K} {parts : List (List ι)} (g : ι → K) :
    let r := (parts.map fun l => l.foldl (fun s i => kmax s (g i)) e).foldl kmax e
    e ≤ r ∧ (∀ i ∈ parts.flatten, g i ≤ r) ∧ (r = e ∨ ∃ i ∈ parts.flatten, r = g i) := by
  have key := foldl_max (parts.map fun l => l.foldl (fun s i => kmax s (g i)) e) id e
  simp only [id] at key
  obtain ⟨h1, h2, h3⟩ := key
  refine ⟨h1, fun i hi => ?_, ?_⟩
  · obtain ⟨l, hl, hil⟩ := List.mem_flatten.1 hi
    exact ((foldl_max l g e).2.1 i hil).trans (h2 _ (List.mem_map.2 ⟨l, hl, rfl⟩))
  · rcases h3 with h | ⟨x, hx, h⟩
    · exact Or.inl h
    · obtain ⟨l, hl, rfl⟩ := List.mem_map.1 hx
      rcases (foldl_max l g e).2.2 with h' | ⟨i, hi, h'⟩
      · exact Or.inl (h.trans h')
      · exact Or.inr ⟨i, List.mem_flatten.2 ⟨l, hl, hi⟩, h.trans h'⟩

end Order

section Sum
variable [AddCommMonoid K]

theorem foldl_add (l : List ι) (g : ι → K) (e : K) : l.foldl (fun s i => s + g i) e = e + (l.map g).sum := by
  induction l generalizing e with
  | nil => simp
  | cons i l ih => rw [List.foldl_cons, ih, List.map_cons, List.sum_cons, add_assoc]

theorem parReduce_sum {parts : List (List ι)} (g : ι → K) :
    (parts.map fun l => l.foldl (fun s i => s + g i) 0).foldl (· + ·) 0 = (parts.flatten.map g).sum := by
  have := foldl_add (parts.map fun l => l.foldl (fun s i => s + g i) 0) id (0 : K)
  simp only [id] at this
  rw [this, zero_add, List.map_id]
  clear this
  induction parts with
  | nil => rfl
  | cons l parts ih =>
    rw [List.map_cons, List.sum_cons, ih, List.flatten_cons, List.map_append, List.sum_append, foldl_add, zero_add]

theorem schedule_sum {l : List Cell} {b e : Cell} (h : IsSchedule l b e) (g : Cell → K) :
    (l.map g).sum = ∑ c ∈ Fintype.piFinset (fun i => Finset.Ico (b i) (e i)), g c := by
  have : Fintype.piFinset (fun i => Finset.Ico (b i) (e i)) = l.toFinset := by
    ext c
    rw [List.mem_toFinset, h.2]
    simp [Fintype.mem_piFinset, inBox]
  rw [this, List.sum_toFinset g h.1]

end Sum

section
variable [Field K] [LinearOrder K]

/-- Value of `cell_inverse_dt` in terms of plain functions. -/
theorem cellInverseDt_eq (eos : EoS K) (tr : Trig K) (geom : Geom) {g : GridData K} {ext : Cell} {dx xc : Fin 3 → ℤ → K}
    (hdx : ∀ a, g.dx a = View.line (ext a) (dx a)) (hxc : ∀ a, g.xc a = View.line (ext a) (xc a)) (rho : Cell → K)
    (up : Cell → VelPres d K) {c : Cell} (hc : inExt ext c = true) :
    cellInverseDt eos tr geom g ⟨inExt ext, rho⟩ ⟨inExt ext, up⟩ c =
      some (∑ a : Fin d, (|(up c).u a| + eos.sound (rho c) (up c).P) /
        dxGeom tr geom d ![dx 0 (c 0), dx 1 (c 1), dx 2 (c 2)] (xc 0 (c 0)) (xc 1 (c 1)) (ax a)) := by
  have h := inExt_iff.1 hc
  unfold cellInverseDt
  rw [ext_rd hc, ext_rd hc, hdx, hdx, hdx, hxc, hxc, line_rd (h 0).1 (h 0).2, line_rd (h 1).1 (h 1).2, line_rd (h 2).1 (h 2).2,
    line_rd (h 0).1 (h 0).2, line_rd (h 1).1 (h 1).2]
  rfl

end

end Heracles
