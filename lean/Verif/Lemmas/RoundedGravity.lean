import Verif.Model.RoundedGravity
import Verif.Lemmas.RestartBits
import Verif.Props.Gravity

/-!
# Sums over processes and threads with open arithmetic: what is computed, and rounding errors
-/

namespace Heracles

open Arith

namespace JoinTree
variable {ι κ F : Type}

/-- The joined value when all contributions are defined. -/
def fold (op : F → F → F) (f : ι → F) : JoinTree ι → F
  | leaf i => f i
  | node l r => op (l.fold op f) (r.fold op f)

theorem leaves_ne_nil (t : JoinTree ι) : t.leaves ≠ [] := by
  induction t with
  | leaf => simp [leaves]
  | node a b ha hb => simp [leaves, ha]

/-- The same tree of other contributions. -/
def map (f : ι → κ) : JoinTree ι → JoinTree κ
  | leaf i => leaf (f i)
  | node l r => node (l.map f) (r.map f)

theorem reduce_some {op : F → F → F} {f : ι → Option F} {g : ι → F} (t : JoinTree ι) (h : ∀ i ∈ t.leaves, f i = some (g i)) :
    t.reduce op f = some (t.fold op g) := by
  induction t with
  | leaf i => exact h i (by simp [leaves])
  | node l r hl hr =>
    unfold reduce
    rw [hl fun i hi => h i (by simp [leaves, hi]), hr fun i hi => h i (by simp [leaves, hi])]
    rfl

theorem reduce_map {op : F → F → F} {f : κ → Option F} (g : ι → κ) (t : JoinTree ι) :
    (t.map g).reduce op f = t.reduce op fun i => f (g i) := by
  induction t with
  | leaf i => rfl
  | node l r hl hr => unfold map reduce; rw [hl, hr]

theorem fold_comp {G : Type} {op : F → F → F} {op' : G → G → G} (φ : F → G) (hφ : ∀ x y, φ (op x y) = op' (φ x) (φ y)) (f : ι → F)
    (t : JoinTree ι) : φ (t.fold op f) = t.fold op' fun i => φ (f i) := by
  induction t with
  | leaf i => rfl
  | node l r hl hr => unfold fold; rw [hφ, hl, hr]

theorem near_fold {rnd : ℚ → ℚ} (hr : Nearest rnd) {m : ℕ} {f S : ι → ℚ} (t : JoinTree ι) (h : ∀ i ∈ t.leaves, Near m (S i) (f i)) :
    Near (m + t.depth) (t.leaves.map S).sum (t.fold (fun x y => rnd (x + y)) f) := by
  induction t with
  | leaf i => simpa [leaves, depth, fold] using h i (by simp [leaves])
  | node l r hl hr' =>
    have h1 := (hl fun i hi => h i (by simp [leaves, hi])).mono (l := m + max l.depth r.depth) (by omega)
    have h2 := (hr' fun i hi => h i (by simp [leaves, hi])).mono (l := m + max l.depth r.depth) (by omega)
    have := (h1.add h2).rnd_pos hr
    unfold leaves depth fold
    rw [List.map_append, List.sum_append]
    exact this

end JoinTree

section Values
variable {F : Type} [Arith F]

/-- A worker. -/
theorem parFor_worker {ι S : Type} (l : List ι) {body : ι → S → Option S} {g : ι → S → S} (h : ∀ i ∈ l, ∀ s, body i s = some (g i s)) (s : S) :
    parFor l body s = some (l.foldl (fun s i => g i s) s) := by
  induction l generalizing s with
  | nil => rfl
  | cons i l ih =>
    rw [parFor_cons, h i (by simp), Option.bind_some, ih fun j hj => h j (by simp [hj])]
    rfl

/-- The two sums of one worker. -/
def workerSum (f w : Cell → F) (l : List Cell) : F × F :=
  (l.foldl (fun s c => s + f c * w c) 0, l.foldl (fun s c => s + w c) 0)

theorem workerSum_eq (f w : Cell → F) (l : List Cell) (s : F × F) :
    l.foldl (fun s c => (s.1 + f c * w c, s.2 + w c)) s = (l.foldl (fun s c => s + f c * w c) s.1, l.foldl (fun s c => s + w c) s.2) := by
  induction l generalizing s with
  | nil => rfl
  | cons c l ih => simp only [List.foldl_cons]; rw [ih]

theorem oShellSum_eq (nghost : Cell) (r : OShellRank F) (i : ℤ) (f w : Cell → F)
    (hr : ∀ l ∈ (r.parts i).leaves, ∀ c ∈ l,
      r.rho.rd ![i + nghost 0, c 1 + nghost 1, c 2 + nghost 2] = some (f c) ∧
      r.dv.rd ![i + nghost 0, c 1 + nghost 1, c 2 + nghost 2] = some (w c)) :
    oShellSum nghost r i = some ((r.parts i).fold (fun s t => (s.1 + t.1, s.2 + t.2)) (workerSum f w)) := by
  refine JoinTree.reduce_some _ fun l hl => ?_
  rw [parFor_worker l (g := fun c s => (s.1 + f c * w c, s.2 + w c)) fun c hc s => ?_]
  · rw [workerSum_eq]; rfl
  · obtain ⟨a, b⟩ := hr l hl c hc
    simp only [a, b]
    rfl

theorem oShellSums_eq (nghost : Cell) (n : ℤ) (r : OShellRank F) (S : ℤ → F × F)
    (h : ∀ i, 0 ≤ i → i < n → oShellSum nghost r i = some (S i)) :
    oShellSums nghost n r = some (View.line n fun i => if 0 ≤ i ∧ i < n then S i else (0, 0)) := by
  unfold oShellSums
  rw [parFor_update (intRange 0 n) (intRange_nodup 0 n) _ _ S fun i hi w hw _ => ?_]
  · congr 1
    refine View.ext' rfl (funext fun i => ?_)
    simp only [mem_intRange, View.line]
  · rw [mem_intRange] at hi
    rw [h i hi.1 hi.2]
    exact View.wr_of_dom (by rw [hw]; exact line_dom hi.1 hi.2)

theorem oShellTotals_eq (nghost : Cell) (n : ℤ) (t : JoinTree Cell) (sr : Cell → OShellRank F) (S : Cell → ℤ → F × F)
    (h : ∀ r ∈ t.leaves, ∀ i, 0 ≤ i → i < n → oShellSum nghost (sr r) i = some (S r i)) :
    ∃ tot, oShellTotals nghost n (t.map sr) = some (View.line n tot) ∧
      ∀ i, 0 ≤ i → i < n → tot i = t.fold (fun x y => (x.1 + y.1, x.2 + y.2)) fun r => S r i := by
  unfold oShellTotals
  rw [JoinTree.reduce_map, JoinTree.reduce_some (g := fun r => View.line n fun i => if 0 ≤ i ∧ i < n then S r i else (0, 0)) t
    fun r hr => oShellSums_eq nghost n (sr r) (S r) (h r hr)]
  refine ⟨(t.fold (fun v w => View.line n fun i => ((v.val i).1 + (w.val i).1, (v.val i).2 + (w.val i).2))
    fun r => View.line n fun i => if 0 ≤ i ∧ i < n then S r i else (0, 0)).val, ?_, fun i h0 h1 => ?_⟩
  · congr 1
    cases t <;> rfl
  · rw [JoinTree.fold_comp (fun v : View ℤ (F × F) => v.val i) (op' := fun x y => (x.1 + y.1, x.2 + y.2)) (fun _ _ => rfl)]
    congr 1
    funext r
    exact if_pos ⟨h0, h1⟩

theorem oShellMeans_eq {n : ℤ} {l : List ℤ} (hl : IsLineSchedule l n) (tot : ℤ → F × F) :
    ∃ m, oShellMeans n l (View.line n tot) = some (View.line n m) ∧ ∀ i, 0 ≤ i → i < n → m i = (tot i).1 / (tot i).2 := by
  refine ⟨fun i => if i ∈ l then (tot i).1 / (tot i).2 else (tot i).1, ?_, fun i h0 h1 => if_pos ((hl.2 i).2 ⟨h0, h1⟩)⟩
  unfold oShellMeans
  refine (parFor_update l hl.1 _ _ (fun i => (tot i).1 / (tot i).2) fun i hi w hw hwv => ?_).trans rfl
  have h := (hl.2 i).1 hi
  have hdm : w.dom i = true := by rw [hw]; exact line_dom h.1 h.2
  rw [View.rd_of_dom hdm, View.rd_of_dom (line_dom h.1 h.2), hwv i (Or.inr rfl)]
  exact View.wr_of_dom hdm

/-- What iteration `i` of the scan adds. -/
def incVal (Mc : F) (ng : ℤ) (x c m : ℤ → F) (i : ℤ) : F :=
  if i = ng then Mc + lit 4 * pi / lit 3 * (c i * c i * c i - x i * x i * x i) * m (i - ng)
  else lit 4 * pi / lit 3 * (x i * x i * x i - c (i - 1) * c (i - 1) * c (i - 1)) * m (i - ng - 1) +
    lit 4 * pi / lit 3 * (c i * c i * c i - x i * x i * x i) * m (i - ng)

/-- The final pass over a block. -/
theorem scan_final (T : ℤ → F) (inc : ℤ → Option F) (b : List ℤ) (hb : b.Nodup) (hT : ∀ i ∈ b, inc i = some (T i)) (a : F) (w : View ℤ F)
    (hw : ∀ i ∈ b, w.dom i = true) :
    ∃ a' w', parFor b (fun i q => do
        let t ← inc i
        let M ← q.2.wr i (q.1 + t)
        return (q.1 + t, M)) (a, w) = some (a', w') ∧ w'.dom = w.dom ∧ (∀ i, i ∉ b → w'.val i = w.val i) ∧
      ∀ u i v, b = u ++ i :: v → w'.val i = (u ++ [i]).foldl (fun s j => s + T j) a := by
  induction b generalizing a w with
  | nil => exact ⟨a, w, rfl, rfl, fun _ _ => rfl, fun u i v h => by simp at h⟩
  | cons j b ih =>
    obtain ⟨hj, hb'⟩ := List.nodup_cons.1 hb
    set w1 : View ℤ F := { w with val := Function.update w.val j (a + T j) } with hw1
    obtain ⟨a', w', e1, e2, e3, e4⟩ := ih hb' (fun i hi => hT i (by simp [hi])) (a + T j) w1 (fun i hi => hw i (by simp [hi]))
    refine ⟨a', w', ?_, e2, fun i hi => ?_, fun u i v h => ?_⟩
    · rw [parFor_cons, hT j (by simp)]
      have : w.wr j (a + T j) = some w1 := View.wr_of_dom (hw j (by simp))
      simp only [Option.bind_eq_bind, Option.bind_some, this]
      exact e1
    · rw [e3 i fun h => hi (by simp [h])]
      exact Function.update_of_ne (fun h => hi (by simp [h])) _ _
    · cases u with
      | nil =>
        simp only [List.nil_append, List.cons.injEq] at h
        obtain ⟨rfl, rfl⟩ := h
        rw [e3 j hj]
        exact Function.update_self _ _ _
      | cons k u =>
        simp only [List.cons_append, List.cons.injEq] at h
        obtain ⟨rfl, h⟩ := h
        rw [e4 u i v h]
        rfl

theorem scan_blocks (T : ℤ → F) (inc : ℤ → Option F) (L : List (List ℤ)) (hL : L.flatten.Nodup)
    (hT : ∀ i ∈ L.flatten, inc i = some (T i)) (a : F) (w : View ℤ F) (hw : ∀ i ∈ L.flatten, w.dom i = true) :
    ∃ a' w', parFor L (oScanBlock inc) (a, w) = some (a', w') ∧ w'.dom = w.dom ∧ (∀ i, i ∉ L.flatten → w'.val i = w.val i) ∧
      ∀ pre u i v post, L = pre ++ (u ++ i :: v) :: post → w'.val i = (u ++ [i]).foldl (fun s j => s + T j)
        (pre.foldl (fun s b => s + b.foldl (fun s j => s + T j) 0) a) := by
  induction L generalizing a w with
  | nil => exact ⟨a, w, rfl, rfl, fun _ _ => rfl, fun pre u i v post h => by simp at h⟩
  | cons b L ih =>
    rw [List.flatten_cons] at hL hT hw
    obtain ⟨n1, n2, n3⟩ := List.nodup_append.1 hL
    obtain ⟨a1, w1, f1, f2, f3, f4⟩ := scan_final T inc b n1 (fun i hi => hT i (by simp [hi])) a w (fun i hi => hw i (by simp [hi]))
    obtain ⟨a', w', e1, e2, e3, e4⟩ := ih n2 (fun i hi => hT i (List.mem_append_right _ hi)) (a + b.foldl (fun s j => s + T j) 0) w1
      (fun i hi => by rw [f2]; exact hw i (List.mem_append_right _ hi))
    have ftot : parFor b (fun i q => do
        let t ← inc i
        return q + t) (0 : F) = some (b.foldl (fun s j => s + T j) 0) :=
      parFor_worker b (g := fun i q => q + T i) (fun i hi s => by rw [hT i (by simp [hi])]; rfl) 0
    refine ⟨a', w', ?_, e2.trans f2, fun i hi => ?_, fun pre u i v post h => ?_⟩
    · rw [parFor_cons]
      have : oScanBlock inc b (a, w) = some (a + b.foldl (fun s j => s + T j) 0, w1) := by
        unfold oScanBlock
        rw [f1, Option.bind_eq_bind, Option.bind_some, ftot]
        rfl
      rw [this, Option.bind_some]
      exact e1
    · rw [List.flatten_cons, List.mem_append, not_or] at hi
      rw [e3 i hi.2, f3 i hi.1]
    · cases pre with
      | nil =>
        simp only [List.nil_append, List.cons.injEq] at h
        obtain ⟨rfl, rfl⟩ := h
        rw [e3 i fun hi => n3 i (by simp) i hi rfl, f4 u i v rfl]
        rfl
      | cons b' pre =>
        simp only [List.cons_append, List.cons.injEq] at h
        obtain ⟨rfl, h⟩ := h
        rw [e4 pre u i v post h]
        rfl

theorem oMassProfile_eq (Mc : F) {ng n : ℤ} (hng : 0 ≤ ng) (hn : ng ≤ n) {l : List ℤ} (hl : IsLineSchedule l ng) {blocks : List (List ℤ)}
    (hb : blocks.flatten.Nodup ∧ ∀ i, i ∈ blocks.flatten ↔ ng ≤ i ∧ i < n) (x xc m : ℤ → F) :
    ∃ M, oMassProfile Mc ng n l blocks (View.line (n + 1) x) (View.line n xc) (View.line (n - ng) m) = some (View.line n M) ∧
      (∀ i, 0 ≤ i → i < ng → M i = Mc) ∧
      ∀ pre u i v post, blocks = pre ++ (u ++ i :: v) :: post → M i = (u ++ [i]).foldl (fun s j => s + incVal Mc ng x xc m j)
        (pre.foldl (fun s b => s + b.foldl (fun s j => s + incVal Mc ng x xc m j) 0) 0) := by
  have h1 : parFor l (fun i M => M.wr i Mc) (View.line n fun _ => (0 : F)) = some (View.line n fun i => if i ∈ l then Mc else 0) := by
    refine (parFor_update l hl.1 _ _ (fun _ => Mc) fun i hi w hw _ => ?_).trans rfl
    have h := (hl.2 i).1 hi
    exact View.wr_of_dom (by rw [hw]; exact line_dom h.1 (by omega))
  have hT : ∀ i ∈ blocks.flatten, oMassIncrement Mc ng (View.line (n + 1) x) (View.line n xc) (View.line (n - ng) m) i =
      some (incVal Mc ng x xc m i) := by
    intro i hi
    obtain ⟨h0, h1⟩ := (hb.2 i).1 hi
    unfold oMassIncrement incVal
    have r1 : (View.line (n + 1) x).rd i = some (x i) := View.rd_of_dom (line_dom (by omega) (by omega))
    have r2 : (View.line n xc).rd i = some (xc i) := View.rd_of_dom (line_dom (by omega) h1)
    have r3 : (View.line (n - ng) m).rd (i - ng) = some (m (i - ng)) := View.rd_of_dom (line_dom (by omega) (by omega))
    simp only [r1, r2, r3, Option.bind_eq_bind, Option.bind_some]
    by_cases hi : i = ng
    · simp only [hi, if_true]
      rfl
    · have r4 : (View.line n xc).rd (i - 1) = some (xc (i - 1)) := View.rd_of_dom (line_dom (by omega) (by omega))
      have r5 : (View.line (n - ng) m).rd (i - ng - 1) = some (m (i - ng - 1)) := View.rd_of_dom (line_dom (by omega) (by omega))
      simp only [if_neg hi, r4, r5, Option.bind_some]
      rfl
  obtain ⟨a', w', e1, e2, e3, e4⟩ := scan_blocks (incVal Mc ng x xc m) _ blocks hb.1 hT 0 (View.line n fun i => if i ∈ l then Mc else 0)
    (fun i hi => line_dom (by have := (hb.2 i).1 hi; omega) ((hb.2 i).1 hi).2)
  refine ⟨w'.val, ?_, fun i h0 h1 => ?_, e4⟩
  · unfold oMassProfile
    rw [h1, Option.bind_eq_bind, Option.bind_some, e1]
    exact congrArg some (View.ext' e2 rfl)
  · rw [e3 i fun hi => by have := (hb.2 i).1 hi; omega]
    exact if_pos ((hl.2 i).2 ⟨h0, h1⟩)

theorem oGravityFromMass_eq (G : F) {n : ℤ} {l : List ℤ} (hl : IsLineSchedule l n) (xc M : ℤ → F) :
    ∃ g, oGravityFromMass G n l (View.line n xc) (View.line n M) = some (View.line n g) ∧
      ∀ i, 0 ≤ i → i < n → g i = -G * M i / (xc i * xc i) := by
  refine ⟨fun i => if i ∈ l then -G * M i / (xc i * xc i) else 0, ?_, fun i h0 h1 => if_pos ((hl.2 i).2 ⟨h0, h1⟩)⟩
  refine (parFor_update l hl.1 _ _ (fun i => -G * M i / (xc i * xc i)) fun i hi w hw _ => ?_).trans rfl
  have h := (hl.2 i).1 hi
  rw [View.rd_of_dom (line_dom h.1 h.2), View.rd_of_dom (line_dom h.1 h.2)]
  exact View.wr_of_dom (by rw [hw]; exact line_dom h.1 h.2)

end Values

/-! ### Rounding errors -/

section Errors
variable {rnd : ℚ → ℚ} (hr : Nearest rnd) (tr : Trig FinDbl)
include hr

theorem near_foldl_mem {ι : Type} (l : List ι) (f g : ι → ℚ) {m : ℕ} {S acc : ℚ} (hacc : Near m S acc) (hf : ∀ i ∈ l, Near m (g i) (f i)) :
    Near (m + l.length) (S + (l.map g).sum) (l.foldl (fun s i => rnd (s + f i)) acc) := by
  induction l generalizing m S acc with
  | nil => simpa using hacc
  | cons i l ih =>
    have h := ih ((hacc.add (hf i (by simp))).rnd_pos hr) fun j hj => (hf j (by simp [hj])).mono (Nat.le_succ m)
    rw [List.foldl_cons, List.map_cons, List.sum_cons, List.length_cons, ← add_assoc S]
    exact h.mono (show m + 1 + l.length ≤ m + (l.length + 1) by omega)

theorem foldl_val {ι : Type} (l : List ι) (f : ι → FinDbl) (a : FinDbl) :
    (l.foldl (fun s i => (dblArith rnd hr tr).toAdd.add s (f i)) a).1 = l.foldl (fun s i => rnd (s + (f i).1)) a.1 := by
  induction l generalizing a with
  | nil => rfl
  | cons i l ih => rw [List.foldl_cons, ih]; rfl

/-- A sum over ranks, workers and cells. -/
theorem near_tree {t : JoinTree Cell} {parts : Cell → JoinTree (List Cell)} {h S : Cell → Cell → ℚ} {m q : ℕ}
    (hf : ∀ r ∈ t.leaves, ∀ l ∈ (parts r).leaves, ∀ c ∈ l, Near m (S r c) (h r c))
    (hq : ∀ r ∈ t.leaves, ∀ l ∈ (parts r).leaves, l.length + (parts r).depth + t.depth ≤ q) :
    Near (q + m) (t.leaves.map fun r => ((parts r).leaves.flatten.map (S r)).sum).sum
      (t.fold (fun x y => rnd (x + y)) fun r => (parts r).fold (fun x y => rnd (x + y)) fun l =>
        l.foldl (fun s c => rnd (s + h r c)) 0) := by
  have e : ∀ L : List (List Cell), ∀ g : Cell → ℚ, (L.flatten.map g).sum = (L.map fun l => (l.map g).sum).sum := by
    intro L g
    induction L with
    | nil => rfl
    | cons l L ih => rw [List.flatten_cons, List.map_append, List.sum_append, ih]; rfl
  have hdt : t.depth ≤ q := by
    obtain ⟨r, hrr⟩ := List.exists_mem_of_ne_nil _ (JoinTree.leaves_ne_nil t)
    obtain ⟨l, hl⟩ := List.exists_mem_of_ne_nil _ (JoinTree.leaves_ne_nil (parts r))
    have := hq r hrr l hl
    omega
  have h1 : ∀ r ∈ t.leaves, Near (q - t.depth + m) ((parts r).leaves.flatten.map (S r)).sum
      ((parts r).fold (fun x y => rnd (x + y)) fun l => l.foldl (fun s c => rnd (s + h r c)) 0) := by
    intro r hrr
    rw [e]
    have hdp : (parts r).depth + t.depth ≤ q := by
      obtain ⟨l, hl⟩ := List.exists_mem_of_ne_nil _ (JoinTree.leaves_ne_nil (parts r))
      have := hq r hrr l hl
      omega
    have := JoinTree.near_fold hr (m := q - t.depth - (parts r).depth + m) (S := fun l => (l.map (S r)).sum)
      (f := fun l => l.foldl (fun s c => rnd (s + h r c)) 0) (parts r) fun l hl => by
        have h2 := near_foldl_mem hr l (h r) (S r) (m := m) (S := 0) (acc := 0) ((Near.refl le_rfl).mono (Nat.zero_le m))
          fun c hc => hf r hrr l hl c hc
        rw [zero_add] at h2
        exact h2.mono (show m + l.length ≤ q - t.depth - (parts r).depth + m by have := hq r hrr l hl; omega)
    exact this.mono (show q - t.depth - (parts r).depth + m + (parts r).depth ≤ q - t.depth + m by omega)
  exact (JoinTree.near_fold hr t h1).mono (show q - t.depth + m + t.depth ≤ q + m by omega)

/-- The sums of one shell over ranks, workers and cells. -/
theorem near_shell {t : JoinTree Cell} {parts : Cell → JoinTree (List Cell)} {f w : Cell → Cell → FinDbl} {q : ℕ}
    (hf : ∀ r ∈ t.leaves, ∀ l ∈ (parts r).leaves, ∀ c ∈ l, 0 ≤ (f r c).1 ∧ 0 ≤ (w r c).1)
    (hq : ∀ r ∈ t.leaves, ∀ l ∈ (parts r).leaves, l.length + (parts r).depth + t.depth ≤ q) :
    letI := dblArith rnd hr tr
    let S := t.fold (fun x y : FinDbl × FinDbl => (x.1 + y.1, x.2 + y.2)) fun r =>
      (parts r).fold (fun x y => (x.1 + y.1, x.2 + y.2)) (workerSum (f r) (w r))
    Near (q + 1) (t.leaves.map fun r => ((parts r).leaves.flatten.map fun c => (f r c).1 * (w r c).1).sum).sum S.1.1 ∧
    Near q (t.leaves.map fun r => ((parts r).leaves.flatten.map fun c => (w r c).1).sum).sum S.2.1 := by
  letI := dblArith rnd hr tr
  intro S
  constructor
  · have e1 : S.1.1 = t.fold (fun x y => rnd (x + y)) fun r => (parts r).fold (fun x y => rnd (x + y)) fun l =>
        l.foldl (fun s c => rnd (s + rnd ((f r c).1 * (w r c).1))) 0 := by
      refine (JoinTree.fold_comp (fun p : FinDbl × FinDbl => p.1.1) (op' := fun x y => rnd (x + y)) (fun _ _ => rfl) _ t).trans ?_
      congr 1; funext r
      refine (JoinTree.fold_comp (fun p : FinDbl × FinDbl => p.1.1) (op' := fun x y => rnd (x + y)) (fun _ _ => rfl) _ (parts r)).trans ?_
      congr 1; funext l
      exact foldl_val hr tr l (fun c => f r c * w r c) 0
    rw [e1]
    exact near_tree hr (fun r hrr l hl c hc => by
      obtain ⟨a, b⟩ := hf r hrr l hl c hc
      exact ((Near.refl a).mul (Near.refl b)).rnd_pos hr) hq
  · have e1 : S.2.1 = t.fold (fun x y => rnd (x + y)) fun r => (parts r).fold (fun x y => rnd (x + y)) fun l =>
        l.foldl (fun s c => rnd (s + (w r c).1)) 0 := by
      refine (JoinTree.fold_comp (fun p : FinDbl × FinDbl => p.2.1) (op' := fun x y => rnd (x + y)) (fun _ _ => rfl) _ t).trans ?_
      congr 1; funext r
      refine (JoinTree.fold_comp (fun p : FinDbl × FinDbl => p.2.1) (op' := fun x y => rnd (x + y)) (fun _ _ => rfl) _ (parts r)).trans ?_
      congr 1; funext l
      exact foldl_val hr tr l (fun c => w r c) 0
    rw [e1]
    exact near_tree hr (fun r hrr l hl c hc => Near.refl (hf r hrr l hl c hc).2) hq

/-- The scan: sums of the earlier blocks, then the cells of the block of `i` up to `i`. -/
theorem near_scan {blocks pre post : List (List ℤ)} {u v : List ℤ} {i : ℤ} {T t : ℤ → ℚ} {m s : ℕ}
    (hb : blocks = pre ++ (u ++ i :: v) :: post) (hsort : blocks.flatten.Pairwise (· < ·)) (hT : ∀ j ∈ blocks.flatten, Near m (t j) (T j))
    (hs : ∀ b ∈ blocks, 2 * b.length + blocks.length ≤ s) :
    Near (m + s) (((blocks.flatten.filter fun j => decide (j ≤ i)).map t).sum)
      ((u ++ [i]).foldl (fun s j => rnd (s + T j)) (pre.foldl (fun s b => rnd (s + b.foldl (fun s j => rnd (s + T j)) 0)) 0)) := by
  have hfl : blocks.flatten = pre.flatten ++ u ++ (i :: (v ++ post.flatten)) := by rw [hb]; simp
  have hfil : (blocks.flatten.filter fun j => decide (j ≤ i)) = pre.flatten ++ (u ++ [i]) := by
    rw [hfl] at hsort ⊢
    obtain ⟨-, h2, h3⟩ := List.pairwise_append.1 hsort
    rw [List.filter_append, List.filter_eq_self.2 fun j hj => by
      have := h3 j hj i (by simp)
      simpa using this.le, List.filter_cons_of_pos (by simp), List.filter_eq_nil_iff.2 fun j hj => by
      have := (List.pairwise_cons.1 h2).1 j hj
      simpa using this]
    simp
  have e : ∀ L : List (List ℤ), ∀ g : ℤ → ℚ, (L.flatten.map g).sum = (L.map fun l => (l.map g).sum).sum := by
    intro L g
    induction L with
    | nil => rfl
    | cons l L ih => rw [List.flatten_cons, List.map_append, List.sum_append, ih]; rfl
  rw [hfil, List.map_append, List.sum_append, e]
  have hlen : blocks.length = pre.length + (post.length + 1) := by rw [hb]; simp
  have hmem : ∀ b ∈ pre, b ∈ blocks := fun b h => by rw [hb]; simp [h]
  have hcur := hs (u ++ i :: v) (by rw [hb]; simp)
  simp only [List.length_append, List.length_cons] at hcur
  -- sum of the earlier blocks
  obtain ⟨p, hp1, hp2⟩ : ∃ p, (∀ b ∈ pre, b.length ≤ p) ∧ 2 * p + blocks.length ≤ s := by
    refine ⟨(s - blocks.length) / 2, fun b h => ?_, ?_⟩
    · have := hs b (hmem b h); omega
    · omega
  have h1 := near_foldl_mem hr pre (fun b => b.foldl (fun s j => rnd (s + T j)) 0) (fun b => (b.map t).sum) (m := m + p) (S := 0) (acc := 0)
    ((Near.refl le_rfl).mono (Nat.zero_le _)) (fun b h => by
      have h2 := near_foldl_mem hr b T t (m := m) (S := 0) (acc := 0) ((Near.refl le_rfl).mono (Nat.zero_le m))
        fun j hj => hT j (List.mem_flatten.2 ⟨b, hmem b h, hj⟩)
      rw [zero_add] at h2
      exact h2.mono (show m + b.length ≤ m + p by have := hp1 b h; omega))
  rw [zero_add] at h1
  have h3 := near_foldl_mem hr (u ++ [i]) T t h1 (fun j hj => (hT j (by rw [hfl]; simp at hj ⊢; tauto)).mono
    (show m ≤ m + p + pre.length by omega))
  refine h3.mono ?_
  rw [List.length_append, List.length_singleton]
  have : u.length + 1 ≤ p ∨ p < u.length + 1 := by omega
  omega

end Errors

end Heracles
