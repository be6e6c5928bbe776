import Verif.Model.Files
import Verif.Spec.Files
import Verif.Spec.Reduce
import Verif.Props.Restart
import Verif.Props.Xdmf

/-!
# C79: files, index and restarts fit together
-/

namespace Heracles
open Output Files Xml

variable {K : Type}

/-! ### Sequences of writes -/

theorem foldlM_put {α : Type} (w : H5 K → α → Except String (H5 K)) (name : α → List Char) (val : α → Dset K) (l : List α)
    (hw : ∀ op ∈ l, ∀ f, w f op = .ok (f.put (name op) (val op))) (hnd : (l.map name).Nodup) (f : H5 K) :
    ∃ f', l.foldlM w f = .ok f' ∧ f'.int = f.int ∧ (∀ op ∈ l, f'.arr (name op) = some (val op)) ∧
      ∀ s, s ∉ l.map name → f'.arr s = f.arr s := by
  induction l generalizing f with
  | nil => exact ⟨f, rfl, rfl, fun op h => absurd h List.not_mem_nil, fun _ _ => rfl⟩
  | cons op l ih =>
    rw [List.map_cons, List.nodup_cons] at hnd
    obtain ⟨f', h1, h2, h3, h4⟩ := ih (fun o ho => hw o (List.mem_cons_of_mem _ ho)) hnd.2 (f.put (name op) (val op))
    refine ⟨f', ?_, h2, ?_, ?_⟩
    · rw [List.foldlM_cons, hw op List.mem_cons_self]
      exact h1
    · intro o ho
      rcases List.mem_cons.1 ho with rfl | ho
      · rw [h4 _ hnd.1]
        exact if_pos rfl
      · exact h3 o ho
    · intro s hs
      rw [List.map_cons, List.mem_cons, not_or] at hs
      rw [h4 s hs.2]
      exact if_neg hs.1

/-- A fold that succeeds has succeeded at every element. -/
theorem foldlM_all {α S : Type} {w : S → α → Except String S} {l : List α} {s s' : S} (h : l.foldlM w s = .ok s') :
    ∀ op ∈ l, ∃ t t', w t op = .ok t' := by
  induction l generalizing s with
  | nil => intro op ho; cases ho
  | cons a l ih =>
    intro op ho
    rw [List.foldlM_cons] at h
    cases hw : w s a with
    | error m => rw [hw] at h; cases h
    | ok t =>
      rw [hw] at h
      rcases List.mem_cons.1 ho with rfl | ho
      · exact ⟨s, t, hw⟩
      · exact ih h op ho

theorem foldlM_congr {α S : Type} {w w' : S → α → Except String S} {l : List α} (h : ∀ op ∈ l, ∀ s, w s op = w' s op) (s : S) :
    l.foldlM w s = l.foldlM w' s := by
  induction l generalizing s with
  | nil => rfl
  | cons a l ih =>
    rw [List.foldlM_cons, List.foldlM_cons, h a List.mem_cons_self]
    congr 1
    funext t
    exact ih (fun o ho => h o (List.mem_cons_of_mem _ ho)) t

/-! ### Nodes -/

theorem indices1 (b m : ℤ) : indices [b] [m] = (intRange 0 m).map fun i => [b + i] := by
  simp [indices, intRange_shift b, List.flatMap_map, Function.comp_def, ← List.map_eq_flatMap]

theorem mem_intRange0 {i m : ℤ} : i ∈ intRange 0 m ↔ 0 ≤ i ∧ i < m := by
  simp only [intRange, List.mem_map, List.mem_range, sub_zero]
  constructor
  · rintro ⟨k, hk, rfl⟩; omega
  · rintro ⟨h0, h1⟩; exact ⟨i.toNat, by omega, by omega⟩

theorem h5Write_line (zero : K) {size b m : ℤ} (hb : 0 ≤ b) (hm : b + m ≤ size) (x : ℤ → K) :
    ∃ D : Dset K, ofTransfer [m] (h5Write [size] ⟨[b], [m]⟩ ⟨[0], [m]⟩ (View.line size x) { dom := datasetDom [m], val := fun _ => zero }) = .ok D ∧
      D.sizes = [m] ∧ ∀ i, 0 ≤ i → i < m → D.val [i] = x (i + b) := by
  unfold h5Write
  simp only [indices1, List.length_map, if_true, List.zip_map', parFor_map, zero_add]
  obtain ⟨w, h1, -, -, h4⟩ := parFor_scatter (intRange 0 m) (fun i => [i]) (fun i => x (i + b))
    (fun i dset => ((View.line size x).rd (rowMajor [size] [b + i])).bind fun v => dset.wr [i] v)
    ({ dom := datasetDom [m], val := fun _ => zero } : View (List ℤ) K)
    (by
      intro i hi w hw
      rw [mem_intRange0] at hi
      have e : rowMajor [size] [b + i] = i + b := by simp [rowMajor, add_comm]
      rw [e, View.rd_of_dom (by simp only [View.line, decide_eq_true_eq]; omega), Option.bind_some, View.wr_of_dom]
      · rfl
      · rw [hw]
        simp [datasetDom, hi.1, hi.2])
    (by
      intro i _ j _ e
      simp only [List.cons.injEq, and_true] at e
      rw [e])
  refine ⟨⟨[m], w.val⟩, ?_, rfl, fun i h0 h1 => h4 i (mem_intRange0.2 ⟨h0, h1⟩)⟩
  show ofTransfer [m] (parFor _ _ _) = _
  rw [show (parFor (intRange 0 m) (fun a dset => do
      let v ← (View.line size x).rd (rowMajor [size] [b + a])
      dset.wr [a] v) { dom := datasetDom [m], val := fun _ => zero }) = some w from h1]
  rfl

theorem H5.put_same (f : H5 K) (name : List Char) (D : Dset K) : (f.put name D).arr name = some D := if_pos rfl

theorem H5.put_other (f : H5 K) {name s : List Char} (D : Dset K) (h : s ≠ name) : (f.put name D).arr s = f.arr s := if_neg h

theorem decimal_inj {m n : ℕ} (h : decimal m = decimal n) : m = n := by rw [← decimal_val m, h, decimal_val]

theorem decimal_small {k : ℕ} (h : k < 10) : decimal k = [digit k] := by rw [decimal, if_pos h]

theorem nodesName_eq (a : Fin 3) : "x".toList ++ decimal a = nodesName a := by
  rw [decimal_small (by omega)]
  fin_cases a <;> decide

theorem axisLabel_eq (a : Fin 3) : "x".toList ++ decimal a ++ "_ng".toList = axisLabel a := by
  rw [decimal_small (by omega)]
  fin_cases a <;> decide

/-- The names that `write_replicated_data` gives to datasets of reals. -/
def replicatedNames : List (List Char) :=
  ["current_time".toList, "gamma".toList, "x0".toList, "x1".toList, "x2".toList, "x0_ng".toList, "x1_ng".toList, "x2_ng".toList]

theorem writeReplicated_ok (zero : K) {n g : Cell} (hn : ∀ a, 0 ≤ n a) (hg : ∀ a, 0 ≤ g a) (e : Exposed K) {X : Fin 3 → ℤ → K}
    (hx : ∀ a, e.axis a = View.line (n a + 2 * g a + 1) (X a)) :
    ∃ f, writeReplicated zero n g e = .ok f ∧ f.int "output_id".toList = some e.outputId ∧ f.int "iter_output_id".toList = some e.iterOutputId ∧
      f.int "time_output_id".toList = some e.timeOutputId ∧ f.int "iter".toList = some e.iter ∧
      (∃ D, f.arr "current_time".toList = some D ∧ D.sizes = [] ∧ D.val [] = e.t) ∧ (∃ D, f.arr "gamma".toList = some D ∧ D.sizes = [] ∧ D.val [] = e.gamma) ∧
      (∀ a, HasLine f (nodesName a) (n a + 2 * g a + 1) (X a)) ∧ (∀ a, HasLine f (axisLabel a) (n a + 1) fun i => X a (i + g a)) ∧
      ∀ s, s ∉ replicatedNames → f.arr s = none := by
  have hA : ∀ a, ∃ D : Dset K, ofTransfer [n a + 2 * g a + 1] (h5Write [n a + 2 * g a + 1] ⟨[0], [n a + 2 * g a + 1]⟩ ⟨[0], [n a + 2 * g a + 1]⟩ (e.axis a)
      { dom := datasetDom [n a + 2 * g a + 1], val := fun _ => zero }) = .ok D ∧ D.sizes = [n a + 2 * g a + 1] ∧
      ∀ i, 0 ≤ i → i < n a + 2 * g a + 1 → D.val [i] = X a (i + 0) := fun a => by
    rw [hx a]
    exact h5Write_line zero le_rfl (by omega) (X a)
  have hI : ∀ a, ∃ D : Dset K, ofTransfer [n a + 1] (h5Write [n a + 2 * g a + 1] ⟨[g a], [n a + 1]⟩ ⟨[0], [n a + 1]⟩ (e.axis a)
      { dom := datasetDom [n a + 1], val := fun _ => zero }) = .ok D ∧ D.sizes = [n a + 1] ∧
      ∀ i, 0 ≤ i → i < n a + 1 → D.val [i] = X a (i + g a) := fun a => by
    rw [hx a]
    exact h5Write_line zero (hg a) (by have := hg a; omega) (X a)
  choose A hA using hA
  choose I hI using hI
  have step : ∀ f a, writeNodes zero n g e.axis f a = .ok ((f.put (nodesName a) (A a)).put (axisLabel a) (I a)) := fun f a => by
    simp only [writeNodes]
    rw [(hA a).1, (hI a).1]
    rfl
  have hl : List.finRange 3 = [0, 1, 2] := by decide
  refine ⟨((((((newFile e).put (nodesName 0) (A 0)).put (axisLabel 0) (I 0)).put (nodesName 1) (A 1)).put (axisLabel 1) (I 1)).put (nodesName 2) (A 2)).put
    (axisLabel 2) (I 2), ?_, ?_⟩
  · rw [writeReplicated, hl]
    simp only [List.foldlM_cons, List.foldlM_nil, step]
    rfl
  refine ⟨rfl, rfl, rfl, rfl, ⟨⟨[], fun _ => e.t⟩, ?_, rfl, rfl⟩, ⟨⟨[], fun _ => e.gamma⟩, ?_, rfl, rfl⟩, ?_, ?_, ?_⟩
  · rw [H5.put_other _ _ (by decide), H5.put_other _ _ (by decide), H5.put_other _ _ (by decide), H5.put_other _ _ (by decide),
      H5.put_other _ _ (by decide), H5.put_other _ _ (by decide), newFile]
    simp only
    rw [if_pos trivial]
  · rw [H5.put_other _ _ (by decide), H5.put_other _ _ (by decide), H5.put_other _ _ (by decide), H5.put_other _ _ (by decide),
      H5.put_other _ _ (by decide), H5.put_other _ _ (by decide), newFile]
    simp only
    rw [if_neg (by decide), if_pos trivial]
  · intro a
    refine ⟨A a, ?_, (hA a).2.1, fun i h0 h1 => by rw [(hA a).2.2 i h0 h1, add_zero]⟩
    fin_cases a
    · rw [H5.put_other _ _ (by decide), H5.put_other _ _ (by decide), H5.put_other _ _ (by decide), H5.put_other _ _ (by decide),
        H5.put_other _ _ (by decide)]
      exact H5.put_same ..
    · rw [H5.put_other _ _ (by decide), H5.put_other _ _ (by decide), H5.put_other _ _ (by decide)]
      exact H5.put_same ..
    · rw [H5.put_other _ _ (by decide)]
      exact H5.put_same ..
  · intro a
    refine ⟨I a, ?_, (hI a).2.1, (hI a).2.2⟩
    fin_cases a
    · rw [H5.put_other _ _ (by decide), H5.put_other _ _ (by decide), H5.put_other _ _ (by decide), H5.put_other _ _ (by decide)]
      exact H5.put_same ..
    · rw [H5.put_other _ _ (by decide), H5.put_other _ _ (by decide)]
      exact H5.put_same ..
    · exact H5.put_same ..
  · intro s hs
    simp only [replicatedNames, List.mem_cons, List.not_mem_nil, or_false, not_or] at hs
    obtain ⟨h1, h2, h3, h4, h5, h6, h7, h8⟩ := hs
    rw [H5.put_other _ _ (show s ≠ axisLabel 2 from h8), H5.put_other _ _ (show s ≠ nodesName 2 from h5), H5.put_other _ _ (show s ≠ axisLabel 1 from h7),
      H5.put_other _ _ (show s ≠ nodesName 1 from h4), H5.put_other _ _ (show s ≠ axisLabel 0 from h6), H5.put_other _ _ (show s ≠ nodesName 0 from h3)]
    exact (if_neg h1).trans (if_neg h2)

/-! ### Cells -/

/-- The number of components of an array. -/
def comps (ndim nfx : ℕ) : Source → ℕ
  | .u => ndim
  | .fx => nfx
  | _ => 1

/-- The component that an entry transfers. -/
def opIndex (op : FieldOp) : ℕ := (op.comp.headD 0).toNat

/-- The component exists and is selected as such. -/
def GoodOp (ndim nfx : ℕ) (op : FieldOp) : Prop := Shape (leading ndim nfx op.source) op.comp (comps ndim nfx op.source) (opIndex op)

theorem velocity_good {ndim nfx : ℕ} (h1 : 1 ≤ ndim) {op : FieldOp} (h : op ∈ velocityOps ndim) : GoodOp ndim nfx op := by
  simp only [velocityOps, List.mem_append, List.mem_singleton] at h
  rcases h with (rfl | h) | h
  · exact Or.inr ⟨rfl, rfl, le_rfl, by simp [comps, opIndex]; omega⟩
  · split at h
    · rw [List.mem_singleton] at h
      subst h
      exact Or.inr ⟨rfl, rfl, by simp [opIndex], by simp [comps, opIndex]; omega⟩
    · cases h
  · split at h
    · rw [List.mem_singleton] at h
      subst h
      exact Or.inr ⟨rfl, rfl, by simp [opIndex], by simp [comps, opIndex]; omega⟩
    · cases h

theorem single_good {ndim nfx : ℕ} {op : FieldOp} (hc : op.comp = []) (hs : op.source ≠ .u ∧ op.source ≠ .fx) : GoodOp ndim nfx op := by
  obtain ⟨s, c, d⟩ := op
  simp only at hc hs
  subst hc
  refine Or.inl ?_
  cases s <;> simp_all [leading, comps, opIndex]

theorem distributed_good {ndim nfx : ℕ} (h1 : 1 ≤ ndim) {op : FieldOp} (h : op ∈ distributedOps ndim) : GoodOp ndim nfx op := by
  rw [distributedOps, List.mem_append] at h
  rcases h with h | h
  · exact velocity_good h1 h
  · simp only [List.mem_cons, List.not_mem_nil, or_false] at h
    rcases h with rfl | rfl | rfl | rfl <;> exact single_good rfl ⟨by decide, by decide⟩

theorem scalar_good {ndim nfx nfx' : ℕ} (hn : nfx' ≤ nfx) {op : FieldOp} (h : op ∈ scalarOps nfx') : GoodOp ndim nfx op := by
  simp only [scalarOps, List.mem_map, List.mem_range] at h
  obtain ⟨i, hi, rfl⟩ := h
  exact Or.inr ⟨rfl, by simp [opIndex], by simp [opIndex], by simp [comps, opIndex]; omega⟩

variable {ndim nfx : ℕ} {n : Cell} {ng : ℤ}

/-- The memory handed to `write_pdi`: every rank has the nodes `X`, and its part of the fields `G` in the cells inside. -/
structure Exposes (Y : Layout ndim n ng) (nfx : ℕ) (e : Exposed K) (X : Fin 3 → ℤ → K) (G : Source → ℕ → Cell → K) : Prop where
  axis : ∀ a, e.axis a = View.line (n a + 2 * nghostOf ndim ng a + 1) (X a)
  mem : ∀ s r, inBox 0 Y.dims r → MemOk Y (comps ndim nfx s) r (e.mem s r)
  val : ∀ s r, inBox 0 Y.dims r → ∀ l < comps ndim nfx s, ∀ c, Interior Y r c → elem Y r (e.mem s r) c l = G s l (globalOf n Y.dims (nghostOf ndim ng) r c)

theorem writeOp_ok (zero : K) {Y : Layout ndim n ng} {e : Exposed K} {X : Fin 3 → ℤ → K} {G : Source → ℕ → Cell → K} (h : Exposes Y nfx e X G)
    (hN : ∀ a, 0 ≤ n a) (hng : 0 ≤ ng) {ranks : List Cell} (hranks : ∀ r, r ∈ ranks ↔ inBox 0 Y.dims r) {op : FieldOp} (ho : GoodOp ndim nfx op)
    {declared : List (List Char)} (hd : op.dataset ∈ declared) :
    ∃ D : Dset K, (∀ f, writeOp zero ndim nfx n Y.topo ranks e.mem declared f op = .ok (f.put op.dataset D)) ∧ D.sizes = [n 2, n 1, n 0] ∧
      ∀ c, inBox 0 n c → D.val [c 2, c 1, c 0] = G op.source (opIndex op) c := by
  have hr := ho.range
  obtain ⟨w, h1, -, h3⟩ := C43_written ho Y hN hng ranks hranks (e.mem op.source) (fun r hr => h.mem _ r hr) zero (G op.source (opIndex op))
    fun r hr' c hc => h.val _ r hr' _ (by exact_mod_cast hr.2) c hc
  refine ⟨⟨[n 2, n 1, n 0], w.val⟩, fun f => ?_, rfl, h3⟩
  unfold writeOp
  rw [if_pos hd, h1]
  rfl

theorem scalarName_ne {nfx : ℕ} {s : List Char} (h : s.take 2 ≠ "fx".toList) : s ∉ (scalarOps nfx).map (·.dataset) := by
  simp only [scalarOps, List.map_map, List.mem_map, List.mem_range, Function.comp_def, not_exists, not_and]
  intro i _ e
  exact h (by rw [← e]; rfl)

theorem scalar_nodup (nfx : ℕ) : ((scalarOps nfx).map (·.dataset)).Nodup := by
  simp only [scalarOps, List.map_map, Function.comp_def]
  exact List.nodup_range.map fun i j e => decimal_inj (List.append_cancel_left e)

theorem scalar_declared {i : ℕ} (h : i < 10) : "fx".toList ++ decimal i ∈ scalarSets := by
  rw [decimal_small h]
  have : i = 0 ∨ i = 1 ∨ i = 2 ∨ i = 3 ∨ i = 4 ∨ i = 5 ∨ i = 6 ∨ i = 7 ∨ i = 8 ∨ i = 9 := by omega
  rcases this with h | h | h | h | h | h | h | h | h | h <;> subst h <;> decide

theorem distributed_nodup (ndim : ℕ) : ((distributedOps ndim).map (·.dataset)).Nodup := by
  unfold distributedOps velocityOps
  split <;> split <;> decide

theorem distributed_declared {op : FieldOp} (h : op ∈ distributedOps ndim) : op.dataset ∈ distributedSets := by
  have : (distributedOps ndim).all fun op => decide (op.dataset ∈ distributedSets) := by
    unfold distributedOps velocityOps
    split <;> split <;> decide
  exact of_decide_eq_true (List.all_eq_true.1 this op h)

theorem velocity_name {a : ℕ} (ha : a < ndim) (h3 : ndim ≤ 3) : (⟨.u, [(a : ℤ)], "ux".toList ++ decimal a⟩ : FieldOp) ∈ velocityOps ndim := by
  rw [decimal_small (by omega)]
  have : a = 0 ∨ a = 1 ∨ a = 2 := by omega
  unfold velocityOps
  rcases this with h | h | h <;> subst h
  · exact List.mem_append_left _ (List.mem_append_left _ List.mem_cons_self)
  · rw [if_pos ha]
    exact List.mem_append_left _ (List.mem_append_right _ List.mem_cons_self)
  · rw [if_pos ha]
    exact List.mem_append_right _ List.mem_cons_self

/-- **C79, content.** For every number of dimensions, up to ten passive scalars, every process grid and order of the ranks: the file holds the counters, the
time, the nodes and every field, component and scalar under its own name, with the values of the state, and no dataset of a further scalar or component.
Missing: more than ten scalars (`C79_scalars_violated`). -/
theorem C79_content_partial (zero : K) (h1 : 1 ≤ ndim) (h3 : ndim ≤ 3) (hfx : nfx ≤ 10) {Y : Layout ndim n ng} {e : Exposed K} {X : Fin 3 → ℤ → K}
    {G : Source → ℕ → Cell → K} (h : Exposes Y nfx e X G) (hN : ∀ a, 0 ≤ n a) (hng : 0 ≤ ng) {ranks : List Cell}
    (hranks : ∀ r, r ∈ ranks ↔ inBox 0 Y.dims r) :
    ∃ f, writeFile zero ndim nfx n (nghostOf ndim ng) Y.topo ranks e = .ok f ∧
      Holds ndim nfx n (nghostOf ndim ng) e.outputId e.iterOutputId e.timeOutputId e.iter e.t e.gamma X G f ∧
      (∀ i, nfx ≤ i → f.arr ("fx".toList ++ decimal i) = none) ∧ ∀ a, ndim ≤ a → a < 3 → f.arr ("ux".toList ++ decimal a) = none := by
  obtain ⟨f0, w0, i1, i2, i3, i4, ht, hg, hx, hi, hnone⟩ := writeReplicated_ok zero (n := n) hN (fun a => nghostOf_nonneg (ndim := ndim) hng a) e h.axis
  have hd : ∀ op : FieldOp, ∃ D : Dset K, op ∈ distributedOps ndim → (∀ f, writeOp zero ndim nfx n Y.topo ranks e.mem distributedSets f op =
      .ok (f.put op.dataset D)) ∧ D.sizes = [n 2, n 1, n 0] ∧ ∀ c, inBox 0 n c → D.val [c 2, c 1, c 0] = G op.source (opIndex op) c := fun op => by
    by_cases ho : op ∈ distributedOps ndim
    · obtain ⟨D, hD⟩ := writeOp_ok zero h hN hng hranks (distributed_good h1 ho) (distributed_declared ho)
      exact ⟨D, fun _ => hD⟩
    · exact ⟨⟨[], fun _ => zero⟩, fun h => absurd h ho⟩
  choose D hD using hd
  have hs : ∀ op : FieldOp, ∃ D : Dset K, op ∈ scalarOps nfx → (∀ f, writeOp zero ndim nfx n Y.topo ranks e.mem scalarSets f op =
      .ok (f.put op.dataset D)) ∧ D.sizes = [n 2, n 1, n 0] ∧ ∀ c, inBox 0 n c → D.val [c 2, c 1, c 0] = G op.source (opIndex op) c := fun op => by
    by_cases ho : op ∈ scalarOps nfx
    · have hdec : op.dataset ∈ scalarSets := by
        simp only [scalarOps, List.mem_map, List.mem_range] at ho
        obtain ⟨i, hi, rfl⟩ := ho
        exact scalar_declared (by omega)
      obtain ⟨D, hD⟩ := writeOp_ok zero h hN hng hranks (scalar_good le_rfl ho) hdec
      exact ⟨D, fun _ => hD⟩
    · exact ⟨⟨[], fun _ => zero⟩, fun h => absurd h ho⟩
  choose S hS using hs
  obtain ⟨f1, w1, j1, a1, b1⟩ := foldlM_put (writeOp zero ndim nfx n Y.topo ranks e.mem distributedSets) (·.dataset) D (distributedOps ndim)
    (fun op ho => (hD op ho).1) (distributed_nodup ndim) f0
  obtain ⟨f2, w2, j2, a2, b2⟩ := foldlM_put (writeOp zero ndim nfx n Y.topo ranks e.mem scalarSets) (·.dataset) S (scalarOps nfx)
    (fun op ho => (hS op ho).1) (scalar_nodup nfx) f1
  have keep : ∀ s, s ∈ replicatedNames → f2.arr s = f0.arr s := fun s hs => by
    have hall : replicatedNames.all fun s => decide (s.take 2 ≠ "fx".toList) && decide (s ∉ distributedSets) := by decide
    have := List.all_eq_true.1 hall s hs
    rw [Bool.and_eq_true, decide_eq_true_eq, decide_eq_true_eq] at this
    rw [b2 s (scalarName_ne this.1), b1 s fun hm => this.2 ?_]
    obtain ⟨op, ho, rfl⟩ := List.mem_map.1 hm
    exact distributed_declared ho
  have field : ∀ op ∈ distributedOps ndim, HasField f2 n op.dataset (G op.source (opIndex op)) := fun op ho => by
    refine ⟨D op, ?_, (hD op ho).2.1, (hD op ho).2.2⟩
    have hall : distributedSets.all fun s => decide (s.take 2 ≠ "fx".toList) := by decide
    rw [b2 _ (scalarName_ne (of_decide_eq_true (List.all_eq_true.1 hall _ (distributed_declared ho))))]
    exact a1 op ho
  have last : ∀ op ∈ [(⟨.rho, [], "rho".toList⟩ : FieldOp), ⟨.P, [], "P".toList⟩, ⟨.E, [], "E".toList⟩, ⟨.T, [], "T".toList⟩],
      HasField f2 n op.dataset (G op.source (opIndex op)) := fun op ho => field op (List.mem_append_right _ ho)
  refine ⟨f2, ?_, ⟨?_, ?_, ?_, ?_, ?_, ?_, ?_, ?_, last ⟨.rho, [], "rho".toList⟩ (by simp), last ⟨.P, [], "P".toList⟩ (by simp),
    last ⟨.E, [], "E".toList⟩ (by simp), last ⟨.T, [], "T".toList⟩ (by simp), ?_, ?_⟩, ?_, ?_⟩
  · unfold writeFile
    rw [w0]
    change ((distributedOps ndim).foldlM (writeOp zero ndim nfx n Y.topo ranks e.mem distributedSets) f0 >>= fun f =>
      (scalarOps nfx).foldlM (writeOp zero ndim nfx n Y.topo ranks e.mem scalarSets) f) = _
    rw [w1]
    exact w2
  · rw [j2, j1]; exact i1
  · rw [j2, j1]; exact i2
  · rw [j2, j1]; exact i3
  · rw [j2, j1]; exact i4
  · rw [keep _ (by decide)]; exact ht
  · rw [keep _ (by decide)]; exact hg
  · intro a
    rw [nodesName_eq]
    obtain ⟨A, hA⟩ := hx a
    exact ⟨A, by rw [keep _ (by fin_cases a <;> decide)]; exact hA.1, hA.2⟩
  · intro a
    rw [axisLabel_eq]
    obtain ⟨A, hA⟩ := hi a
    exact ⟨A, by rw [keep _ (by fin_cases a <;> decide)]; exact hA.1, hA.2⟩
  · intro a ha
    exact field _ (List.mem_append_left _ (velocity_name ha h3))
  · intro i hi
    have ho : (⟨.fx, [(i : ℤ)], "fx".toList ++ decimal i⟩ : FieldOp) ∈ scalarOps nfx := List.mem_map.2 ⟨i, List.mem_range.2 hi, rfl⟩
    exact ⟨S _, a2 _ ho, (hS _ ho).2.1, (hS _ ho).2.2⟩
  · intro i hi
    rw [b2, b1, hnone]
    · intro hm
      have hall : replicatedNames.all fun s => decide (s.take 2 ≠ "fx".toList) := by decide
      exact of_decide_eq_true (List.all_eq_true.1 hall _ hm) rfl
    · intro hm
      obtain ⟨op, ho, e⟩ := List.mem_map.1 hm
      have hall : distributedSets.all fun s => decide (s.take 2 ≠ "fx".toList) := by decide
      exact of_decide_eq_true (List.all_eq_true.1 hall _ (distributed_declared ho)) (by rw [e]; rfl)
    · intro hm
      simp only [scalarOps, List.map_map, List.mem_map, List.mem_range, Function.comp_def] at hm
      obtain ⟨j, hj, e⟩ := hm
      have := decimal_inj (List.append_cancel_left e)
      omega
  · intro a ha ha'
    rw [b2 _ (scalarName_ne (s := "ux".toList ++ decimal a) (show "ux".toList ≠ "fx".toList by decide)), b1, hnone]
    · rw [decimal_small (by omega)]
      have : a = 0 ∨ a = 1 ∨ a = 2 := by omega
      rcases this with h | h | h <;> subst h <;> decide
    · rw [decimal_small (by omega)]
      have : a = 0 ∨ a = 1 ∨ a = 2 := by omega
      have hn : ndim = 1 ∨ ndim = 2 ∨ ndim = 3 := by omega
      rcases this with h | h | h <;> subst h <;> rcases hn with h | h | h <;> subst h <;> first | omega | decide

theorem Files.Refers.inv {nm : List Char} {as : List (List Char × List Char)} {cs : List Node} {dims path : List Char} (h : Refers (.elem nm as cs) dims path) :
    (("Dimensions".toList, dims) ∈ as ∧ cs = [.text path]) ∨ ∃ c ∈ cs, Refers c dims path := by
  generalize hx : Node.elem nm as cs = x at h
  induction h with
  | item hm =>
    rw [Node.elem.injEq] at hx
    obtain ⟨-, rfl, rfl⟩ := hx
    exact Or.inl ⟨hm, rfl⟩
  | child hm h _ =>
    rw [Node.elem.injEq] at hx
    obtain ⟨-, -, rfl⟩ := hx
    exact Or.inr ⟨_, hm, h⟩

theorem Files.Refers.not_text {s dims path : List Char} (h : Refers (.text s) dims path) : False := by
  generalize hx : Node.text s = x at h
  cases h <;> cases hx

/-- **C79, the index.** Every dataset that an entry of the index refers to is in the file, with the sizes that the entry announces. -/
theorem C79_index (h3 : ndim ≤ 3) {g : Cell} {oi ii ti it : ℤ} {t gamma : K} {X : Fin 3 → ℤ → K} {G : Source → ℕ → Cell → K} {f : H5 K}
    (hf : Holds ndim nfx n g oi ii ti it t gamma X G f) (file time : List Char) {dims path : List Char}
    (hr : Refers (entry { ncells := n, nghost := g, extent := fun a => n a + 2 * g a + 1 } nfx ndim file time) dims path) :
    ∃ name D, path = file ++ ":/".toList ++ name ∧ f.arr name = some D ∧ dims = sizesText D.sizes := by
  have item : ∀ {dims' ds : List Char}, Refers (dataItem dims' file ds) dims path → dims = dims' ∧ path = file ++ ":/".toList ++ ds := by
    intro dims' ds h
    rcases h.inv with ⟨hm, ht⟩ | ⟨c, hm, h⟩
    · rw [List.cons.injEq, Node.text.injEq] at ht
      refine ⟨?_, ht.1.symm⟩
      simp only [List.mem_cons, List.not_mem_nil, or_false, Prod.mk.injEq] at hm
      rcases hm with ⟨h, -⟩ | ⟨h, -⟩ | ⟨-, h⟩ | ⟨h, -⟩
      · exact absurd h (by decide)
      · exact absurd h (by decide)
      · exact h
      · exact absurd h (by decide)
    · rw [List.mem_singleton] at hm
      subst hm
      exact h.not_text.elim
  have line : ∀ {name : List Char} {m : ℤ} {x : ℤ → K}, HasLine f name m x → ∃ D, f.arr name = some D ∧ num m = sizesText D.sizes := by
    rintro name m x ⟨D, h1, h2, -⟩
    exact ⟨D, h1, by rw [h2]; rfl⟩
  have field : ∀ {name : List Char} {x : Cell → K}, HasField f n name x → ∃ D, f.arr name = some D ∧ sizes n = sizesText D.sizes := by
    rintro name x ⟨D, h1, h2, -⟩
    exact ⟨D, h1, by rw [h2]; simp [sizes, sizesText]⟩
  have axis : ∀ a : Fin 3, ∃ D, f.arr (axisLabel a) = some D ∧ num (n a + 2 * g a + 1 - 2 * g a) = sizesText D.sizes := fun a => by
    obtain ⟨D, h1, h2⟩ := line (hf.inner a)
    rw [axisLabel_eq] at h1
    exact ⟨D, h1, by rw [show n a + 2 * g a + 1 - 2 * g a = n a + 1 by omega]; exact h2⟩
  have empty : ∀ {nm : List Char} {as : List (List Char × List Char)}, ¬ Refers (.elem nm as []) dims path := fun h => by
    rcases h.inv with ⟨-, h⟩ | ⟨c, h, -⟩
    · cases h
    · cases h
  rcases hr.inv with ⟨-, h⟩ | ⟨c, hm, h⟩
  · cases h
  rcases List.mem_append.1 hm with hm | hm
  · simp only [List.mem_cons, List.not_mem_nil, or_false] at hm
    rcases hm with rfl | rfl | rfl
    · exact absurd h empty
    · exact absurd h empty
    · rcases h.inv with ⟨-, h⟩ | ⟨c, hm, h⟩
      · cases h
      simp only [List.mem_cons, List.not_mem_nil, or_false] at hm
      rcases hm with rfl | rfl | rfl
      · obtain ⟨D, k1, k2⟩ := axis 0
        obtain ⟨h1, h2⟩ := item h
        exact ⟨axisLabel 0, D, h2, k1, h1.trans k2⟩
      · obtain ⟨D, k1, k2⟩ := axis 1
        obtain ⟨h1, h2⟩ := item h
        exact ⟨axisLabel 1, D, h2, k1, h1.trans k2⟩
      · obtain ⟨D, k1, k2⟩ := axis 2
        obtain ⟨h1, h2⟩ := item h
        exact ⟨axisLabel 2, D, h2, k1, h1.trans k2⟩
  · obtain ⟨v, hv, rfl⟩ := List.mem_map.1 hm
    rcases h.inv with ⟨-, h⟩ | ⟨c, hm, h⟩
    · rw [List.cons.injEq] at h
      cases h.1
    rw [List.mem_singleton] at hm
    subst hm
    obtain ⟨h1, h2⟩ := item h
    have : ∃ D, f.arr v = some D ∧ sizes n = sizesText D.sizes := by
      rcases (C45_variables nfx ndim h3 v).1 hv with (rfl | rfl | rfl | rfl) | ⟨i, hi, rfl⟩ | ⟨a, ha, rfl⟩
      · exact field hf.rho
      · exact field hf.P
      · exact field hf.E
      · exact field hf.T
      · exact field (hf.fx i hi)
      · exact field (hf.u a ha)
    obtain ⟨D, k1, k2⟩ := this
    exact ⟨v, D, h2, k1, h1.trans k2⟩

/-- **C79, violated.** With more than ten passive scalars no output can be written, whatever the state: the specification tree declares the datasets of ten. The
index would list the eleventh. -/
theorem C79_scalars_violated (zero : K) (ndim : ℕ) {nfx : ℕ} (h : 10 < nfx) (n g : Cell) (topo : Cell → GridTopo) (ranks : List Cell) (e : Exposed K) :
    (∃ msg, writeFile zero ndim nfx n g topo ranks e = .error msg) ∧ "fx10".toList ∈ varNames nfx ndim := by
  have e10 : "fx".toList ++ decimal 10 = "fx10".toList := by
    have : decimal 10 = ['1', '0'] := by simp [decimal, digit]
    rw [this]
    rfl
  constructor
  · cases hw : writeFile zero ndim nfx n g topo ranks e with
    | error msg => exact ⟨msg, rfl⟩
    | ok f =>
      unfold writeFile at hw
      cases h0 : writeReplicated zero n g e with
      | error msg => rw [h0] at hw; cases hw
      | ok f0 =>
        rw [h0] at hw
        change ((distributedOps ndim).foldlM (writeOp zero ndim nfx n topo ranks e.mem distributedSets) f0 >>= fun f =>
          (scalarOps nfx).foldlM (writeOp zero ndim nfx n topo ranks e.mem scalarSets) f) = _ at hw
        cases h1 : (distributedOps ndim).foldlM (writeOp zero ndim nfx n topo ranks e.mem distributedSets) f0 with
        | error msg => rw [h1] at hw; cases hw
        | ok f1 =>
          rw [h1] at hw
          obtain ⟨t, t', h2⟩ := foldlM_all (l := scalarOps nfx) hw ⟨.fx, [((10 : ℕ) : ℤ)], "fx".toList ++ decimal 10⟩ (List.mem_map.2 ⟨10, List.mem_range.2 h, rfl⟩)
          unfold writeOp at h2
          rw [if_neg (by rw [e10]; decide)] at h2
          cases h2
  · rw [varNames, ← e10]
    exact List.mem_append_left _ (List.mem_append_right _ (List.mem_map.2 ⟨10, List.mem_range.2 h, rfl⟩))

/-! ### Reading -/

theorem require_ok {α : Type} {x : Option α} {a : α} (h : require x = .ok a) : x = some a := by
  cases x with
  | none => cases h
  | some b => cases h; rfl

variable {n' : Cell} {ng' : ℤ} {nfx' : ℕ}

theorem readOp_ok {Y : Layout ndim n' ng'} (hN : ∀ a, 0 ≤ n' a) (hng : 0 ≤ ng') {r : Cell} (hr : inBox 0 Y.dims r) {f : H5 K} {G : Cell → K} {op : FieldOp}
    (hn : ∀ a, n' a ≤ n a) (hf : HasField f n op.dataset G) (ho : GoodOp ndim nfx' op) {mem : Source → View ℤ K}
    (hm : ∀ s, MemOk Y (comps ndim nfx' s) r (mem s)) :
    ∃ mem', readOp ndim nfx' (Y.topo r) f mem op = .ok mem' ∧ (∀ s, MemOk Y (comps ndim nfx' s) r (mem' s)) ∧
      (∀ c, Interior Y r c → elem Y r (mem' op.source) c (opIndex op) = G (globalOf n' Y.dims (nghostOf ndim ng') r c)) ∧
      ∀ s (l : ℕ) c, (∀ a, 0 ≤ c a ∧ c a < localExt n' Y.dims (nghostOf ndim ng') r a) → ¬ (s = op.source ∧ l = opIndex op ∧ Interior Y r c) →
        elem Y r (mem' s) c l = elem Y r (mem s) c l := by
  obtain ⟨D, h1, h2, h3⟩ := hf
  have hin : ∀ g, inBox 0 n' g → inBox 0 n g := fun g hg a => ⟨(hg a).1, lt_of_lt_of_le (hg a).2 (hn a)⟩
  obtain ⟨m, k1, k2, k3, k4⟩ := h5Read_dom ho Y hN hng hr (hm op.source) (dset := D.view) fun g hg => by
    show datasetDom D.sizes _ = true
    rw [h2]
    exact dataset_dom (hin g hg)
  refine ⟨fun s => if s = op.source then m else mem s, ?_, ?_, ?_, ?_⟩
  · unfold readOp
    rw [h1]
    simp only [require, bind, Except.bind, k1]
    rfl
  · intro s
    by_cases e : s = op.source
    · simp only [if_pos e]
      subst e
      unfold MemOk
      rw [k2]
      exact hm _
    · simp only [if_neg e]
      exact hm s
  · intro c hc
    simp only [if_true]
    rw [k3 c hc]
    exact h3 _ (hin _ (interior_global hN hr hc))
  · intro s l c hc hne
    by_cases e : s = op.source
    · simp only [if_pos e]
      subst e
      refine k4 _ fun c' hc' e' => hne ⟨rfl, ?_⟩
      obtain ⟨e1, e2⟩ := offset_inj (interior_inExt hng hc') hc e'
      subst e1
      exact ⟨by exact_mod_cast e2.symm, hc'⟩
    · simp only [if_neg e]

theorem readOps_ok {Y : Layout ndim n' ng'} (hN : ∀ a, 0 ≤ n' a) (hng : 0 ≤ ng') {r : Cell} (hr : inBox 0 Y.dims r) {f : H5 K} {G : Source → ℕ → Cell → K}
    (hn : ∀ a, n' a ≤ n a) (ops : List FieldOp) (hf : ∀ op ∈ ops, HasField f n op.dataset (G op.source (opIndex op))) (ho : ∀ op ∈ ops, GoodOp ndim nfx' op)
    {mem : Source → View ℤ K} (hm : ∀ s, MemOk Y (comps ndim nfx' s) r (mem s)) :
    ∃ mem', ops.foldlM (readOp ndim nfx' (Y.topo r) f) mem = .ok mem' ∧ (∀ s, MemOk Y (comps ndim nfx' s) r (mem' s)) ∧
      (∀ op ∈ ops, ∀ c, Interior Y r c → elem Y r (mem' op.source) c (opIndex op) = G op.source (opIndex op) (globalOf n' Y.dims (nghostOf ndim ng') r c)) ∧
      ∀ s (l : ℕ) c, (∀ a, 0 ≤ c a ∧ c a < localExt n' Y.dims (nghostOf ndim ng') r a) →
        (¬ Interior Y r c ∨ ∀ op ∈ ops, ¬ (s = op.source ∧ l = opIndex op)) → elem Y r (mem' s) c l = elem Y r (mem s) c l := by
  induction ops generalizing mem with
  | nil => exact ⟨mem, rfl, hm, fun op h => absurd h List.not_mem_nil, fun _ _ _ _ _ => rfl⟩
  | cons op ops ih =>
    obtain ⟨m1, a1, a2, a3, a4⟩ := readOp_ok hN hng hr hn (hf op List.mem_cons_self) (ho op List.mem_cons_self) hm
    obtain ⟨m2, b1, b2, b3, b4⟩ := ih (fun o h => hf o (List.mem_cons_of_mem _ h)) (fun o h => ho o (List.mem_cons_of_mem _ h)) a2
    refine ⟨m2, ?_, b2, ?_, ?_⟩
    · rw [List.foldlM_cons, a1]
      exact b1
    · intro o h c hc
      by_cases hh : ∃ o' ∈ ops, o.source = o'.source ∧ opIndex o = opIndex o'
      · obtain ⟨o', h', e1, e2⟩ := hh
        rw [e1, e2]
        exact b3 o' h' c hc
      · rcases List.mem_cons.1 h with rfl | h
        · rw [b4 _ _ c (interior_inExt hng hc) (Or.inr fun o' h' e => hh ⟨o', h', e⟩)]
          exact a3 c hc
        · exact absurd ⟨o, h, rfl, rfl⟩ hh
    · intro s l c hc hne
      rw [b4 s l c hc (hne.imp id fun h o ho => h o (List.mem_cons_of_mem _ ho)), a4 s l c hc]
      rintro ⟨e1, e2, hi⟩
      rcases hne with hne | hne
      · exact hne hi
      · exact hne op List.mem_cons_self ⟨e1, e2⟩

theorem checks_ok {m : Fin 3 → ℤ} {f : H5 K} (h : ∀ a, checkAxis f (nodesName a) (m a) = .ok ()) :
    ((List.finRange 3).forM fun a => checkAxis f (nodesName a) (m a)) = .ok () := by
  generalize List.finRange 3 = l
  induction l with
  | nil => rfl
  | cons a l ih =>
    change (checkAxis f (nodesName a) (m a) >>= fun _ => l.forM fun a => checkAxis f (nodesName a) (m a)) = _
    rw [h a]
    exact ih

theorem checks_all {m : Fin 3 → ℤ} {f : H5 K} (h : ((List.finRange 3).forM fun a => checkAxis f (nodesName a) (m a)) = .ok ()) (a : Fin 3) :
    checkAxis f (nodesName a) (m a) = .ok () := by
  have hm : a ∈ List.finRange 3 := List.mem_finRange a
  generalize List.finRange 3 = l at h hm
  induction l with
  | nil => cases hm
  | cons b l ih =>
    change (checkAxis f (nodesName b) (m b) >>= fun _ => l.forM fun a => checkAxis f (nodesName a) (m a)) = _ at h
    cases hb : checkAxis f (nodesName b) (m b) with
    | error msg => rw [hb] at h; cases h
    | ok u =>
      rw [hb] at h
      rcases List.mem_cons.1 hm with rfl | hm
      · exact hb
      · exact ih h hm

theorem checkAxis_line {f : H5 K} {name : List Char} {m : ℤ} {x : ℤ → K} (h : HasLine f name m x) (k : ℤ) : checkAxis f name k = .ok () ↔ m = k := by
  obtain ⟨D, h1, h2, -⟩ := h
  unfold checkAxis
  rw [h1]
  simp only [require, bind, Except.bind, h2, List.length_singleton, ne_eq, not_true, if_false, List.cons.injEq, and_true]
  by_cases e : m = k
  · simp [e, pure, Except.pure]
  · simp [e, throw, throwThe, MonadExceptOf.throw]

theorem readNodes_line {f : H5 K} {a : Fin 3} {m : ℤ} {x : ℤ → K} (h : HasLine f (nodesName a) m x) {n g : Cell} (e : n a + 2 * g a + 1 = m) :
    ∃ v, readNodes f n g a = .ok v ∧ ∀ i, v.rd i = if 0 ≤ i ∧ i < m then some (x i) else none := by
  obtain ⟨D, h1, h2, h3⟩ := h
  refine ⟨View.line (n a + 2 * g a + 1) fun i => D.val [i], ?_, fun i => ?_⟩
  · unfold readNodes
    rw [h1]
    rfl
  · rw [e]
    by_cases hi : 0 ≤ i ∧ i < m
    · rw [if_pos hi, View.rd_of_dom (by simpa [View.line] using hi)]
      show some (D.val [i]) = _
      rw [h3 i hi.1 hi.2]
    · rw [if_neg hi]
      simp only [View.rd, View.line, decide_eq_true_eq, if_neg hi]

/-- **C79, restart.** A rank of a run configured with `n'` cells, `ng'` ghosts and `nfx'` scalars reads a file with at least as many cells and scalars, and the same
extents with ghosts: whatever its process grid, it ends with the counters, the time and the nodes of the file, and inside its part of the domain with the density,
the pressure, the velocity and the scalars that the file has for the cells of the same index. The halos keep what they held. -/
theorem C79_restart (h1 : 1 ≤ ndim) (h3 : ndim ≤ 3) {g : Cell} {oi ii ti it : ℤ} {t gamma : K} {X : Fin 3 → ℤ → K} {G : Source → ℕ → Cell → K} {f : H5 K}
    (hf : Holds ndim nfx n g oi ii ti it t gamma X G f) (Y : Layout ndim n' ng') (hN : ∀ a, 0 ≤ n' a) (hng : 0 ≤ ng')
    (hext : ∀ a, n' a + 2 * nghostOf ndim ng' a = n a + 2 * g a) (hn : ∀ a, n' a ≤ n a) (hfx : nfx' ≤ nfx) {r : Cell} (hr : inBox 0 Y.dims r)
    {mem : Source → View ℤ K} (hm : ∀ s, MemOk Y (comps ndim nfx' s) r (mem s)) :
    ∃ L, readFile ndim nfx' n' (nghostOf ndim ng') (Y.topo r) f mem = .ok L ∧ L.outputId = oi ∧ L.iterOutputId = ii ∧ L.timeOutputId = ti ∧ L.iter = it ∧ L.t = t ∧
      (∀ a i, (L.axis a).rd i = if 0 ≤ i ∧ i < n' a + 2 * nghostOf ndim ng' a + 1 then some (X a i) else none) ∧
      (∀ c, Interior Y r c →
        elem Y r (L.mem .rho) c 0 = G .rho 0 (globalOf n' Y.dims (nghostOf ndim ng') r c) ∧
        elem Y r (L.mem .P) c 0 = G .P 0 (globalOf n' Y.dims (nghostOf ndim ng') r c) ∧
        (∀ a < ndim, elem Y r (L.mem .u) c a = G .u a (globalOf n' Y.dims (nghostOf ndim ng') r c)) ∧
        ∀ i < nfx', elem Y r (L.mem .fx) c i = G .fx i (globalOf n' Y.dims (nghostOf ndim ng') r c)) ∧
      ∀ s (l : ℕ) c, (∀ a, 0 ≤ c a ∧ c a < localExt n' Y.dims (nghostOf ndim ng') r a) → ¬ Interior Y r c → elem Y r (L.mem s) c l = elem Y r (mem s) c l := by
  have hnodes : ∀ a, HasLine f (nodesName a) (n a + 2 * g a + 1) (X a) := fun a => nodesName_eq a ▸ hf.nodes a
  have hc := checks_ok (m := fun a => n' a + 2 * nghostOf ndim ng' a + 1) (f := f) fun a => (checkAxis_line (hnodes a) _).2 (by rw [hext a])
  have hu : ∀ op ∈ velocityOps ndim, HasField f n op.dataset (G op.source (opIndex op)) := fun op ho => by
    have key : ∀ a : ℕ, a < ndim → HasField f n ("ux".toList ++ [digit a]) (G .u a) := fun a ha => by
      have := hf.u a ha
      rwa [decimal_small (by omega)] at this
    unfold velocityOps at ho
    rcases List.mem_append.1 ho with ho | ho
    · rcases List.mem_append.1 ho with ho | ho
      · rw [List.mem_singleton] at ho
        subst ho
        exact key 0 (by omega)
      · split at ho
        · rw [List.mem_singleton] at ho
          subst ho
          exact key 1 (by omega)
        · cases ho
    · split at ho
      · rw [List.mem_singleton] at ho
        subst ho
        exact key 2 (by omega)
      · cases ho
  have hops : ∀ op ∈ readOps ndim, HasField f n op.dataset (G op.source (opIndex op)) ∧ GoodOp ndim nfx' op := fun op ho => by
    unfold readOps at ho
    rcases List.mem_append.1 ho with ho | ho
    · rcases List.mem_append.1 ho with ho | ho
      · rw [List.mem_singleton] at ho
        subst ho
        exact ⟨hf.rho, single_good rfl ⟨by decide, by decide⟩⟩
      · exact ⟨hu op ho, velocity_good h1 ho⟩
    · rw [List.mem_singleton] at ho
      subst ho
      exact ⟨hf.P, single_good rfl ⟨by decide, by decide⟩⟩
  have hsc : ∀ op ∈ scalarOps nfx', HasField f n op.dataset (G op.source (opIndex op)) := fun op ho => by
    simp only [scalarOps, List.mem_map, List.mem_range] at ho
    obtain ⟨i, hi, rfl⟩ := ho
    have := hf.fx i (by omega)
    simpa [opIndex] using this
  obtain ⟨m1, a1, a2, a3, a4⟩ := readOps_ok hN hng hr hn (readOps ndim) (fun op ho => (hops op ho).1) (fun op ho => (hops op ho).2) hm
  obtain ⟨m2, b1, b2, b3, b4⟩ := readOps_ok hN hng hr hn (scalarOps nfx') hsc (fun op ho => scalar_good le_rfl ho) a2
  have hx : ∀ a, ∃ v, readNodes f n' (nghostOf ndim ng') a = .ok v ∧
      ∀ i, v.rd i = if 0 ≤ i ∧ i < n a + 2 * g a + 1 then some (X a i) else none := fun a => readNodes_line (hnodes a) (by rw [hext a])
  obtain ⟨x0, x01, x02⟩ := hx 0
  obtain ⟨x1, x11, x12⟩ := hx 1
  obtain ⟨x2, x21, x22⟩ := hx 2
  obtain ⟨T, t1, -, t3⟩ := hf.time
  have hother : ∀ op ∈ scalarOps nfx', op.source = .fx := fun op ho => by
    simp only [scalarOps, List.mem_map, List.mem_range] at ho
    obtain ⟨i, hi, rfl⟩ := ho
    rfl
  refine ⟨⟨oi, ii, ti, it, t, ![x0, x1, x2], m2⟩, ?_, rfl, rfl, rfl, rfl, rfl, ?_, ?_, ?_⟩
  · unfold readFile
    rw [hc]
    simp only [bind, Except.bind, hf.outputId, hf.iterOutputId, hf.timeOutputId, hf.iter, t1, require, x01, x11, x21, a1, b1, t3, pure, Except.pure]
  · intro a i
    rw [hext a]
    fin_cases a
    · exact x02 i
    · exact x12 i
    · exact x22 i
  · intro c hc
    have hi := interior_inExt hng hc
    refine ⟨?_, ?_, ?_, ?_⟩
    · exact (b4 .rho 0 c hi (Or.inr fun op ho e => by rw [hother op ho] at e; cases e.1)).trans
        (a3 ⟨.rho, [], "rho".toList⟩ (by simp [readOps]) c hc)
    · exact (b4 .P 0 c hi (Or.inr fun op ho e => by rw [hother op ho] at e; cases e.1)).trans
        (a3 ⟨.P, [], "P".toList⟩ (by simp [readOps]) c hc)
    · intro a ha
      have := a3 ⟨.u, [(a : ℤ)], "ux".toList ++ decimal a⟩ (List.mem_append_left _ (List.mem_append_right _ (velocity_name ha h3))) c hc
      rw [show opIndex ⟨.u, [(a : ℤ)], "ux".toList ++ decimal a⟩ = a by simp [opIndex]] at this
      exact (b4 .u a c hi (Or.inr fun op ho e => by rw [hother op ho] at e; cases e.1)).trans this
    · intro i hi
      have := b3 ⟨.fx, [(i : ℤ)], "fx".toList ++ decimal i⟩ (List.mem_map.2 ⟨i, List.mem_range.2 hi, rfl⟩) c hc
      rwa [show opIndex ⟨.fx, [(i : ℤ)], "fx".toList ++ decimal i⟩ = i by simp [opIndex]] at this
  · intro s l c hc hne
    exact (b4 s l c hc (Or.inl hne)).trans (a4 s l c hc (Or.inl hne))

/-- **C79, round trip.** What a run writes, a run of the same configuration reads back: whatever the two process grids and the order of the writes, each reading rank
gets the counters, the time, all nodes, and its part of the density, pressure, velocity and scalars. Missing: more than ten
scalars (`C79_scalars_violated`). -/
theorem C79_roundtrip_partial (zero : K) (h1 : 1 ≤ ndim) (h3 : ndim ≤ 3) (hfx : nfx ≤ 10) {Y Y' : Layout ndim n ng} {e : Exposed K} {X : Fin 3 → ℤ → K}
    {G : Source → ℕ → Cell → K} (h : Exposes Y nfx e X G) (hN : ∀ a, 0 ≤ n a) (hng : 0 ≤ ng) {ranks : List Cell} (hranks : ∀ r, r ∈ ranks ↔ inBox 0 Y.dims r)
    {r : Cell} (hr : inBox 0 Y'.dims r) {mem : Source → View ℤ K} (hm : ∀ s, MemOk Y' (comps ndim nfx s) r (mem s)) :
    ∃ f L, writeFile zero ndim nfx n (nghostOf ndim ng) Y.topo ranks e = .ok f ∧ readFile ndim nfx n (nghostOf ndim ng) (Y'.topo r) f mem = .ok L ∧
      L.outputId = e.outputId ∧ L.iterOutputId = e.iterOutputId ∧ L.timeOutputId = e.timeOutputId ∧ L.iter = e.iter ∧ L.t = e.t ∧
      (∀ a i, (L.axis a).rd i = (e.axis a).rd i) ∧
      ∀ c, Interior Y' r c →
        elem Y' r (L.mem .rho) c 0 = G .rho 0 (globalOf n Y'.dims (nghostOf ndim ng) r c) ∧
        elem Y' r (L.mem .P) c 0 = G .P 0 (globalOf n Y'.dims (nghostOf ndim ng) r c) ∧
        (∀ a < ndim, elem Y' r (L.mem .u) c a = G .u a (globalOf n Y'.dims (nghostOf ndim ng) r c)) ∧
        ∀ i < nfx, elem Y' r (L.mem .fx) c i = G .fx i (globalOf n Y'.dims (nghostOf ndim ng) r c) := by
  obtain ⟨f, w1, w2, -, -⟩ := C79_content_partial zero h1 h3 hfx h hN hng hranks
  obtain ⟨L, l1, l2, l3, l4, l5, l6, l7, l8, -⟩ := C79_restart h1 h3 w2 Y' hN hng (fun _ => rfl) (fun _ => le_rfl) le_rfl hr hm
  refine ⟨f, L, w1, l1, l2, l3, l4, l5, l6, fun a i => ?_, l8⟩
  rw [l7, h.axis a]
  by_cases hi : 0 ≤ i ∧ i < n a + 2 * nghostOf ndim ng a + 1
  · rw [if_pos hi, View.rd_of_dom (by simpa [View.line] using hi)]
    rfl
  · rw [if_neg hi]
    simp only [View.rd, View.line, decide_eq_true_eq, if_neg hi]

/-- **C79, refusals.** A file is refused when the extent with ghosts differs in some direction, when the run has more scalars than the file, and when it has more
dimensions. Missing: another number of ghosts, another gas (`C79_ghosts_violated`, `C79_gas_violated`). -/
theorem C79_refused_partial {g : Cell} {oi ii ti it : ℤ} {t gamma : K} {X : Fin 3 → ℤ → K} {G : Source → ℕ → Cell → K} {f : H5 K}
    (hf : Holds ndim nfx n g oi ii ti it t gamma X G f) (hs : ∀ i, nfx ≤ i → f.arr ("fx".toList ++ decimal i) = none)
    (hu : ∀ a, ndim ≤ a → a < 3 → f.arr ("ux".toList ++ decimal a) = none) {ndim' : ℕ} (h3 : ndim' ≤ 3) {n' g' : Cell}
    (h : (∃ a, n' a + 2 * g' a ≠ n a + 2 * g a) ∨ nfx < nfx' ∨ ndim < ndim') (topo : GridTopo) (mem : Source → View ℤ K) :
    ∃ msg, readFile ndim' nfx' n' g' topo f mem = .error msg := by
  cases hw : readFile ndim' nfx' n' g' topo f mem with
  | error msg => exact ⟨msg, rfl⟩
  | ok L =>
    exfalso
    unfold readFile at hw
    cases hc : ((List.finRange 3).forM fun a => checkAxis f (nodesName a) (n' a + 2 * g' a + 1)) with
    | error msg => rw [hc] at hw; cases hw
    | ok u =>
      rw [hc] at hw
      obtain ⟨T, t1, -, t3⟩ := hf.time
      have hx : ∀ a, ∃ v, readNodes f n' g' a = .ok v := fun a => by
        obtain ⟨D, d1, -⟩ := hf.nodes a
        rw [nodesName_eq] at d1
        unfold readNodes
        rw [d1]
        exact ⟨_, rfl⟩
      obtain ⟨x0, x01⟩ := hx 0
      obtain ⟨x1, x11⟩ := hx 1
      obtain ⟨x2, x21⟩ := hx 2
      simp only [bind, Except.bind, hf.outputId, hf.iterOutputId, hf.timeOutputId, hf.iter, t1, require, x01, x11, x21] at hw
      have miss : ∀ {op : FieldOp} {m m' : Source → View ℤ K}, f.arr op.dataset = none → readOp ndim' nfx' topo f m op ≠ .ok m' := fun hop hh => by
        unfold readOp at hh
        rw [hop] at hh
        cases hh
      cases h4 : (readOps ndim').foldlM (readOp ndim' nfx' topo f) mem with
      | error msg => rw [h4] at hw; cases hw
      | ok m1 =>
        rw [h4] at hw
        cases h5 : (scalarOps nfx').foldlM (readOp ndim' nfx' topo f) m1 with
        | error msg => simp only [h5] at hw; cases hw
        | ok m2 =>
          rcases h with ⟨a, ha⟩ | h | h
          · have := checks_all (m := fun a => n' a + 2 * g' a + 1) hc a
            have hl : HasLine f (nodesName a) (n a + 2 * g a + 1) (X a) := nodesName_eq a ▸ hf.nodes a
            have := (checkAxis_line hl _).1 this
            omega
          · obtain ⟨s, s', k⟩ := foldlM_all h5 ⟨.fx, [(nfx : ℤ)], "fx".toList ++ decimal nfx⟩ (List.mem_map.2 ⟨nfx, List.mem_range.2 h, rfl⟩)
            exact miss (hs nfx le_rfl) k
          · obtain ⟨s, s', k⟩ := foldlM_all h4 ⟨.u, [(ndim : ℤ)], "ux".toList ++ decimal ndim⟩
              (List.mem_append_left _ (List.mem_append_right _ (velocity_name h h3)))
            exact miss (hu ndim le_rfl (by omega)) k

/-- **C79, violated.** A restart does not notice another number of ghosts: with one more on each side and two cells fewer, a file is accepted, and every cell takes the
values that the file has for a cell of other bounds (the left bound of cell `c` is node `c + ng'`, that of the cell of the file with these values is node
`c + ng`). -/
theorem C79_ghosts_violated {oi ii ti it : ℤ} {t gamma : K} {X : Fin 3 → ℤ → K} {G : Source → ℕ → Cell → K} {f : H5 K}
    (hf : Holds 3 nfx n (nghostOf 3 ng) oi ii ti it t gamma X G f) (hng : 0 ≤ ng) (hn : ∀ a, 2 ≤ n a)
    (Y : Layout 3 (fun a => n a - 2) (ng + 1)) {r : Cell} (hr : inBox 0 Y.dims r) {mem : Source → View ℤ K}
    (hm : ∀ s, MemOk Y (comps 3 nfx s) r (mem s)) (hX : ∀ a, Function.Injective (X a)) :
    ∃ L, readFile 3 nfx (fun a => n a - 2) (nghostOf 3 (ng + 1)) (Y.topo r) f mem = .ok L ∧
      ∀ c, inBox 0 (fun a => n a - 2) c → ∀ a, ∃ x, (L.axis a).rd (c a + nghostOf 3 (ng + 1) a) = some x ∧ x ≠ X a (c a + nghostOf 3 ng a) ∧
        ∀ l, Interior Y r l → globalOf (fun a => n a - 2) Y.dims (nghostOf 3 (ng + 1)) r l = c → elem Y r (L.mem .rho) l 0 = G .rho 0 c := by
  have hgh : ∀ k a, nghostOf 3 k a = k := fun k a => by
    unfold nghostOf
    rw [if_pos a.2]
  obtain ⟨L, l1, -, -, -, -, -, l7, l8, -⟩ := C79_restart (nfx' := nfx) (by omega) le_rfl hf Y (fun a => by have := hn a; omega) (by omega)
    (fun a => by simp only [hgh]; omega) (fun a => by omega) le_rfl hr hm
  refine ⟨L, l1, fun c hc a => ⟨X a (c a + nghostOf 3 (ng + 1) a), ?_, ?_, fun l hl e => ?_⟩⟩
  · rw [l7, if_pos]
    have := hc a
    simp only [Pi.zero_apply, hgh] at this ⊢
    omega
  · intro e
    have := hX a e
    simp only [hgh] at this
    omega
  · rw [(l8 l hl).1, e]

theorem readFile_congr {ndim' : ℕ} {n' g' : Cell} {topo : GridTopo} {f f' : H5 K} {mem : Source → View ℤ K} (hi : f'.int = f.int)
    (ha : ∀ s, s ≠ "gamma".toList → f'.arr s = f.arr s) : readFile ndim' nfx' n' g' topo f' mem = readFile ndim' nfx' n' g' topo f mem := by
  have hx : ∀ a, f'.arr (nodesName a) = f.arr (nodesName a) := fun a => ha _ (by fin_cases a <;> decide)
  have hop : ∀ op ∈ readOps ndim' ++ scalarOps nfx', ∀ m, readOp ndim' nfx' topo f' m op = readOp ndim' nfx' topo f m op := fun op ho m => by
    unfold readOp
    rw [ha]
    rcases List.mem_append.1 ho with ho | ho
    · unfold readOps velocityOps at ho
      rcases List.mem_append.1 ho with ho | ho
      · rcases List.mem_append.1 ho with ho | ho
        · rw [List.mem_singleton] at ho
          subst ho
          decide
        · rcases List.mem_append.1 ho with ho | ho
          · rcases List.mem_append.1 ho with ho | ho
            · rw [List.mem_singleton] at ho
              subst ho
              decide
            · split at ho
              · rw [List.mem_singleton] at ho
                subst ho
                decide
              · cases ho
          · split at ho
            · rw [List.mem_singleton] at ho
              subst ho
              decide
            · cases ho
      · rw [List.mem_singleton] at ho
        subst ho
        decide
    · intro e
      refine scalarName_ne (s := "gamma".toList) (by decide) (nfx := nfx') ?_
      rw [← e]
      exact List.mem_map_of_mem ho
  have hnodes : ∀ a, readNodes f' n' g' a = readNodes f n' g' a := fun a => by
    unfold readNodes
    rw [hx]
  unfold readFile checkAxis
  have r1 : ∀ m, (readOps ndim').foldlM (readOp ndim' nfx' topo f') m = (readOps ndim').foldlM (readOp ndim' nfx' topo f) m := fun m =>
    foldlM_congr (fun op ho => hop op (List.mem_append_left _ ho)) m
  have r2 : ∀ m, (scalarOps nfx').foldlM (readOp ndim' nfx' topo f') m = (scalarOps nfx').foldlM (readOp ndim' nfx' topo f) m := fun m =>
    foldlM_congr (fun op ho => hop op (List.mem_append_right _ ho)) m
  simp only [hx, hi, hnodes, ha "current_time".toList (by decide), r1, r2]

/-- **C79, violated.** The coefficient of the gas in the file is not looked at: a restart with another gas is accepted, whatever the file says. -/
theorem C79_gas_violated {ndim' : ℕ} {n' g' : Cell} (topo : GridTopo) (f : H5 K) (mem : Source → View ℤ K) (D : Dset K) :
    readFile ndim' nfx' n' g' topo (f.put "gamma".toList D) mem = readFile ndim' nfx' n' g' topo f mem :=
  readFile_congr rfl fun _ h => H5.put_other f D h

/-- Memory that exposes any given nodes and fields. -/
theorem exposes_exists (Y : Layout ndim n ng) (hng : 0 ≤ ng) (nfx : ℕ) (zero t gamma : K) (X : Fin 3 → ℤ → K) (G : Source → ℕ → Cell → K) :
    ∃ e, Exposes Y nfx e X G ∧ e.t = t ∧ e.gamma = gamma ∧ e.outputId = 0 ∧ e.iterOutputId = 0 ∧ e.timeOutputId = 0 ∧ e.iter = 0 := by
  classical
  let P : Cell → ℤ → Cell × ℕ → Prop := fun r o p => (∀ a, 0 ≤ p.1 a ∧ p.1 a < localExt n Y.dims (nghostOf ndim ng) r a) ∧
    offsetLeft (localExt n Y.dims (nghostOf ndim ng) r) p.1 p.2 = o
  refine ⟨⟨0, 0, 0, 0, t, gamma, fun a => View.line (n a + 2 * nghostOf ndim ng a + 1) (X a), fun s r =>
    View.line (localExt n Y.dims (nghostOf ndim ng) r 0 * (localExt n Y.dims (nghostOf ndim ng) r 1
      * (localExt n Y.dims (nghostOf ndim ng) r 2 * (comps ndim nfx s : ℤ)))) fun o =>
        if h : ∃ p, P r o p then G s h.choose.2 (globalOf n Y.dims (nghostOf ndim ng) r h.choose.1) else zero⟩,
    ⟨fun _ => rfl, fun _ _ _ => rfl, fun s r hr l hl c hc => ?_⟩, rfl, rfl, rfl, rfl, rfl, rfl⟩
  have hp : ∃ p, P r (offsetLeft (localExt n Y.dims (nghostOf ndim ng) r) c l) p := ⟨(c, l), interior_inExt hng hc, rfl⟩
  show (if h : ∃ p, P r (offsetLeft (localExt n Y.dims (nghostOf ndim ng) r) c l) p then _ else zero) = _
  rw [dif_pos hp]
  obtain ⟨e1, e2⟩ := offset_inj hp.choose_spec.1 (interior_inExt hng hc) hp.choose_spec.2
  rw [e1, show hp.choose.2 = l by exact_mod_cast e2]

/-- A state of 5 × 7 cells with two scalars on 2 × 3 ranks, read back by 3 × 2 ranks: the hypotheses of the round trip hold, for any nodes and fields. -/
example (X : Fin 3 → ℤ → ℤ) (G : Source → ℕ → Cell → ℤ) : ∃ (Y Y' : Layout 2 ![5, 7, 1] 2) (e : Exposed ℤ) (ranks : List Cell) (mem : Source → View ℤ ℤ),
    Y.dims = ![2, 3, 1] ∧ Y'.dims = ![3, 2, 1] ∧ Exposes Y 2 e X G ∧ (∀ r, r ∈ ranks ↔ inBox 0 Y.dims r) ∧ inBox 0 Y'.dims ![2, 1, 0] ∧
      ∀ s, MemOk Y' (comps 2 2 s) ![2, 1, 0] (mem s) := by
  have hN : ∀ a, (0 : ℤ) ≤ (![5, 7, 1] : Cell) a := by decide
  obtain ⟨e, he, -⟩ := exposes_exists (mkLayout 2 ![5, 7, 1] 2 hN ![2, 3, 1] (by decide)) (by decide) 2 0 0 0 X G
  obtain ⟨e', he', -⟩ := exposes_exists (mkLayout 2 ![5, 7, 1] 2 hN ![3, 2, 1] (by decide)) (by decide) 2 0 0 0 X G
  have hr : inBox 0 (![3, 2, 1] : Cell) ![2, 1, 0] := by unfold inBox; decide
  exact ⟨_, _, e, (cells 0 ![2, 3, 1]).toList, fun s => e'.mem s ![2, 1, 0], rfl, rfl, he, fun r => Finset.mem_toList.trans mem_cells, hr, fun s => he'.mem s _ hr⟩

/-- A file of 100 × 100 × 100 cells with two ghosts and the nodes `0, 1, 2, …`: the hypotheses of `C79_refused_partial` and `C79_ghosts_violated` hold; a run with
98 × 98 × 98 cells and three ghosts takes it. -/
example (G : Source → ℕ → Cell → ℤ) : ∃ (f : H5 ℤ) (Y : Layout 3 (fun _ => 100 - 2) (2 + 1)) (r : Cell) (mem : Source → View ℤ ℤ),
    Holds 3 1 (fun _ => 100) (nghostOf 3 2) 0 0 0 0 7 5 (fun _ i => i) G f ∧ (∀ i, 1 ≤ i → f.arr ("fx".toList ++ decimal i) = none) ∧
      (∀ a, 3 ≤ a → a < 3 → f.arr ("ux".toList ++ decimal a) = none) ∧ inBox 0 Y.dims r ∧ (∀ s, MemOk Y (comps 3 1 s) r (mem s)) ∧
      ∃ L, readFile 3 1 (fun _ => 100 - 2) (nghostOf 3 (2 + 1)) (Y.topo r) f mem = .ok L := by
  have hN : ∀ a, (0 : ℤ) ≤ (fun _ => 100 : Cell) a := by decide
  have hN' : ∀ a, (0 : ℤ) ≤ (fun _ => 100 - 2 : Cell) a := by decide
  obtain ⟨e, he, ht, hg, h1, h2, h3, h4⟩ := exposes_exists (mkLayout 3 (fun _ => 100) 2 hN ![2, 3, 4] (by decide)) (by decide) 1 (0 : ℤ) 7 5 (fun _ i => i) G
  obtain ⟨f, -, f2, f3, f4⟩ := C79_content_partial 0 (by decide) le_rfl (by decide) he hN (by decide) (ranks := (cells 0 ![2, 3, 4]).toList) fun r => Finset.mem_toList.trans mem_cells
  rw [ht, hg, h1, h2, h3, h4] at f2
  obtain ⟨e', he', -⟩ := exposes_exists (mkLayout 3 (fun _ => 100 - 2) (2 + 1) hN' ![1, 2, 1] (by decide)) (by decide) 1 (0 : ℤ) 0 0 (fun _ i => i) G
  have hr : inBox 0 (![1, 2, 1] : Cell) ![0, 1, 0] := by unfold inBox; decide
  obtain ⟨L, hL, -⟩ := C79_ghosts_violated (n := fun _ => 100) f2 (by decide) (by decide) (mkLayout 3 (fun _ => 100 - 2) (2 + 1) hN' ![1, 2, 1] (by decide)) hr
    (fun s => he'.mem s _ hr) (fun _ => Function.injective_id)
  exact ⟨_, _, _, fun s => e'.mem s ![0, 1, 0], f2, f3, f4, hr, fun s => he'.mem s _ hr, L, hL⟩

end Heracles
