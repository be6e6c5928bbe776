import Verif.Model.Restart
import Verif.Spec.Ghost
import Verif.Lemmas.Mesh
import Mathlib.Tactic.Linarith
import Mathlib.Tactic.Ring

/-!
# C43: saved fields read back identically under any decomposition
-/

namespace Heracles

variable {V : Type}

/-! ### Lists of indices -/

theorem intRange_shift (b n : ℤ) : intRange b (b + n) = (intRange 0 n).map (fun i => b + i) := by
  simp [intRange, Function.comp_def]

theorem intRange_one (b : ℤ) : intRange b (b + 1) = [b] := by
  have : b + 1 - b = 1 := by omega
  rw [intRange, this]; simp

theorem indices3 (b2 b1 b0 n2 n1 n0 : ℤ) :
    indices [b2, b1, b0] [n2, n1, n0] = (boxList 0 ![n2, n1, n0]).map fun m => [b2 + m 0, b1 + m 1, b0 + m 2] := by
  simp [indices, boxList, intRange_shift b2, intRange_shift b1, intRange_shift b0, List.map_flatMap, List.flatMap_map, Function.comp_def,
    ← List.map_eq_flatMap]

theorem indices_lead (l : ℤ) (bs ns : List ℤ) : indices (l :: bs) (1 :: ns) = (indices bs ns).map fun is => l :: is := by
  rw [indices, intRange_one]; simp

/-- How an array is exposed: alone, or as component `l` of an array with `L` components. -/
def Shape (lead comp : List ℤ) (L l : ℤ) : Prop := (lead = [] ∧ comp = [] ∧ L = 1 ∧ l = 0) ∨ (lead = [L] ∧ comp = [l] ∧ 0 ≤ l ∧ l < L)

theorem zip_selections {lead comp : List ℤ} {L l : ℤ} (h : Shape lead comp L l) (t : GridTopo) :
    (indices (memSelection comp t).start (memSelection comp t).size).zip (indices (dataSelection t).start (dataSelection t).size)
      = (boxList 0 ![t.nxLocal 2, t.nxLocal 1, t.nxLocal 0]).map fun m =>
        (comp ++ [t.nghost 2 + m 0, t.nghost 1 + m 1, t.nghost 0 + m 2],
          [t.range.cornerMin 2 + m 0, t.range.cornerMin 1 + m 1, t.range.cornerMin 0 + m 2]) := by
  rcases h with ⟨rfl, rfl, rfl, rfl⟩ | ⟨rfl, rfl, -, -⟩
  · simp only [memSelection, dataSelection, List.map_nil, List.nil_append, indices3]
    rw [List.zip_map']
  · simp only [memSelection, dataSelection, List.map_cons, List.map_nil, List.cons_append, List.nil_append, indices_lead, indices3, List.map_map,
      Function.comp_def]
    rw [List.zip_map']

theorem length_selections {lead comp : List ℤ} {L l : ℤ} (h : Shape lead comp L l) (t : GridTopo) :
    (indices (memSelection comp t).start (memSelection comp t).size).length
      = (indices (dataSelection t).start (dataSelection t).size).length := by
  rcases h with ⟨rfl, rfl, rfl, rfl⟩ | ⟨rfl, rfl, -, -⟩
  · simp [memSelection, dataSelection, indices3]
  · simp [memSelection, dataSelection, indices_lead, indices3]

theorem rowMajor_offset {lead comp : List ℤ} {L l : ℤ} (h : Shape lead comp L l) (t : GridTopo) (k j i : ℤ) :
    rowMajor (memSizes lead t) (comp ++ [k, j, i]) = offsetLeft t.nxLocalWg ![i, j, k] l := by
  rcases h with ⟨rfl, rfl, rfl, rfl⟩ | ⟨rfl, rfl, -, -⟩ <;>
    simp [rowMajor, memSizes, offsetLeft] <;> ring

/-! ### Offsets -/

theorem offset_bounds {ext c : Cell} {L l : ℤ} (hc : ∀ a, 0 ≤ c a ∧ c a < ext a) (hl : 0 ≤ l ∧ l < L) :
    0 ≤ offsetLeft ext c l ∧ offsetLeft ext c l < ext 0 * (ext 1 * (ext 2 * L)) := by
  have step : ∀ {i e t T : ℤ}, 0 ≤ i ∧ i < e → 0 ≤ t ∧ t < T → 0 ≤ i + e * t ∧ i + e * t < e * T := by
    intro i e t T hi ht
    have h1 : 0 ≤ e * t := mul_nonneg (by omega) ht.1
    have h2 : e * (t + 1) ≤ e * T := mul_le_mul_of_nonneg_left (by omega) (by omega)
    rw [mul_add] at h2
    omega
  exact step (hc 0) (step (hc 1) (step (hc 2) hl))

theorem offset_inj {ext c c' : Cell} {l l' : ℤ} (hc : ∀ a, 0 ≤ c a ∧ c a < ext a) (hc' : ∀ a, 0 ≤ c' a ∧ c' a < ext a)
    (h : offsetLeft ext c l = offsetLeft ext c' l') : c = c' ∧ l = l' := by
  have step : ∀ {i j e t t' : ℤ}, 0 ≤ i ∧ i < e → 0 ≤ j ∧ j < e → i + e * t = j + e * t' → i = j ∧ t = t' := by
    intro i j e t t' hi hj h
    have h1 : (i + e * t) % e = i := by rw [Int.add_mul_emod_self_left, Int.emod_eq_of_lt hi.1 hi.2]
    have h2 : (j + e * t') % e = j := by rw [Int.add_mul_emod_self_left, Int.emod_eq_of_lt hj.1 hj.2]
    have h3 : i = j := by rw [← h1, ← h2, h]
    subst h3
    have h4 : e * t = e * t' := by omega
    exact ⟨rfl, Int.eq_of_mul_eq_mul_left (by omega) h4⟩
  obtain ⟨e0, h⟩ := step (hc 0) (hc' 0) h
  obtain ⟨e1, h⟩ := step (hc 1) (hc' 1) h
  obtain ⟨e2, h⟩ := step (hc 2) (hc' 2) h
  refine ⟨?_, h⟩
  funext a
  fin_cases a
  · exact e0
  · exact e1
  · exact e2

/-! ### Transfers -/

/-- A loop that writes `src a` at `tgt a`. -/
theorem parFor_scatter {α ι : Type} [DecidableEq ι] (l : List α) (tgt : α → ι) (src : α → V) (body : α → View ι V → Option (View ι V))
    (v : View ι V) (hb : ∀ a ∈ l, ∀ w : View ι V, w.dom = v.dom → body a w = some { w with val := Function.update w.val (tgt a) (src a) })
    (hinj : ∀ a ∈ l, ∀ b ∈ l, tgt a = tgt b → src a = src b) :
    ∃ w, parFor l body v = some w ∧ w.dom = v.dom ∧ (∀ x, (∀ a ∈ l, tgt a ≠ x) → w.val x = v.val x) ∧ ∀ a ∈ l, w.val (tgt a) = src a := by
  induction l generalizing v with
  | nil => exact ⟨v, rfl, rfl, fun _ _ => rfl, fun a ha => by cases ha⟩
  | cons a l ih =>
    obtain ⟨w, h1, h2, h3, h4⟩ := ih { v with val := Function.update v.val (tgt a) (src a) }
      (fun b hb' w hw => hb b (by simp [hb']) w hw) (fun b hb c hc => hinj b (by simp [hb]) c (by simp [hc]))
    refine ⟨w, ?_, h2, ?_, ?_⟩
    · rw [parFor_cons, hb a (by simp) v rfl]
      exact h1
    · intro x hx
      rw [h3 x fun b hb => hx b (by simp [hb])]
      exact Function.update_of_ne (hx a (by simp)).symm _ _
    · intro b hb'
      rcases List.mem_cons.1 hb' with rfl | hb'
      · by_cases hex : ∃ c ∈ l, tgt c = tgt b
        · obtain ⟨c, hc, e⟩ := hex
          rw [← e, h4 c hc]
          exact hinj c (by simp [hc]) b (by simp) e
        · rw [h3 _ fun c hc e => hex ⟨c, hc, e⟩]
          exact Function.update_self _ _ _
      · exact h4 b hb'

theorem parFor_map {α β S : Type} (l : List α) (f : α → β) (body : β → S → Option S) (s : S) :
    parFor (l.map f) body s = parFor l (fun a => body (f a)) s := by
  induction l generalizing s with
  | nil => rfl
  | cons a l ih =>
    rw [List.map_cons, parFor_cons, parFor_cons]
    congr 1
    funext t
    exact ih t

/-! ### Layouts -/

/-- Index of a global cell in a dataset: the last direction first. -/
def dataIndex (g : Cell) : List ℤ := [g 2, g 1, g 0]

theorem dataIndex_inj {g h : Cell} (e : dataIndex g = dataIndex h) : g = h := by
  simp only [dataIndex, List.cons.injEq, and_true] at e
  funext a
  fin_cases a
  · exact e.2.2
  · exact e.2.1
  · exact e.1

/-- A process grid: the decompositions built by its ranks (C02). -/
structure Layout (ndim : ℕ) (nx : Cell) (ng : ℤ) where
  dims : Cell
  topo : Cell → GridTopo
  pos : ∀ a, 0 < dims a
  ok : ∀ r, inBox 0 dims r → GridTopo.mk? ndim nx dims r ng = .ok (topo r)

variable {ndim : ℕ} {nx : Cell} {ng : ℤ}

theorem Layout.fields (Y : Layout ndim nx ng) (hN : ∀ a, 0 ≤ nx a) {r : Cell} (hr : inBox 0 Y.dims r) :
    (Y.topo r).range.cornerMin = (fun a => localStart (nx a) (Y.dims a) (r a)) ∧
      (Y.topo r).nxLocal = (fun a => localSize (nx a) (Y.dims a) (r a)) ∧ (Y.topo r).nghost = nghostOf ndim ng ∧
      (Y.topo r).nxLocalWg = localExt nx Y.dims (nghostOf ndim ng) r := by
  obtain ⟨g, h, h1, -, h2, h3, h4, -⟩ := GridTopo.mk?_ok (ndim := ndim) (ng := ng) hN Y.pos (fun a => (hr a).1)
  have e : g = Y.topo r := by
    have := (Y.ok r hr).symm.trans h
    injection this with this
    exact this.symm
  subst e
  exact ⟨h1, h2, h3, h4⟩

/-- The cell of a rank at position `m` of its selections. -/
def selCell (nghost m : Cell) : Cell := ![nghost 0 + m 2, nghost 1 + m 1, nghost 2 + m 0]

/-- The position of an interior cell in the selections. -/
def selPos (nghost c : Cell) : Cell := ![c 2 - nghost 2, c 1 - nghost 1, c 0 - nghost 0]

theorem selCell_selPos (nghost c : Cell) : selCell nghost (selPos nghost c) = c := by
  funext a
  fin_cases a <;> simp [selCell, selPos]

/-- Interior cells of a rank. -/
def Interior (Y : Layout ndim nx ng) (r c : Cell) : Prop :=
  ∀ a, nghostOf ndim ng a ≤ c a ∧ c a < nghostOf ndim ng a + localSize (nx a) (Y.dims a) (r a)

theorem nghostOf_nonneg (hng : 0 ≤ ng) (a : Fin 3) : 0 ≤ nghostOf ndim ng a := by unfold nghostOf; split <;> omega

theorem interior_inExt {Y : Layout ndim nx ng} (hng : 0 ≤ ng) {r c : Cell} (hc : Interior Y r c) :
    ∀ a, 0 ≤ c a ∧ c a < localExt nx Y.dims (nghostOf ndim ng) r a := by
  intro a
  have h1 := hc a
  have h2 := nghostOf_nonneg (ndim := ndim) hng a
  unfold localExt
  omega

theorem mem_sel {Y : Layout ndim nx ng} {r m : Cell}
    (hm : m ∈ boxList 0 ![localSize (nx 2) (Y.dims 2) (r 2), localSize (nx 1) (Y.dims 1) (r 1), localSize (nx 0) (Y.dims 0) (r 0)]) :
    Interior Y r (selCell (nghostOf ndim ng) m) := by
  have h := ((boxList_isSchedule _ _).2 m).1 hm
  have h0 := h 0
  have h1 := h 1
  have h2 := h 2
  simp only [Pi.zero_apply, Matrix.cons_val_zero, Matrix.cons_val_one, Matrix.cons_val] at h0 h1 h2
  intro a
  fin_cases a <;> simp [selCell] <;> omega

theorem sel_mem {Y : Layout ndim nx ng} {r c : Cell} (hc : Interior Y r c) :
    selPos (nghostOf ndim ng) c
      ∈ boxList 0 ![localSize (nx 2) (Y.dims 2) (r 2), localSize (nx 1) (Y.dims 1) (r 1), localSize (nx 0) (Y.dims 0) (r 0)] := by
  refine ((boxList_isSchedule _ _).2 _).2 ?_
  have h0 := hc 0
  have h1 := hc 1
  have h2 := hc 2
  intro a
  fin_cases a <;> simp [selPos] <;> omega

theorem dataIndex_sel (Y : Layout ndim nx ng) (r m : Cell) :
    [localStart (nx 2) (Y.dims 2) (r 2) + m 0, localStart (nx 1) (Y.dims 1) (r 1) + m 1, localStart (nx 0) (Y.dims 0) (r 0) + m 2]
      = dataIndex (globalOf nx Y.dims (nghostOf ndim ng) r (selCell (nghostOf ndim ng) m)) := by
  simp [dataIndex, globalOf, selCell] <;> omega

/-- An interior cell lies in the global domain. -/
theorem interior_global {Y : Layout ndim nx ng} (hN : ∀ a, 0 ≤ nx a) {r c : Cell} (hr : inBox 0 Y.dims r) (hc : Interior Y r c) :
    inBox 0 nx (globalOf nx Y.dims (nghostOf ndim ng) r c) := by
  intro a
  have h1 := localStart_nonneg (hN a) (Y.pos a) (hr a).1
  have h2 := localStart_add_size_le (hN a) (Y.pos a) (hr a).2
  have h3 := hc a
  simp only [globalOf, Pi.zero_apply]
  omega

theorem dataset_dom {g : Cell} (h : inBox 0 nx g) : datasetDom [nx 2, nx 1, nx 0] (dataIndex g) = true := by
  have h0 := h 0
  have h1 := h 1
  have h2 := h 2
  simp only [Pi.zero_apply] at h0 h1 h2
  simp [datasetDom, dataIndex, h0, h1, h2]

/-- The memory of a rank for an array with `L` components. -/
def MemOk (Y : Layout ndim nx ng) (L : ℤ) (r : Cell) (mem : View ℤ V) : Prop :=
  mem.dom = (View.line (localExt nx Y.dims (nghostOf ndim ng) r 0 * (localExt nx Y.dims (nghostOf ndim ng) r 1
    * (localExt nx Y.dims (nghostOf ndim ng) r 2 * L))) mem.val).dom

/-- Element `(c, l)` of the array of a rank. -/
def elem (Y : Layout ndim nx ng) (r : Cell) (mem : View ℤ V) (c : Cell) (l : ℤ) : V :=
  mem.val (offsetLeft (localExt nx Y.dims (nghostOf ndim ng) r) c l)

theorem Shape.range {lead comp : List ℤ} {L l : ℤ} (h : Shape lead comp L l) : 0 ≤ l ∧ l < L := by
  rcases h with ⟨-, -, rfl, rfl⟩ | ⟨-, -, h⟩
  · decide
  · exact h

theorem mem_dom {Y : Layout ndim nx ng} {L l : ℤ} {r c : Cell} {mem : View ℤ V} (hng : 0 ≤ ng) (hm : MemOk Y L r mem) (hl : 0 ≤ l ∧ l < L)
    (hc : Interior Y r c) : mem.dom (offsetLeft (localExt nx Y.dims (nghostOf ndim ng) r) c l) = true := by
  rw [hm]
  have := offset_bounds (interior_inExt hng hc) hl
  simp only [View.line, decide_eq_true_eq]
  exact this

theorem h5Write_spec {lead comp : List ℤ} {L l : ℤ} (hs : Shape lead comp L l) (Y : Layout ndim nx ng) (hN : ∀ a, 0 ≤ nx a) (hng : 0 ≤ ng)
    {r : Cell} (hr : inBox 0 Y.dims r) {mem : View ℤ V} (hm : MemOk Y L r mem) {dset : View (List ℤ) V}
    (hd : dset.dom = datasetDom [nx 2, nx 1, nx 0]) (G : Cell → V)
    (hG : ∀ c, Interior Y r c → elem Y r mem c l = G (globalOf nx Y.dims (nghostOf ndim ng) r c)) :
    ∃ w, h5Write (memSizes lead (Y.topo r)) (memSelection comp (Y.topo r)) (dataSelection (Y.topo r)) mem dset = some w ∧ w.dom = dset.dom ∧
      (∀ c, Interior Y r c → w.val (dataIndex (globalOf nx Y.dims (nghostOf ndim ng) r c)) = G (globalOf nx Y.dims (nghostOf ndim ng) r c)) ∧
      ∀ x, (∀ c, Interior Y r c → dataIndex (globalOf nx Y.dims (nghostOf ndim ng) r c) ≠ x) → w.val x = dset.val x := by
  obtain ⟨f1, f2, f3, f4⟩ := Y.fields hN hr
  unfold h5Write
  simp only [length_selections hs, if_true, zip_selections hs, parFor_map, rowMajor_offset hs]
  rw [f1, f2, f3, f4]
  simp only [dataIndex_sel Y r]
  obtain ⟨w, h1, h2, h3, h4⟩ := parFor_scatter
    (boxList 0 ![localSize (nx 2) (Y.dims 2) (r 2), localSize (nx 1) (Y.dims 1) (r 1), localSize (nx 0) (Y.dims 0) (r 0)])
    (fun m => dataIndex (globalOf nx Y.dims (nghostOf ndim ng) r (selCell (nghostOf ndim ng) m)))
    (fun m => G (globalOf nx Y.dims (nghostOf ndim ng) r (selCell (nghostOf ndim ng) m)))
    (fun m dset => (mem.rd (offsetLeft (localExt nx Y.dims (nghostOf ndim ng) r) (selCell (nghostOf ndim ng) m) l)).bind fun v =>
      dset.wr (dataIndex (globalOf nx Y.dims (nghostOf ndim ng) r (selCell (nghostOf ndim ng) m))) v) dset
    (by
      intro m hmem w hw
      have hi := mem_sel (Y := Y) (ng := ng) (ndim := ndim) hmem
      rw [View.rd_of_dom (mem_dom hng hm hs.range hi)]
      have e := hG _ hi
      unfold elem at e
      rw [Option.bind_some, e, View.wr_of_dom]
      rw [hw, hd]
      exact dataset_dom (interior_global hN hr hi))
    (by
      intro m _ m' _ e
      exact congrArg G (dataIndex_inj e))
  refine ⟨w, h1, h2, ?_, ?_⟩
  · intro c hc
    have := h4 _ (sel_mem hc)
    simpa only [selCell_selPos] using this
  · intro x hx
    exact h3 x fun m hmem => hx _ (mem_sel hmem)

/-- Reading from a dataset that has at least the cells of the domain. -/
theorem h5Read_dom {lead comp : List ℤ} {L l : ℤ} (hs : Shape lead comp L l) (Y : Layout ndim nx ng) (hN : ∀ a, 0 ≤ nx a) (hng : 0 ≤ ng)
    {r : Cell} (hr : inBox 0 Y.dims r) {mem : View ℤ V} (hm : MemOk Y L r mem) {dset : View (List ℤ) V}
    (hd : ∀ g, inBox 0 nx g → dset.dom (dataIndex g) = true) :
    ∃ w, readField lead comp (Y.topo r) dset mem = some w ∧ w.dom = mem.dom ∧
      (∀ c, Interior Y r c → elem Y r w c l = dset.val (dataIndex (globalOf nx Y.dims (nghostOf ndim ng) r c))) ∧
      ∀ o, (∀ c, Interior Y r c → offsetLeft (localExt nx Y.dims (nghostOf ndim ng) r) c l ≠ o) → w.val o = mem.val o := by
  obtain ⟨f1, f2, f3, f4⟩ := Y.fields hN hr
  unfold readField h5Read
  simp only [length_selections hs, if_true, zip_selections hs, parFor_map, rowMajor_offset hs]
  rw [f1, f2, f3, f4]
  simp only [dataIndex_sel Y r]
  obtain ⟨w, h1, h2, h3, h4⟩ := parFor_scatter
    (boxList 0 ![localSize (nx 2) (Y.dims 2) (r 2), localSize (nx 1) (Y.dims 1) (r 1), localSize (nx 0) (Y.dims 0) (r 0)])
    (fun m => offsetLeft (localExt nx Y.dims (nghostOf ndim ng) r) (selCell (nghostOf ndim ng) m) l)
    (fun m => dset.val (dataIndex (globalOf nx Y.dims (nghostOf ndim ng) r (selCell (nghostOf ndim ng) m))))
    (fun m mem => (dset.rd (dataIndex (globalOf nx Y.dims (nghostOf ndim ng) r (selCell (nghostOf ndim ng) m)))).bind fun v =>
      mem.wr (offsetLeft (localExt nx Y.dims (nghostOf ndim ng) r) (selCell (nghostOf ndim ng) m) l) v) mem
    (by
      intro m hmem w hw
      have hi := mem_sel (Y := Y) (ng := ng) (ndim := ndim) hmem
      rw [View.rd_of_dom (hd _ (interior_global hN hr hi)), Option.bind_some, View.wr_of_dom]
      rw [hw]
      exact mem_dom hng hm hs.range hi)
    (by
      intro m hmem m' hmem' e
      have := (offset_inj (interior_inExt hng (mem_sel hmem)) (interior_inExt hng (mem_sel hmem')) e).1
      rw [this])
  refine ⟨w, h1, h2, ?_, ?_⟩
  · intro c hc
    have := h4 _ (sel_mem hc)
    simpa only [elem, selCell_selPos] using this
  · intro o ho
    exact h3 o fun m hmem => ho _ (mem_sel hmem)

theorem h5Read_spec {lead comp : List ℤ} {L l : ℤ} (hs : Shape lead comp L l) (Y : Layout ndim nx ng) (hN : ∀ a, 0 ≤ nx a) (hng : 0 ≤ ng)
    {r : Cell} (hr : inBox 0 Y.dims r) {mem : View ℤ V} (hm : MemOk Y L r mem) {dset : View (List ℤ) V}
    (hd : dset.dom = datasetDom [nx 2, nx 1, nx 0]) :
    ∃ w, readField lead comp (Y.topo r) dset mem = some w ∧ w.dom = mem.dom ∧
      (∀ c, Interior Y r c → elem Y r w c l = dset.val (dataIndex (globalOf nx Y.dims (nghostOf ndim ng) r c))) ∧
      ∀ o, (∀ c, Interior Y r c → offsetLeft (localExt nx Y.dims (nghostOf ndim ng) r) c l ≠ o) → w.val o = mem.val o :=
  h5Read_dom hs Y hN hng hr hm fun g hg => by rw [hd]; exact dataset_dom hg

/-! ### The property -/

/-- **C43.** Each element of a dataset is written by exactly one rank. -/
theorem C43_exactly_one_rank (Y : Layout ndim nx ng) (hN : ∀ a, 0 ≤ nx a) {g : Cell} (hg : inBox 0 nx g) :
    (∃ r, inBox 0 Y.dims r ∧ dataIndex g ∈ indices (dataSelection (Y.topo r)).start (dataSelection (Y.topo r)).size ∧
      ∀ r', inBox 0 Y.dims r' → dataIndex g ∈ indices (dataSelection (Y.topo r')).start (dataSelection (Y.topo r')).size → r' = r) ∧
    ∀ r, inBox 0 Y.dims r → (indices (dataSelection (Y.topo r)).start (dataSelection (Y.topo r)).size).Nodup := by
  have key : ∀ r, inBox 0 Y.dims r → (dataIndex g ∈ indices (dataSelection (Y.topo r)).start (dataSelection (Y.topo r)).size ↔
      ∀ a, localStart (nx a) (Y.dims a) (r a) ≤ g a ∧ g a < localStart (nx a) (Y.dims a) (r a) + localSize (nx a) (Y.dims a) (r a)) := by
    intro r hr
    obtain ⟨f1, f2, -, -⟩ := Y.fields hN hr
    simp only [dataSelection, indices3, List.mem_map, (boxList_isSchedule _ _).2, f1, f2]
    constructor
    · rintro ⟨m, hm, e⟩
      have m0 := hm 0
      have m1 := hm 1
      have m2 := hm 2
      simp only [Pi.zero_apply, Matrix.cons_val_zero, Matrix.cons_val_one, Matrix.cons_val] at m0 m1 m2
      simp only [dataIndex, List.cons.injEq, and_true] at e
      intro a
      fin_cases a <;> simp <;> omega
    · intro h
      have h0 := h 0
      have h1 := h 1
      have h2 := h 2
      refine ⟨![g 2 - localStart (nx 2) (Y.dims 2) (r 2), g 1 - localStart (nx 1) (Y.dims 1) (r 1),
        g 0 - localStart (nx 0) (Y.dims 0) (r 0)], ?_, ?_⟩
      · intro a
        fin_cases a <;> simp <;> omega
      · simp [dataIndex]
  constructor
  · have ho := fun a => exists_owner (hN a) (Y.pos a) (hg a).1 (hg a).2
    choose r h0 h1 h2 h3 using ho
    refine ⟨r, fun a => ⟨h0 a, h1 a⟩, (key r fun a => ⟨h0 a, h1 a⟩).2 fun a => ⟨h2 a, h3 a⟩, fun r' hr' hm => ?_⟩
    funext a
    exact owner_unique (hN a) (Y.pos a) ((key r' hr').1 hm a) ⟨h2 a, h3 a⟩
  · intro r hr
    simp only [dataSelection, indices3]
    refine List.Nodup.map ?_ (boxList_isSchedule _ _).1
    intro m m' e
    simp only [List.cons.injEq, and_true] at e
    funext a
    fin_cases a
    · simpa using e.1
    · simpa using e.2.1
    · simpa using e.2.2

/-- **C43, writing.** Ranks whose interiors hold the global field `G` produce the dataset `G`, whatever the process grid and the order
in which the ranks write. -/
theorem C43_written {lead comp : List ℤ} {L l : ℤ} (hs : Shape lead comp L l) (Y : Layout ndim nx ng) (hN : ∀ a, 0 ≤ nx a) (hng : 0 ≤ ng)
    (ranks : List Cell) (hranks : ∀ r, r ∈ ranks ↔ inBox 0 Y.dims r) (mem : Cell → View ℤ V) (hm : ∀ r, inBox 0 Y.dims r → MemOk Y L r (mem r))
    (zero : V) (G : Cell → V)
    (hG : ∀ r, inBox 0 Y.dims r → ∀ c, Interior Y r c → elem Y r (mem r) c l = G (globalOf nx Y.dims (nghostOf ndim ng) r c)) :
    ∃ w, writeField lead comp Y.topo ranks mem (newDataset nx zero) = some w ∧ w.dom = datasetDom [nx 2, nx 1, nx 0] ∧
      ∀ g, inBox 0 nx g → w.val (dataIndex g) = G g := by
  have loop : ∀ (rs : List Cell), (∀ r ∈ rs, inBox 0 Y.dims r) → ∀ dset : View (List ℤ) V, dset.dom = datasetDom [nx 2, nx 1, nx 0] →
      ∃ w, writeField lead comp Y.topo rs mem dset = some w ∧ w.dom = dset.dom ∧
        (∀ g, (dset.val (dataIndex g) = G g) → w.val (dataIndex g) = G g) ∧
        ∀ r ∈ rs, ∀ c, Interior Y r c → w.val (dataIndex (globalOf nx Y.dims (nghostOf ndim ng) r c)) = G (globalOf nx Y.dims (nghostOf ndim ng) r c) := by
    intro rs
    induction rs with
    | nil => exact fun _ dset _ => ⟨dset, rfl, rfl, fun _ h => h, fun r hr => by cases hr⟩
    | cons r rs ih =>
      intro hrs dset hd
      have hr := hrs r (by simp)
      obtain ⟨w, h1, h2, h3, h4⟩ := h5Write_spec hs Y hN hng hr (hm r hr) hd G (hG r hr)
      obtain ⟨w', k1, k2, k3, k4⟩ := ih (fun r' hr' => hrs r' (by simp [hr'])) w (h2.trans hd)
      refine ⟨w', ?_, k2.trans h2, ?_, ?_⟩
      · unfold writeField
        rw [parFor_cons, h1]
        exact k1
      · intro g hgd
        refine k3 g ?_
        by_cases hex : ∃ c, Interior Y r c ∧ dataIndex (globalOf nx Y.dims (nghostOf ndim ng) r c) = dataIndex g
        · obtain ⟨c, hc, e⟩ := hex
          rw [← e, h3 c hc, dataIndex_inj e]
        · rw [h4 _ fun c hc e => hex ⟨c, hc, e⟩, hgd]
      · intro r' hr' c hc
        rcases List.mem_cons.1 hr' with rfl | hr'
        · exact k3 _ (h3 c hc)
        · exact k4 r' hr' c hc
  obtain ⟨w, h1, h2, -, h4⟩ := loop ranks (fun r hr => (hranks r).1 hr) (newDataset nx zero) rfl
  refine ⟨w, h1, h2, fun g hg => ?_⟩
  have ho := fun a => exists_owner (hN a) (Y.pos a) (hg a).1 (hg a).2
  choose r k0 k1 k2 k3 using ho
  have hr : inBox 0 Y.dims r := fun a => ⟨k0 a, k1 a⟩
  have hc : Interior Y r (fun a => g a - localStart (nx a) (Y.dims a) (r a) + nghostOf ndim ng a) := by
    intro a
    have := k2 a
    have := k3 a
    simp only
    omega
  have e : globalOf nx Y.dims (nghostOf ndim ng) r (fun a => g a - localStart (nx a) (Y.dims a) (r a) + nghostOf ndim ng a) = g := by
    funext a
    simp only [globalOf]
    omega
  have := h4 r ((hranks r).2 hr) _ hc
  rwa [e] at this

/-- **C43, round trip.** Fields written with the layout `Y` and read with the layout `Y'` come back: every interior cell of every rank of
`Y'` holds the value that its global cell had when it was written. Ghost cells and other components of the array keep their values. -/
theorem C43_round_trip {lead comp : List ℤ} {L l : ℤ} (hs : Shape lead comp L l) (Y Y' : Layout ndim nx ng) (hN : ∀ a, 0 ≤ nx a) (hng : 0 ≤ ng)
    (ranks : List Cell) (hranks : ∀ r, r ∈ ranks ↔ inBox 0 Y.dims r) (mem : Cell → View ℤ V) (hm : ∀ r, inBox 0 Y.dims r → MemOk Y L r (mem r))
    (zero : V) (G : Cell → V)
    (hG : ∀ r, inBox 0 Y.dims r → ∀ c, Interior Y r c → elem Y r (mem r) c l = G (globalOf nx Y.dims (nghostOf ndim ng) r c))
    {r : Cell} (hr : inBox 0 Y'.dims r) {mem' : View ℤ V} (hm' : MemOk Y' L r mem') :
    ∃ w m, writeField lead comp Y.topo ranks mem (newDataset nx zero) = some w ∧ readField lead comp (Y'.topo r) w mem' = some m ∧
      m.dom = mem'.dom ∧ (∀ c, Interior Y' r c → elem Y' r m c l = G (globalOf nx Y'.dims (nghostOf ndim ng) r c)) ∧
      ∀ c l', (∀ a, 0 ≤ c a ∧ c a < localExt nx Y'.dims (nghostOf ndim ng) r a) → ¬ (Interior Y' r c ∧ l' = l) → elem Y' r m c l' = elem Y' r mem' c l' := by
  obtain ⟨w, h1, h2, h3⟩ := C43_written hs Y hN hng ranks hranks mem hm zero G hG
  obtain ⟨m, k1, k2, k3, k4⟩ := h5Read_spec hs Y' hN hng hr hm' h2
  refine ⟨w, m, h1, k1, k2, ?_, ?_⟩
  · intro c hc
    rw [k3 c hc]
    exact h3 _ (interior_global hN hr hc)
  · intro c l' hc hne
    refine k4 _ fun c' hc' e => hne ?_
    obtain ⟨e1, e2⟩ := offset_inj (interior_inExt hng hc') hc e
    subst e1
    exact ⟨hc', e2.symm⟩

/-- The mesh coordinates come back, and a file whose mesh has another number of cells is refused (the ghost width being the same). -/
theorem C43_axes {n n' : ℤ} (x : ℤ → V) :
    (n = n' → readAxis (n + 2 * ng + 1) (n' + 2 * ng + 1) x = .ok (View.line (n' + 2 * ng + 1) x)) ∧
      (n ≠ n' → ∃ e, readAxis (n + 2 * ng + 1) (n' + 2 * ng + 1) x = .error e) := by
  constructor
  · rintro rfl
    simp [readAxis]
  · intro h
    refine ⟨_, if_neg ?_⟩
    omega

/-- Layouts exist for every process grid. -/
noncomputable def mkLayout (ndim : ℕ) (nx : Cell) (ng : ℤ) (hN : ∀ a, 0 ≤ nx a) (dims : Cell) (hd : ∀ a, 0 < dims a) : Layout ndim nx ng where
  dims := dims
  topo := fun r => if h : ∀ a, 0 ≤ r a then (GridTopo.mk?_ok (ndim := ndim) (ng := ng) hN hd h).choose
    else (GridTopo.mk?_ok (ndim := ndim) (ng := ng) (rank := 0) hN hd fun _ => le_refl 0).choose
  pos := hd
  ok := fun r hr => by
    have h0 : ∀ a, 0 ≤ r a := fun a => (hr a).1
    rw [dif_pos h0]
    exact (GridTopo.mk?_ok (ndim := ndim) (ng := ng) hN hd h0).choose_spec.1

/-- A 5 × 7 field of velocities written by 2 × 3 ranks and read by 3 × 2 ranks: the hypotheses of the round trip hold. -/
example : ∃ (Y Y' : Layout 2 ![5, 7, 1] 2) (mem : Cell → View ℤ ℤ), Y.dims = ![2, 3, 1] ∧ Y'.dims = ![3, 2, 1] ∧ Shape [2] [1] 2 1 ∧
    (∀ r, inBox 0 Y.dims r → MemOk Y 2 r (mem r)) ∧
    ∀ r, inBox 0 Y.dims r → ∀ c, Interior Y r c → elem Y r (mem r) c 1 = (fun g : Cell => 10 * g 0 + g 1) (globalOf ![5, 7, 1] Y.dims (nghostOf 2 2) r c) := by
  have hN : ∀ a, (0 : ℤ) ≤ (![5, 7, 1] : Cell) a := by decide
  refine ⟨mkLayout 2 _ 2 hN ![2, 3, 1] (by decide), mkLayout 2 _ 2 hN ![3, 2, 1] (by decide), fun r =>
    View.line _ fun o =>
      10 * (localStart 5 2 (r 0) + o % localExt ![5, 7, 1] ![2, 3, 1] (nghostOf 2 2) r 0 - 2)
        + (localStart 7 3 (r 1) + o / localExt ![5, 7, 1] ![2, 3, 1] (nghostOf 2 2) r 0 % localExt ![5, 7, 1] ![2, 3, 1] (nghostOf 2 2) r 1 - 2),
    rfl, rfl, Or.inr ⟨rfl, rfl, by decide⟩, fun r _ => rfl, fun r hr c hc => ?_⟩
  have hx := interior_inExt (by decide) hc
  have h0 := hx 0
  have h1 := hx 1
  have d : (mkLayout 2 ![5, 7, 1] 2 hN ![2, 3, 1] (by decide)).dims = ![2, 3, 1] := rfl
  rw [d] at h0 h1
  show 10 * (localStart 5 2 (r 0) + offsetLeft _ c 1 % _ - 2) + (localStart 7 3 (r 1) + offsetLeft _ c 1 / _ % _ - 2) = _
  rw [d]
  unfold offsetLeft
  rw [Int.add_mul_emod_self_left, Int.emod_eq_of_lt h0.1 h0.2, Int.add_mul_ediv_left _ _ (by omega), Int.ediv_eq_zero_of_lt h0.1 h0.2, zero_add,
    Int.add_mul_emod_self_left, Int.emod_eq_of_lt h1.1 h1.2]
  rfl

end Heracles
