import Verif.Props.KernelRun

/-!
# Maxima and minima of numbers of which some can not be compared
-/

namespace Heracles

variable {F L : Type} [LT F] [DecidableLT F] [LinearOrder L]

/-- The comparison `<` of `F` is the one of a linear order between the numbers that have a `key`; the others (NaN) compare false. -/
def OrderKey (F L : Type) [LT F] [LinearOrder L] (key : F → Option L) : Prop :=
  ∀ a b : F, a < b ↔ ∃ x y, key a = some x ∧ key b = some y ∧ x < y

variable {key : F → Option L} (hk : OrderKey F L key)
include hk

theorem kmax_key {a b : F} {x : L} (ha : key a = some x) :
    (∃ y, key (kmax a b) = some y ∧ x ≤ y ∧ ∀ z, key b = some z → z ≤ y) ∧ (kmax a b = a ∨ kmax a b = b) := by
  unfold kmax
  by_cases h : a < b
  · rw [if_pos h]
    obtain ⟨x', y, e1, e2, e3⟩ := (hk a b).1 h
    rw [ha] at e1
    cases e1
    exact ⟨⟨y, e2, e3.le, fun z hz => by rw [e2] at hz; cases hz; exact le_rfl⟩, Or.inr rfl⟩
  · rw [if_neg h]
    exact ⟨⟨x, ha, le_rfl, fun z hz => not_lt.1 fun hlt => h ((hk a b).2 ⟨x, z, ha, hz, hlt⟩)⟩, Or.inl rfl⟩

theorem kmin_key {a b : F} {x : L} (ha : key a = some x) :
    (∃ y, key (kmin a b) = some y ∧ y ≤ x ∧ ∀ z, key b = some z → y ≤ z) ∧ (kmin a b = a ∨ kmin a b = b) := by
  unfold kmin
  by_cases h : b < a
  · rw [if_pos h]
    obtain ⟨y, x', e2, e1, e3⟩ := (hk b a).1 h
    rw [ha] at e1
    cases e1
    exact ⟨⟨y, e2, e3.le, fun z hz => by rw [e2] at hz; cases hz; exact le_rfl⟩, Or.inr rfl⟩
  · rw [if_neg h]
    exact ⟨⟨x, ha, le_rfl, fun z hz => not_lt.1 fun hlt => h ((hk b a).2 ⟨z, x, hz, ha, hlt⟩)⟩, Or.inl rfl⟩

/-- The result of a fold of maxima: it has a key if the start has one, the key is an upper bound, and the result is the start or one
of the values. -/
theorem foldl_kmax_key {ι : Type} (l : List ι) (g : ι → F) (e : F) {x : L} (he : key e = some x) :
    (∃ y, key (l.foldl (fun s i => kmax s (g i)) e) = some y ∧ x ≤ y ∧ ∀ i ∈ l, ∀ z, key (g i) = some z → z ≤ y) ∧
      (l.foldl (fun s i => kmax s (g i)) e = e ∨ ∃ i ∈ l, l.foldl (fun s i => kmax s (g i)) e = g i) := by
  induction l generalizing e x with
  | nil => exact ⟨⟨x, he, le_rfl, by simp⟩, Or.inl rfl⟩
  | cons i l ih =>
    simp only [List.foldl_cons]
    obtain ⟨⟨y, k1, k2, k3⟩, k4⟩ := kmax_key hk (b := g i) he
    obtain ⟨⟨y', h1, h2, h3⟩, h4⟩ := ih (kmax e (g i)) k1
    refine ⟨⟨y', h1, k2.trans h2, fun j hj z hz => ?_⟩, ?_⟩
    · rcases List.mem_cons.1 hj with rfl | hj
      · exact (k3 z hz).trans h2
      · exact h3 j hj z hz
    · rcases h4 with h | ⟨j, hj, h⟩
      · rcases k4 with k | k
        · exact Or.inl (h.trans k)
        · exact Or.inr ⟨i, List.mem_cons_self, h.trans k⟩
      · exact Or.inr ⟨j, List.mem_cons_of_mem _ hj, h⟩

theorem foldl_kmin_key {ι : Type} (l : List ι) (g : ι → F) (e : F) {x : L} (he : key e = some x) :
    (∃ y, key (l.foldl (fun s i => kmin s (g i)) e) = some y ∧ y ≤ x ∧ ∀ i ∈ l, ∀ z, key (g i) = some z → y ≤ z) ∧
      (l.foldl (fun s i => kmin s (g i)) e = e ∨ ∃ i ∈ l, l.foldl (fun s i => kmin s (g i)) e = g i) := by
  induction l generalizing e x with
  | nil => exact ⟨⟨x, he, le_rfl, by simp⟩, Or.inl rfl⟩
  | cons i l ih =>
    simp only [List.foldl_cons]
    obtain ⟨⟨y, k1, k2, k3⟩, k4⟩ := kmin_key hk (b := g i) he
    obtain ⟨⟨y', h1, h2, h3⟩, h4⟩ := ih (kmin e (g i)) k1
    refine ⟨⟨y', h1, h2.trans k2, fun j hj z hz => ?_⟩, ?_⟩
    · rcases List.mem_cons.1 hj with rfl | hj
      · exact h2.trans (k3 z hz)
      · exact h3 j hj z hz
    · rcases h4 with h | ⟨j, hj, h⟩
      · rcases k4 with k | k
        · exact Or.inl (h.trans k)
        · exact Or.inr ⟨i, List.mem_cons_self, h.trans k⟩
      · exact Or.inr ⟨j, List.mem_cons_of_mem _ hj, h⟩

/-- `m` is `e` or a value of `g` on `S`, and a largest one among those with a key. -/
structure KeyMax {ι : Type} (key : F → Option L) (e : F) (S : ι → Prop) (g : ι → F) (m : F) : Prop where
  num : ∃ y, key m = some y ∧ (∀ x, key e = some x → x ≤ y) ∧ ∀ i, S i → ∀ z, key (g i) = some z → z ≤ y
  mem : m = e ∨ ∃ i, S i ∧ m = g i

/-- The same for the smallest. -/
structure KeyMin {ι : Type} (key : F → Option L) (e : F) (S : ι → Prop) (g : ι → F) (m : F) : Prop where
  num : ∃ y, key m = some y ∧ (∀ x, key e = some x → y ≤ x) ∧ ∀ i, S i → ∀ z, key (g i) = some z → y ≤ z
  mem : m = e ∨ ∃ i, S i ∧ m = g i

omit [LT F] [DecidableLT F] hk in
/-- Unique when different numbers have different keys. -/
theorem KeyMax.unique {ι : Type} {e : F} {S : ι → Prop} {g : ι → F} {m m' : F} (h : KeyMax key e S g m) (h' : KeyMax key e S g m')
    (hinj : ∀ a b, (a = e ∨ ∃ i, S i ∧ a = g i) → (b = e ∨ ∃ i, S i ∧ b = g i) → ∀ x, key a = some x → key b = some x → a = b) :
    m = m' := by
  obtain ⟨y, e1, e2, e3⟩ := h.num
  obtain ⟨y', e1', e2', e3'⟩ := h'.num
  have l1 : y ≤ y' := by
    rcases h.mem with q | ⟨i, hi, q⟩
    · exact e2' y (q ▸ e1)
    · exact e3' i hi y (q ▸ e1)
  have l2 : y' ≤ y := by
    rcases h'.mem with q | ⟨i, hi, q⟩
    · exact e2 y' (q ▸ e1')
    · exact e3 i hi y' (q ▸ e1')
  obtain rfl := le_antisymm l1 l2
  exact hinj m m' h.mem h'.mem y e1 e1'

variable {R : Type} {ranks : List R} (hne : ranks ≠ []) {parts : R → List (List Cell)}
include hne

/-- A maximum over the cells of all ranks. -/
theorem reduce_kmax_key {lo : F} {x : L} (hlo : key lo = some x) {f : R → Cell → Option F} {g : R → Cell → F}
    (hf : ∀ r ∈ ranks, ∀ c ∈ (parts r).flatten, f r c = some (g r c)) :
    ∃ v m, (ranks.mapM fun r => parReduce lo kmax (parts r) fun c s => do let x ← f r c; return kmax s x) = some v ∧
      allReduce kmax v = some m ∧
      KeyMax key lo (fun q : R × Cell => q.1 ∈ ranks ∧ q.2 ∈ (parts q.1).flatten) (fun q => g q.1 q.2) m := by
  have h1 := fun r (hr : r ∈ ranks) => parReduce_eq (e := lo) (join := kmax) (op := kmax) (hf r hr)
  have inner : ∀ r, let m := ((parts r).map fun l => l.foldl (fun s c => kmax s (g r c)) lo).foldl kmax lo
      (∃ y, key m = some y ∧ x ≤ y ∧ ∀ c ∈ (parts r).flatten, ∀ z, key (g r c) = some z → z ≤ y) ∧
        (m = lo ∨ ∃ c ∈ (parts r).flatten, m = g r c) := by
    intro r
    obtain ⟨⟨y, f1, f2, f3⟩, f4⟩ := foldl_kmax_key hk ((parts r).map fun l => l.foldl (fun s c => kmax s (g r c)) lo) id lo hlo
    refine ⟨⟨y, f1, f2, fun c hc z hz => ?_⟩, ?_⟩
    · obtain ⟨l, hl, hcl⟩ := List.mem_flatten.1 hc
      obtain ⟨⟨y', p1, p2, p3⟩, -⟩ := foldl_kmax_key hk l (g r) lo hlo
      exact (p3 c hcl z hz).trans (f3 _ (List.mem_map.2 ⟨l, hl, rfl⟩) y' p1)
    · rcases f4 with h | ⟨v, hv, h⟩
      · exact Or.inl h
      · obtain ⟨l, hl, rfl⟩ := List.mem_map.1 hv
        rcases (foldl_kmax_key hk l (g r) lo hlo).2 with q | ⟨c, hc, q⟩
        · exact Or.inl (h.trans q)
        · exact Or.inr ⟨c, List.mem_flatten.2 ⟨l, hl, hc⟩, h.trans q⟩
  obtain ⟨v, vs, e, e'⟩ := allReduce_some (op := kmax) (l := ranks.map fun r =>
    ((parts r).map fun l => l.foldl (fun s c => kmax s (g r c)) lo).foldl kmax lo) (fun h => hne (List.map_eq_nil_iff.1 h))
  have hmem : ∀ u, u ∈ v :: vs ↔ ∃ r ∈ ranks, ((parts r).map fun l => l.foldl (fun s c => kmax s (g r c)) lo).foldl kmax lo = u := by
    intro u
    rw [← e]
    exact List.mem_map
  obtain ⟨r0, hr0, er0⟩ := (hmem v).1 List.mem_cons_self
  obtain ⟨⟨y0, w1, w2, w3⟩, -⟩ := inner r0
  rw [er0] at w1
  obtain ⟨⟨y, f1, f2, f3⟩, f4⟩ := foldl_kmax_key hk vs id v w1
  simp only [id] at f1 f2 f3 f4
  have hin : ∃ r ∈ ranks, ((parts r).map fun l => l.foldl (fun s c => kmax s (g r c)) lo).foldl kmax lo = vs.foldl kmax v := by
    rw [← hmem]
    rcases f4 with h | ⟨u, hu, h⟩
    · rw [h]; exact List.mem_cons_self
    · rw [h]; exact List.mem_cons_of_mem _ hu
  refine ⟨_, vs.foldl kmax v, mapM_some ranks h1, e', ⟨y, f1, fun x' hx' => ?_, fun q hq z hz => ?_⟩, ?_⟩
  · rw [hlo] at hx'
    cases hx'
    exact w2.trans f2
  · obtain ⟨⟨y', p1, p2, p3⟩, -⟩ := inner q.1
    refine (p3 q.2 hq.2 z hz).trans ?_
    rcases List.mem_cons.1 ((hmem _).2 ⟨q.1, hq.1, rfl⟩) with h | h
    · rw [h, w1] at p1
      cases p1
      exact f2
    · exact f3 _ h y' p1
  · obtain ⟨r, hr, er⟩ := hin
    rcases (inner r).2 with h | ⟨c, hc, h⟩
    · exact Or.inl (er.symm.trans h)
    · exact Or.inr ⟨(r, c), ⟨hr, hc⟩, er.symm.trans h⟩

/-- A minimum over the cells of all ranks. -/
theorem reduce_kmin_key {hi : F} {x : L} (hhi : key hi = some x) {f : R → Cell → Option F} {g : R → Cell → F}
    (hf : ∀ r ∈ ranks, ∀ c ∈ (parts r).flatten, f r c = some (g r c)) :
    ∃ v m, (ranks.mapM fun r => parReduce hi kmin (parts r) fun c s => do let x ← f r c; return kmin s x) = some v ∧
      allReduce kmin v = some m ∧
      KeyMin key hi (fun q : R × Cell => q.1 ∈ ranks ∧ q.2 ∈ (parts q.1).flatten) (fun q => g q.1 q.2) m := by
  have h1 := fun r (hr : r ∈ ranks) => parReduce_eq (e := hi) (join := kmin) (op := kmin) (hf r hr)
  have inner : ∀ r, let m := ((parts r).map fun l => l.foldl (fun s c => kmin s (g r c)) hi).foldl kmin hi
      (∃ y, key m = some y ∧ y ≤ x ∧ ∀ c ∈ (parts r).flatten, ∀ z, key (g r c) = some z → y ≤ z) ∧
        (m = hi ∨ ∃ c ∈ (parts r).flatten, m = g r c) := by
    intro r
    obtain ⟨⟨y, f1, f2, f3⟩, f4⟩ := foldl_kmin_key hk ((parts r).map fun l => l.foldl (fun s c => kmin s (g r c)) hi) id hi hhi
    refine ⟨⟨y, f1, f2, fun c hc z hz => ?_⟩, ?_⟩
    · obtain ⟨l, hl, hcl⟩ := List.mem_flatten.1 hc
      obtain ⟨⟨y', p1, p2, p3⟩, -⟩ := foldl_kmin_key hk l (g r) hi hhi
      exact (f3 _ (List.mem_map.2 ⟨l, hl, rfl⟩) y' p1).trans (p3 c hcl z hz)
    · rcases f4 with h | ⟨v, hv, h⟩
      · exact Or.inl h
      · obtain ⟨l, hl, rfl⟩ := List.mem_map.1 hv
        rcases (foldl_kmin_key hk l (g r) hi hhi).2 with q | ⟨c, hc, q⟩
        · exact Or.inl (h.trans q)
        · exact Or.inr ⟨c, List.mem_flatten.2 ⟨l, hl, hc⟩, h.trans q⟩
  obtain ⟨v, vs, e, e'⟩ := allReduce_some (op := kmin) (l := ranks.map fun r =>
    ((parts r).map fun l => l.foldl (fun s c => kmin s (g r c)) hi).foldl kmin hi) (fun h => hne (List.map_eq_nil_iff.1 h))
  have hmem : ∀ u, u ∈ v :: vs ↔ ∃ r ∈ ranks, ((parts r).map fun l => l.foldl (fun s c => kmin s (g r c)) hi).foldl kmin hi = u := by
    intro u
    rw [← e]
    exact List.mem_map
  obtain ⟨r0, hr0, er0⟩ := (hmem v).1 List.mem_cons_self
  obtain ⟨⟨y0, w1, w2, w3⟩, -⟩ := inner r0
  rw [er0] at w1
  obtain ⟨⟨y, f1, f2, f3⟩, f4⟩ := foldl_kmin_key hk vs id v w1
  simp only [id] at f1 f2 f3 f4
  have hin : ∃ r ∈ ranks, ((parts r).map fun l => l.foldl (fun s c => kmin s (g r c)) hi).foldl kmin hi = vs.foldl kmin v := by
    rw [← hmem]
    rcases f4 with h | ⟨u, hu, h⟩
    · rw [h]; exact List.mem_cons_self
    · rw [h]; exact List.mem_cons_of_mem _ hu
  refine ⟨_, vs.foldl kmin v, mapM_some ranks h1, e', ⟨y, f1, fun x' hx' => ?_, fun q hq z hz => ?_⟩, ?_⟩
  · rw [hhi] at hx'
    cases hx'
    exact f2.trans w2
  · obtain ⟨⟨y', p1, p2, p3⟩, -⟩ := inner q.1
    refine le_trans ?_ (p3 q.2 hq.2 z hz)
    rcases List.mem_cons.1 ((hmem _).2 ⟨q.1, hq.1, rfl⟩) with h | h
    · rw [h, w1] at p1
      cases p1
      exact f2
    · exact f3 _ h y' p1
  · obtain ⟨r, hr, er⟩ := hin
    rcases (inner r).2 with h | ⟨c, hc, h⟩
    · exact Or.inl (er.symm.trans h)
    · exact Or.inr ⟨(r, c), ⟨hr, hc⟩, er.symm.trans h⟩

/-- The time step: the inverse of the largest rate among those with a key. -/
theorem kTimeStep_key {d n : ℕ} {lo : F} {x : L} (hlo : key lo = some x) (k : Kernels d n F)
    {g : R → GridData F} {rho : R → View Cell F} {up : R → View Cell (VelPres d F)} {rate : R → Cell → F}
    (h : ∀ r ∈ ranks, ∀ c ∈ (parts r).flatten, kCellInverseDt k (g r) (rho r) (up r) c = some (rate r c)) :
    ∃ m, kTimeStep lo k ranks parts g rho up = some (k.inv m) ∧
      KeyMax key lo (fun q : R × Cell => q.1 ∈ ranks ∧ q.2 ∈ (parts q.1).flatten) (fun q => rate q.1 q.2) m := by
  obtain ⟨v, m, h1, h2, h3⟩ := reduce_kmax_key hk hne hlo h
  refine ⟨m, ?_, h3⟩
  unfold kTimeStep
  rw [h1]
  simp only [Option.bind_eq_bind, Option.bind_some]
  rw [h2]
  rfl

end Heracles
