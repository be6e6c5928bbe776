import Verif.Lemmas.Order
import Verif.Props.Boundary

/-!
# Properties of the order of the boundary conditions (C08, C09)

The documentation (inputs/example_init.ini 62-64) says: "priority high to low, high priority bc will
overwrite low priority bc for the edge and corner data; if not defined, the priority will be by default
X(l,r)->Y(l,r)->Z(l,r)".
-/

namespace Heracles

/-- Specification: documented face names; face `2 a + f` is face `f` (left, right) of direction `a`. -/
def faceName (i : ℕ) : List Char :=
  ([['X', '_', 'l', 'e', 'f', 't'], ['X', '_', 'r', 'i', 'g', 'h', 't'],
    ['Y', '_', 'l', 'e', 'f', 't'], ['Y', '_', 'r', 'i', 'g', 'h', 't'],
    ['Z', '_', 'l', 'e', 'f', 't'], ['Z', '_', 'r', 'i', 'g', 'h', 't']] : List (List Char)).getD i []

/-- Specification: the text a user writes to list faces `p` from high to low priority. -/
def priorityText (p : List ℕ) : List Char := List.intercalate [' '] (p.map faceName)

/-- Specification: the order of execution that makes a higher priority face run after, and hence
overwrite, every lower priority one: the list read from low to high. -/
def documentedOrder (p : List ℕ) : List (Option ℕ) := p.reverse.map some

theorem faceSlot_faceName {ndim i : ℕ} (hn : ndim ≤ 3) (hi : i < 2 * ndim) :
    faceSlot ndim (faceName i) = some i := by
  rcases (by omega : ndim = 0 ∨ ndim = 1 ∨ ndim = 2 ∨ ndim = 3) with rfl | rfl | rfl | rfl
  · omega
  · revert i; decide
  · revert i; decide
  · revert i; decide

theorem faceSlot_isSome {ndim : ℕ} (h1 : 1 ≤ ndim) (hn : ndim ≤ 3) (w : List Char) :
    (faceSlot ndim w).isSome = true ↔ ∃ i < 2 * ndim, w = faceName i := by
  constructor
  · intro h
    unfold faceSlot at h
    split_ifs at h with h1 h2 h3 h4 h5 h6
    · exact ⟨0, by omega, h1⟩
    · exact ⟨1, by omega, h2⟩
    · exact ⟨2, by omega, h3.1⟩
    · exact ⟨3, by omega, h4.1⟩
    · exact ⟨4, by omega, h5.1⟩
    · exact ⟨5, by omega, h6.1⟩
    · simp at h
  · rintro ⟨i, hi, rfl⟩
    rw [faceSlot_faceName hn hi]; rfl

theorem faceName_clean (i : ℕ) (hi : i < 6) : faceName i ≠ [] ∧ ∀ c ∈ faceName i, isSpaceC c = false := by
  revert i; decide

theorem wordsOf_priorityText {ndim : ℕ} (hn : ndim ≤ 3) {p : List ℕ} (hp : p.Perm (List.range (2 * ndim))) :
    wordsOf (priorityText p) = p.map faceName := by
  apply wordsOf_join
  intro w hw
  obtain ⟨i, hi, rfl⟩ := List.mem_map.1 hw
  have : i < 2 * ndim := by simpa using (hp.mem_iff).1 hi
  exact faceName_clean i (by omega)

theorem priorityText_ne_nil {ndim : ℕ} (h1 : 1 ≤ ndim) (hn : ndim ≤ 3) {p : List ℕ}
    (hp : p.Perm (List.range (2 * ndim))) : priorityText p ≠ [] := by
  intro h
  have h2 := wordsOf_priorityText hn hp
  rw [h] at h2
  have h3 : p.length = 2 * ndim := by rw [hp.length_eq, List.length_range]
  have h4 : (p.map faceName).length = 0 := by rw [← h2]; rfl
  rw [List.length_map] at h4
  omega

/-- What the code computes for a complete priority list: slot `f` receives the *position* of face `f` in
the list, and the result is reversed. -/
theorem C08_code_uses_positions (ndim : ℕ) (h1 : 1 ≤ ndim) (hn : ndim ≤ 3) (p : List ℕ)
    (hp : p.Perm (List.range (2 * ndim))) :
    generateOrder ndim (priorityText p) =
      .ok (((List.range (2 * ndim)).map fun f => some (p.idxOf f)).reverse) := by
  have hlen : p.length = 2 * ndim := by rw [hp.length_eq, List.length_range]
  have hnd : p.Nodup := hp.nodup_iff.2 List.nodup_range
  have hlt : ∀ f ∈ p, f < 2 * ndim := fun f h => by simpa using (hp.mem_iff).1 h
  have hw := wordsOf_priorityText hn hp
  have htmp : ∀ i (hi : i < p.length), faceSlot ndim ((wordsOf (priorityText p)).getD i []) = some (p[i]) := by
    intro i hi
    rw [hw, List.getD_eq_getElem?_getD]
    simp only [List.getElem?_map, List.getElem?_eq_getElem hi, Option.map_some, Option.getD_some]
    exact faceSlot_faceName hn (hlt _ (List.getElem_mem hi))
  have hok := (generateOrder_ok_iff ndim _ (priorityText_ne_nil h1 hn hp)).2 (by
    intro i hi
    rw [htmp i (by omega)]; rfl)
  obtain ⟨o, ho⟩ := hok
  rw [ho]
  rw [generateOrder_eq ndim _ (priorityText_ne_nil h1 hn hp)] at ho
  simp only at ho
  split_ifs at ho with hc
  have ho' := Except.ok.inj ho
  rw [← ho']
  congr 2
  apply List.ext_getElem?
  intro f
  by_cases hf : f < 2 * ndim
  · have hfp : f ∈ p := (hp.mem_iff).2 (by simpa using hf)
    have hidx := List.idxOf_lt_length_iff.2 hfp
    rw [slotStep_get (i := p.idxOf f) (f := f)]
    · simp [hf]
    · exact List.nodup_range
    · simp; omega
    · rw [htmp _ hidx]; simp
    · intro j hj he
      have hj' : j < p.length := by rw [hlen]; simpa using hj
      rw [htmp j hj'] at he
      have he' : p[j] = f := Option.some.inj he
      rw [← he']
      exact (hnd.idxOf_getElem j hj').symm
    · simpa using hf
  · rw [List.getElem?_eq_none, List.getElem?_eq_none]
    · simp; omega
    · rw [slotStep_length]; simp; omega

/-- C08, exact condition: the documented order is used if and only if the priority list, read as a
permutation of the faces, is its own inverse. -/
theorem C08_documented_iff_involutive (ndim : ℕ) (h1 : 1 ≤ ndim) (hn : ndim ≤ 3) (p : List ℕ)
    (hp : p.Perm (List.range (2 * ndim))) :
    generateOrder ndim (priorityText p) = .ok (documentedOrder p) ↔
      ∀ i < 2 * ndim, p[p.getD i 0]? = some i := by
  have hlen : p.length = 2 * ndim := by rw [hp.length_eq, List.length_range]
  have hnd : p.Nodup := hp.nodup_iff.2 List.nodup_range
  rw [C08_code_uses_positions ndim h1 hn p hp]
  have hconv : (Except.ok ((List.range (2 * ndim)).map fun f => some (p.idxOf f)).reverse : Except String _)
      = .ok (documentedOrder p) ↔ (List.range (2 * ndim)).map (fun f => p.idxOf f) = p := by
    unfold documentedOrder
    rw [List.map_reverse]
    constructor
    · intro h
      have h2 := List.reverse_injective (Except.ok.inj h)
      have h3 : ((List.range (2 * ndim)).map (fun f => p.idxOf f)).map some = p.map some := by
        simpa [List.map_map, Function.comp_def] using h2
      exact List.map_injective_iff.2 (Option.some_injective _) h3
    · intro h
      congr 2
      conv_rhs => rw [← h]
      simp [List.map_map, Function.comp_def]
  rw [hconv]
  constructor
  · intro h i hi
    have hpi : p[i]? = some (p.idxOf i) := by
      conv_lhs => rw [← h]
      simp [hi]
    have hget : p.getD i 0 = p.idxOf i := by rw [List.getD_eq_getElem?_getD, hpi]; rfl
    have hip : i ∈ p := (hp.mem_iff).2 (by simpa using hi)
    rw [hget]
    have hidx := List.idxOf_lt_length_iff.2 hip
    rw [List.getElem?_eq_getElem hidx]
    simp
  · intro h
    apply List.ext_getElem?
    intro i
    by_cases hi : i < 2 * ndim
    · have hi' : i < p.length := by omega
      have h2 := h i hi
      have hget : p.getD i 0 = p[i] := by simp [List.getD_eq_getElem?_getD, hi']
      rw [hget] at h2
      obtain ⟨hlt, h3⟩ := List.getElem?_eq_some_iff.1 h2
      have h4 := hnd.idxOf_getElem _ hlt
      rw [h3] at h4
      simp [hi, hi', h4]
    · rw [List.getElem?_eq_none (by simp; omega), List.getElem?_eq_none (by omega)]

/-- C08 (partial). Full statement: for *every* permutation `p` of the faces
`generateOrder ndim (priorityText p) = .ok (documentedOrder p)`. It is false (next theorem); it holds for
the priorities that only exchange disjoint pairs of faces. -/
theorem C08_involutive_partial (ndim : ℕ) (h1 : 1 ≤ ndim) (hn : ndim ≤ 3) (p : List ℕ)
    (hp : p.Perm (List.range (2 * ndim))) (hinv : ∀ i < 2 * ndim, p[p.getD i 0]? = some i) :
    generateOrder ndim (priorityText p) = .ok (documentedOrder p) :=
  (C08_documented_iff_involutive ndim h1 hn p hp).2 hinv

/-- In one dimension every priority list is honoured. -/
theorem C08_one_dimension (p : List ℕ) (hp : p.Perm (List.range 2)) :
    generateOrder 1 (priorityText p) = .ok (documentedOrder p) := by
  refine C08_involutive_partial 1 le_rfl (by omega) p hp ?_
  have hlen : p.length = 2 := by rw [hp.length_eq, List.length_range]
  have hnd : p.Nodup := hp.nodup_iff.2 List.nodup_range
  obtain ⟨a, b, rfl⟩ := List.length_eq_two.1 hlen
  have ha : a < 2 := by simpa using (hp.mem_iff (a := a)).1 (by simp)
  have hb : b < 2 := by simpa using (hp.mem_iff (a := b)).1 (by simp)
  have hab : a ≠ b := by simpa using hnd
  rcases (by omega : a = 0 ∧ b = 1 ∨ a = 1 ∧ b = 0) with ⟨rfl, rfl⟩ | ⟨rfl, rfl⟩ <;> decide

/-- C08 is violated in two dimensions: with the priority "X_right Y_left X_left Y_right" the face of
highest priority, X_right (face 1), is *not* executed last: Y_left (face 2) is. -/
theorem C08_violated : generateOrder 2 (priorityText [1, 2, 0, 3]) = .ok [some 3, some 1, some 0, some 2] ∧
    documentedOrder [1, 2, 0, 3] = [some 3, some 0, some 2, some 1] := by
  constructor
  · rw [C08_code_uses_positions 2 (by norm_num) (by norm_num) _ (by decide)]; decide
  · decide

/-- C08, the default (empty priority) is documented as X before Y before Z from high to low priority, but
the X faces are executed first, so that Y and Z overwrite them: opposite of the documentation as soon as
there are two dimensions. -/
theorem C08_default_violated (ndim : ℕ) (h1 : 1 ≤ ndim) :
    generateOrder ndim [] = .ok ((List.range (2 * ndim)).map some) ∧
      (List.range (2 * ndim)).map some ≠ documentedOrder (List.range (2 * ndim)) := by
  refine ⟨by simp [generateOrder], fun h => ?_⟩
  have h2 := congrArg (fun l : List (Option ℕ) => l[0]?) h
  simp only [documentedOrder] at h2
  rw [List.getElem?_map, List.getElem?_map, List.getElem?_range (by omega),
    List.getElem?_reverse (by simp; omega)] at h2
  simp only [List.length_range] at h2
  rw [List.getElem?_range (by omega)] at h2
  simp at h2
  omega

/-- The hypotheses of the partial theorem hold e.g. for "Y_left X_right X_left Y_right". -/
example : ([2, 1, 0, 3] : List ℕ).Perm (List.range (2 * 2)) ∧
    (∀ i < 2 * 2, ([2, 1, 0, 3] : List ℕ)[([2, 1, 0, 3] : List ℕ).getD i 0]? = some i) ∧
    generateOrder 2 (priorityText [2, 1, 0, 3]) = .ok [some 3, some 0, some 1, some 2] := by
  refine ⟨by decide, by decide, ?_⟩
  rw [C08_involutive_partial 2 (by norm_num) (by norm_num) _ (by decide) (by decide)]
  decide

/-- C08, how far the wrong order can matter: with the built-in conditions only (null gradient, reflexive,
periodic) on arrays with enough cells, *every* order of the faces gives the same arrays, so the priority
has no effect at all; it matters only for user-defined conditions. -/
theorem C08_builtin_order_irrelevant {d n : ℕ} {K : Type} [Neg K] (hd3 : d ≤ 3) (user : UserBc d n K)
    (sched : Cell → Cell → List Cell) (hs : ∀ b e, IsSchedule (sched b e) b e)
    (bcs : Fin d → Fin 2 → BcKind) (hb : ∀ a f, bcs a f ≠ .userDefined)
    (isBorder : Fin 3 → Fin 2 → Bool) (ext nghost : Cell)
    (h0 : ∀ a : Fin d, 0 ≤ nghost (ax a)) (h1 : ∀ a : Fin d, 2 * nghost (ax a) < ext (ax a))
    (h2 : ∀ a : Fin d, 3 * nghost (ax a) ≤ ext (ax a))
    (p q : List ℕ) (hp : ∀ id ∈ p, id < 2 * d) (hpq : p.Perm q) (val : Cell → Fields d n K) :
    bcLoop user sched bcs isBorder ext nghost (p.map some) ⟨inExt ext, val⟩ =
      bcLoop user sched bcs isBorder ext nghost (q.map some) ⟨inExt ext, val⟩ := by
  have hq : ∀ id ∈ q, id < 2 * d := fun id h => hp id ((hpq.mem_iff).2 h)
  have h1' : ∀ a : Fin d, nghost (ax a) < ext (ax a) := fun a => by
    have := h0 a; have := h1 a; omega
  rw [bcLoop_pure hs h0 h1' (fun a => (h1 a).le) hb p hp, bcLoop_pure hs h0 h1' (fun a => (h1 a).le) hb q hq]
  congr 2
  refine hpq.foldl_eq' (fun x hx y hy z => ?_) val
  obtain ⟨a, f, rfl⟩ := faceId_surj (hp x hx)
  obtain ⟨b, g, rfl⟩ := faceId_surj (hp y hy)
  exact bcPure_comm hd3 (h0 a) (h0 b) (h1 a) (h2 a) (h1 b) (h2 b) z

/-- A user condition that writes the number of its face in the ghost cells of the face (5 x 5 array,
one ghost). -/
def stampBc : UserBc 2 0 ℤ := fun a f v =>
  some ⟨v.dom, fun c =>
    if InGhostLayer (![5, 5, 1] : Cell) 1 (ax a) f c then ⟨faceId a f, fun _ => 0, 0, fun _ => 0⟩ else v.val c⟩

/-- C08, observable effect of the violation: with the priority "X_right Y_left X_left Y_right" and user
conditions on all faces, the corner shared by X_right (face 1, highest priority) and Y_left (face 2) ends
up with the data of Y_left; the documented order would leave the data of X_right. -/
theorem C08_violated_corner :
    let run := fun order => (bcLoop stampBc boxList (fun _ _ => .userDefined) (fun _ _ => true) ![5, 5, 1]
      (nghostOf 2 1) order ⟨inExt ![5, 5, 1], fun _ => ⟨7, fun _ => 0, 0, fun _ => 0⟩⟩).map
        fun v => (v.val ![4, 0, 0]).rho
    (match generateOrder 2 (priorityText [1, 2, 0, 3]) with
      | .ok order => run order
      | .error _ => none) = some 2 ∧
    run (documentedOrder [1, 2, 0, 3]) = some 1 := by
  rw [C08_violated.1]
  decide

/-- The order theorem applies e.g. to a 9 x 9 array with 2 ghosts and mixed conditions. -/
example : bcLoop (d := 2) (n := 0) (K := ℤ) (fun _ _ v => some v) boxList
      (fun a _ => if a = 0 then .reflexive else .nullGradient) (fun _ _ => true) ![9, 9, 1] (nghostOf 2 2)
      ([3, 1, 0, 2].map some) ⟨inExt ![9, 9, 1], fun c => ⟨c 0, fun _ => c 1, 0, fun _ => 0⟩⟩ =
    bcLoop (fun _ _ v => some v) boxList
      (fun a _ => if a = 0 then .reflexive else .nullGradient) (fun _ _ => true) ![9, 9, 1] (nghostOf 2 2)
      ([0, 1, 2, 3].map some) ⟨inExt ![9, 9, 1], fun c => ⟨c 0, fun _ => c 1, 0, fun _ => 0⟩⟩ :=
  C08_builtin_order_irrelevant (by norm_num) _ _ boxList_isSchedule _ (by decide) _ _ _ (by decide) (by decide)
    (by decide) _ _ (by decide) (by decide) _

/-! ## C09 -/

/-- C09, exact acceptance condition: a non-empty priority string is accepted if and only if each of its
first `2 * ndim` words is the name of some face of the run. -/
theorem C09_accepted_iff (ndim : ℕ) (h1 : 1 ≤ ndim) (hn : ndim ≤ 3) (t : List Char) (ht : t ≠ []) :
    (∃ o, generateOrder ndim t = .ok o) ↔
      ∀ i < 2 * ndim, ∃ f < 2 * ndim, (wordsOf t).getD i [] = faceName f := by
  rw [generateOrder_ok_iff ndim t ht]
  constructor
  · intro h i hi; exact (faceSlot_isSome h1 hn _).1 (h i hi)
  · intro h i hi; exact (faceSlot_isSome h1 hn _).2 (h i hi)

/-- C09 (partial). Full statement: a non-empty string whose words are not exactly the faces of the run,
each once, is rejected. It is false for repeated faces and for extra words (next theorems). What holds:
a string with too few words, or with a word that is not a face of the run among the first `2 * ndim`, is
rejected. -/
theorem C09_rejects_partial (ndim : ℕ) (h1 : 1 ≤ ndim) (hn : ndim ≤ 3) (t : List Char) (ht : t ≠ [])
    (hbad : (wordsOf t).length < 2 * ndim ∨ ∃ i < 2 * ndim, ∀ f < 2 * ndim, (wordsOf t).getD i [] ≠ faceName f) :
    ∃ msg, generateOrder ndim t = .error msg := by
  cases h : generateOrder ndim t with
  | error msg => exact ⟨msg, rfl⟩
  | ok o =>
    exfalso
    have hacc := (C09_accepted_iff ndim h1 hn t ht).1 ⟨o, h⟩
    rcases hbad with hb | ⟨i, hi, hb⟩
    · obtain ⟨f, hf, he⟩ := hacc _ hb
      rw [List.getD_eq_getElem?_getD, List.getElem?_eq_none le_rfl] at he
      exact (faceName_clean f (by omega)).1 he.symm
    · obtain ⟨f, hf, he⟩ := hacc i hi
      exact hb f hf he

/-- A complete list of faces, each named once, is accepted and leaves no slot unassigned. -/
theorem C09_complete_list_initialised (ndim : ℕ) (h1 : 1 ≤ ndim) (hn : ndim ≤ 3) (p : List ℕ)
    (hp : p.Perm (List.range (2 * ndim))) :
    ∃ o : List ℕ, generateOrder ndim (priorityText p) = .ok (o.map some) ∧ o.Perm (List.range (2 * ndim)) := by
  refine ⟨((List.range (2 * ndim)).map fun f => p.idxOf f).reverse, ?_, ?_⟩
  · rw [C08_code_uses_positions ndim h1 hn p hp, List.map_reverse, List.map_map]; rfl
  · have hlen : p.length = 2 * ndim := by rw [hp.length_eq, List.length_range]
    have hnd : p.Nodup := hp.nodup_iff.2 List.nodup_range
    refine (List.reverse_perm _).trans ?_
    rw [List.perm_ext_iff_of_nodup]
    · intro a
      simp only [List.mem_map, List.mem_range]
      constructor
      · rintro ⟨f, hf, rfl⟩
        have hfp : f ∈ p := (hp.mem_iff).2 (by simpa using hf)
        have := List.idxOf_lt_length_iff.2 hfp
        omega
      · intro ha
        have ha' : a < p.length := by omega
        exact ⟨p[a], by simpa using (hp.mem_iff).1 (List.getElem_mem ha'), hnd.idxOf_getElem a ha'⟩
    · refine List.Nodup.map_on ?_ List.nodup_range
      intro x hx y hy hxy
      have hxp : x ∈ p := (hp.mem_iff).2 hx
      exact (List.idxOf_inj hxp).1 hxy
    · exact List.nodup_range

/-- C09 is violated by a repeated face: "X_left X_left" is accepted in one dimension, and slot 0 of the
order is never assigned; using the order is then undefined behaviour. -/
theorem C09_violated_duplicate :
    generateOrder 1 (List.intercalate [' '] [faceName 0, faceName 0]) = .ok [none, some 1] ∧
    ∀ (v : View Cell (Fields 1 0 ℤ)) user sched bcs border ext nghost,
      bcLoop user sched bcs border ext nghost [none, some 1] v = none :=
  ⟨by decide, fun _ _ _ _ _ _ _ => rfl⟩

/-- C09 is violated by extra words: everything after the first `2 * ndim` words is ignored. -/
theorem C09_violated_extra_words :
    generateOrder 1 (List.intercalate [' '] [faceName 0, faceName 1, ['W', '_', 'u', 'p']]) = .ok [some 1, some 0] := by
  decide

/-- The rejection theorem applies to a misspelt face. -/
example : ∃ msg, generateOrder 1 (List.intercalate [' '] [faceName 0, ['x', '_', 'r', 'i', 'g', 'h', 't']]) = .error msg :=
  C09_rejects_partial 1 le_rfl (by omega) _ (by decide) (Or.inr ⟨1, by decide, by decide⟩)

end Heracles
