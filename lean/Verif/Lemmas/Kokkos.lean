import Verif.Model.Kokkos
import Mathlib.Tactic.FinCases
import Mathlib.Data.List.Range
import Mathlib.Tactic.Linarith

namespace Heracles

variable {ι K S : Type}

@[simp] theorem View.rd_of_dom {v : View ι K} {i : ι} (h : v.dom i = true) : v.rd i = some (v.val i) := by
  simp [View.rd, h]

theorem View.rd_eq_none {v : View ι K} {i : ι} (h : v.dom i = false) : v.rd i = none := by
  simp [View.rd, h]

@[simp] theorem View.wr_of_dom [DecidableEq ι] {v : View ι K} {i : ι} {y : K} (h : v.dom i = true) :
    v.wr i y = some { v with val := Function.update v.val i y } := by
  simp [View.wr, h]

theorem View.ext' {v w : View ι K} (hd : v.dom = w.dom) (hv : v.val = w.val) : v = w := by
  cases v; cases w; simp_all

theorem inExt_iff {ext c : Cell} : inExt ext c = true ↔ ∀ a, 0 ≤ c a ∧ c a < ext a := by
  simp [inExt]

theorem mem_intRange {b e i : ℤ} : i ∈ intRange b e ↔ b ≤ i ∧ i < e := by
  simp only [intRange, List.mem_map, List.mem_range]
  constructor
  · rintro ⟨n, hn, rfl⟩; omega
  · rintro ⟨h1, h2⟩; exact ⟨(i - b).toNat, by omega, by omega⟩

theorem intRange_nodup (b e : ℤ) : (intRange b e).Nodup := by
  refine List.Nodup.map ?_ List.nodup_range
  intro x y h
  have : b + (x : ℤ) = b + (y : ℤ) := h
  omega

theorem boxList_isSchedule (b e : Cell) : IsSchedule (boxList b e) b e := by
  constructor
  · unfold boxList
    rw [List.nodup_flatMap]
    refine ⟨fun i _ => ?_, ?_⟩
    · rw [List.nodup_flatMap]
      refine ⟨fun j _ => ?_, ?_⟩
      · refine List.Nodup.map ?_ (intRange_nodup _ _)
        intro x y h
        have := congrFun h 2
        simpa using this
      · refine List.Pairwise.imp ?_ (intRange_nodup _ _)
        intro x y hxy
        simp only [Function.onFun, List.disjoint_left, List.mem_map]
        rintro c ⟨k, _, rfl⟩ ⟨k', _, h⟩
        have := congrFun h 1
        simp at this
        exact hxy this.symm
    · refine List.Pairwise.imp ?_ (intRange_nodup _ _)
      intro x y hxy
      simp only [Function.onFun, List.disjoint_left, List.mem_map, List.mem_flatMap]
      rintro c ⟨j, _, k, _, rfl⟩ ⟨j', _, k', _, h⟩
      have := congrFun h 0
      simp at this
      exact hxy this.symm
  · intro c
    simp only [boxList, List.mem_flatMap, List.mem_map, mem_intRange, inBox]
    constructor
    · rintro ⟨i, hi, j, hj, k, hk, rfl⟩ a
      fin_cases a <;> simp_all
    · intro h
      refine ⟨c 0, h 0, c 1, h 1, c 2, h 2, ?_⟩
      funext a; fin_cases a <;> rfl

theorem parFor_nil (body : ι → S → Option S) (s : S) : parFor [] body s = some s := rfl

theorem parFor_cons (i : ι) (l : List ι) (body : ι → S → Option S) (s : S) :
    parFor (i :: l) body s = (body i s).bind (parFor l body) := by
  simp [parFor, List.foldlM_cons]; rfl

/-- If the loop body is a total state transformer, so is the loop. -/
theorem parFor_total (l : List ι) (body : ι → S → Option S) (f : ι → S → S)
    (inv : S → Prop) (hinv : ∀ i ∈ l, ∀ s, inv s → body i s = some (f i s) ∧ inv (f i s)) (s : S) (hs : inv s) :
    parFor l body s = some (l.foldl (fun s i => f i s) s) ∧ inv (l.foldl (fun s i => f i s) s) := by
  induction l generalizing s with
  | nil => exact ⟨rfl, hs⟩
  | cons i l ih =>
    obtain ⟨h1, h2⟩ := hinv i (by simp) s hs
    rw [parFor_cons, h1]
    exact ih (fun j hj s hs => hinv j (by simp [hj]) s hs) _ h2

/-- A loop whose iteration `i` reads locations that no *other* iteration writes and stores `g i` at `i`:
whatever the order, the result is the pointwise update. -/
theorem parFor_update [DecidableEq ι] (l : List ι) (hl : l.Nodup) (v : View ι K)
    (body : ι → View ι K → Option (View ι K)) (g : ι → K)
    (hf : ∀ i ∈ l, ∀ w : View ι K, w.dom = v.dom → (∀ x, (x ∉ l ∨ x = i) → w.val x = v.val x) →
      body i w = some { w with val := Function.update w.val i (g i) }) :
    parFor l body v = some { v with val := fun x => if x ∈ l then g x else v.val x } := by
  suffices H : ∀ (m p : List ι), p ++ m = l → ∀ w : View ι K, w.dom = v.dom →
      (∀ x, w.val x = if x ∈ p then g x else v.val x) →
      parFor m body w
        = some { v with val := fun x => if x ∈ l then g x else v.val x } by
    exact H l [] rfl v rfl (by simp)
  intro m
  induction m with
  | nil =>
    intro p hp w hwd hwv
    simp only [List.append_nil] at hp
    subst hp
    rw [parFor_nil]
    congr 1
    exact View.ext' hwd (funext hwv)
  | cons i m ih =>
    intro p hp w hwd hwv
    have hi : i ∈ l := by rw [← hp]; simp
    have hip : i ∉ p := by
      rw [← hp] at hl
      intro h
      exact (List.disjoint_of_nodup_append hl) h (by simp)
    have hfi := hf i hi w hwd (by
      intro x hx
      rw [hwv x, if_neg]
      rcases hx with hx | rfl
      · intro h; apply hx; rw [← hp]; simp [h]
      · exact hip)
    rw [parFor_cons, hfi]
    simp only [Option.bind_some]
    refine ih (p ++ [i]) (by simp [hp]) _ hwd ?_
    intro x
    by_cases hx : x = i
    · subst hx; simp
    · simp [hwv x, hx]

/-- Special case of `parFor_update`: compute a value, then store it. -/
theorem parFor_pointwise [DecidableEq ι] (l : List ι) (hl : l.Nodup) (v : View ι K)
    (f : View ι K → ι → Option K) (g : ι → K)
    (hdom : ∀ i ∈ l, v.dom i = true)
    (hf : ∀ i ∈ l, ∀ w : View ι K, w.dom = v.dom → (∀ x, (x ∉ l ∨ x = i) → w.val x = v.val x) →
      f w i = some (g i)) :
    parFor l (fun i w => (f w i).bind (fun y => w.wr i y)) v
      = some { v with val := fun x => if x ∈ l then g x else v.val x } := by
  refine parFor_update l hl v _ g fun i hi w hwd hw => ?_
  rw [hf i hi w hwd hw, Option.bind_some, View.wr_of_dom (by rw [hwd]; exact hdom i hi)]

end Heracles
