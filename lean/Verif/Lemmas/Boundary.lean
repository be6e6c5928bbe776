import Verif.Model.Boundary
import Verif.Spec.Boundary
import Verif.Lemmas.Kokkos

namespace Heracles

variable {d n : ℕ} {K : Type}

theorem ax_val {a : Fin d} (h : d ≤ 3) : (ax a).val = a.val := by
  simp only [ax, Fin.ofNat]
  exact Nat.mod_eq_of_lt (by omega)

theorem ax_injective (h : d ≤ 3) {a b : Fin d} (hab : ax a = ax b) : a = b := by
  have := congrArg Fin.val hab
  rw [ax_val h, ax_val h] at this
  exact Fin.ext this

theorem face_cases (f : Fin 2) : f = 0 ∨ f = 1 := by omega

/-- The box traversed by the kernels is the ghost slab. -/
theorem inBox_slab {ext : Cell} {ng : ℤ} {a : Fin 3} {face : Fin 2} {c : Cell}
    (_h0 : 0 ≤ ng) (h1 : ng ≤ ext a) :
    inBox (slabBegin ext ng a face) (slabEnd ext ng a face) c ↔
      inExt ext c = true ∧ InGhostLayer ext ng a face c := by
  rw [inExt_iff]
  unfold inBox InGhostLayer
  constructor
  · intro h
    have ha := h a
    refine ⟨fun b => ?_, ?_⟩
    · have hb := h b
      by_cases hab : b = a
      · subst hab
        rcases face_cases face with rfl | rfl <;> simp [slabBegin, slabEnd] at hb <;> omega
      · simpa [slabBegin, slabEnd, Function.update_of_ne hab] using hb
    · rcases face_cases face with rfl | rfl <;> simp [slabBegin, slabEnd] at ha ⊢ <;> omega
  · rintro ⟨h, hl⟩ b
    have hb := h b
    by_cases hab : b = a
    · subst hab
      rcases face_cases face with rfl | rfl <;> simp [slabBegin, slabEnd] at hl ⊢ <;> omega
    · simpa [slabBegin, slabEnd, Function.update_of_ne hab] using hb

theorem nullOffset_eq (ext : Cell) (ng : ℤ) (a : Fin 3) (face : Fin 2) :
    nullOffset ext ng a face = interiorLayer ext ng a face 1 := by
  rcases face_cases face with rfl | rfl <;> simp [nullOffset, interiorLayer, slabBegin, slabEnd]

theorem mirrorSum_eq (ext : Cell) (ng : ℤ) (a : Fin 3) (face : Fin 2) (c : Cell) :
    mirrorSum ext ng a face - c a = interiorLayer ext ng a face (ghostDepth ext ng a face c) := by
  rcases face_cases face with rfl | rfl <;> simp [mirrorSum, interiorLayer, ghostDepth] <;> omega

theorem inExt_update {ext c : Cell} {a : Fin 3} {x : ℤ} (h : inExt ext c = true) (h0 : 0 ≤ x)
    (h1 : x < ext a) : inExt ext (Function.update c a x) = true := by
  rw [inExt_iff] at *
  intro b
  by_cases hb : b = a
  · subst hb; simp [h0, h1]
  · simpa [Function.update_of_ne hb] using h b

open Classical in
/-- Result of the null-gradient kernel for any iteration order. -/
theorem nullGradient_eq {ext : Cell} {ng : ℤ} {a : Fin d} {face : Fin 2} {l : List Cell}
    (h0 : 0 ≤ ng) (h1 : ng < ext (ax a)) (hl : IsSchedule l (slabBegin ext ng (ax a) face) (slabEnd ext ng (ax a) face))
    (val : Cell → Fields d n K) :
    nullGradient ext ng a face l ⟨inExt ext, val⟩ = some ⟨inExt ext, fun c =>
      if inExt ext c = true ∧ InGhostLayer ext ng (ax a) face c then val (nearest ext ng (ax a) face c)
      else val c⟩ := by
  have hmem : ∀ c, c ∈ l ↔ inExt ext c = true ∧ InGhostLayer ext ng (ax a) face c := fun c => by
    rw [hl.2, inBox_slab h0 h1.le]
  unfold nullGradient
  rw [parFor_update l hl.1 ⟨inExt ext, val⟩ _ (fun c => val (nearest ext ng (ax a) face c))]
  · congr 2
    funext c
    by_cases hc : c ∈ l
    · rw [if_pos hc, if_pos ((hmem c).1 hc)]
    · rw [if_neg hc, if_neg (fun h => hc ((hmem c).2 h))]
  · intro c hc w hwd hw
    have hc' := (hmem c).1 hc
    have hin : 0 ≤ interiorLayer ext ng (ax a) face 1 ∧ interiorLayer ext ng (ax a) face 1 < ext (ax a) := by
      rcases face_cases face with rfl | rfl <;> simp [interiorLayer] <;> omega
    have hsrc : inExt ext (nearest ext ng (ax a) face c) = true := inExt_update hc'.1 hin.1 hin.2
    have hnot : nearest ext ng (ax a) face c ∉ l := by
      intro h
      have := ((hmem _).1 h).2
      rcases face_cases face with rfl | rfl <;> simp [InGhostLayer, nearest, interiorLayer] at this
    rw [nullOffset_eq]
    change (do let s ← w.rd (nearest ext ng (ax a) face c); w.wr c s) = _
    rw [View.rd_of_dom (by rw [hwd]; exact hsrc)]
    simp only [Option.bind_eq_bind, Option.bind_some]
    rw [View.wr_of_dom (by rw [hwd]; exact hc'.1), hw _ (Or.inl hnot)]

open Classical in
/-- Result of the reflexive kernel for any iteration order. -/
theorem reflexive_eq [Neg K] {ext : Cell} {ng : ℤ} {a : Fin d} {face : Fin 2} {l : List Cell}
    (h0 : 0 ≤ ng) (h1 : 2 * ng ≤ ext (ax a))
    (hl : IsSchedule l (slabBegin ext ng (ax a) face) (slabEnd ext ng (ax a) face))
    (val : Cell → Fields d n K) :
    reflexive ext ng a face l ⟨inExt ext, val⟩ = some ⟨inExt ext, fun c =>
      if inExt ext c = true ∧ InGhostLayer ext ng (ax a) face c then (val (mirror ext ng (ax a) face c)).flip a
      else val c⟩ := by
  have hmem : ∀ c, c ∈ l ↔ inExt ext c = true ∧ InGhostLayer ext ng (ax a) face c := fun c => by
    rw [hl.2, inBox_slab h0 (by omega)]
  unfold reflexive
  rw [parFor_update l hl.1 ⟨inExt ext, val⟩ _ (fun c => (val (mirror ext ng (ax a) face c)).flip a)]
  · congr 2
    funext c
    by_cases hc : c ∈ l
    · rw [if_pos hc, if_pos ((hmem c).1 hc)]
    · rw [if_neg hc, if_neg (fun h => hc ((hmem c).2 h))]
  · intro c hc w hwd hw
    have hc' := (hmem c).1 hc
    have hca := (inExt_iff.1 hc'.1) (ax a)
    have hin : 0 ≤ interiorLayer ext ng (ax a) face (ghostDepth ext ng (ax a) face c) ∧
        interiorLayer ext ng (ax a) face (ghostDepth ext ng (ax a) face c) < ext (ax a) := by
      have := hc'.2
      rcases face_cases face with rfl | rfl <;> simp [interiorLayer, ghostDepth, InGhostLayer] at this ⊢ <;> omega
    have hsrc : inExt ext (mirror ext ng (ax a) face c) = true := inExt_update hc'.1 hin.1 hin.2
    have hnot : mirror ext ng (ax a) face c ∉ l := by
      intro h
      have h2 := ((hmem _).1 h).2
      have h3 := hc'.2
      rcases face_cases face with rfl | rfl <;>
        simp [InGhostLayer, mirror, interiorLayer, ghostDepth] at h2 h3 <;> omega
    rw [mirrorSum_eq]
    change (do
      let s ← w.rd (mirror ext ng (ax a) face c)
      let v ← w.wr c s
      let t ← v.rd c
      v.wr c (t.flip a)) = _
    rw [View.rd_of_dom (by rw [hwd]; exact hsrc)]
    simp only [Option.bind_eq_bind, Option.bind_some]
    rw [View.wr_of_dom (by rw [hwd]; exact hc'.1)]
    simp only [Option.bind_some]
    rw [View.rd_of_dom (by simpa [hwd] using hc'.1)]
    simp only [Option.bind_some]
    rw [View.wr_of_dom (by simpa [hwd] using hc'.1), hw _ (Or.inl hnot)]
    simp

/-- A user condition that stays in the ghost layers of its face. -/
def UserOk (user : UserBc d n K) (ext nghost : Cell) (a : Fin d) (f : Fin 2) : Prop :=
  ∀ val, ∃ val', user a f ⟨inExt ext, val⟩ = some ⟨inExt ext, val'⟩ ∧
    ∀ c, ¬ (inExt ext c = true ∧ InGhostLayer ext (nghost (ax a)) (ax a) f c) → val' c = val c

theorem bcExecute_spec [Neg K] {user : UserBc d n K} {sched : Cell → Cell → List Cell}
    (hs : ∀ b e, IsSchedule (sched b e) b e) {kind : BcKind} {ext nghost : Cell} {a : Fin d} {f : Fin 2}
    (h0 : 0 ≤ nghost (ax a)) (h1 : nghost (ax a) < ext (ax a)) (h2 : 2 * nghost (ax a) ≤ ext (ax a))
    (hu : kind = .userDefined → UserOk user ext nghost a f) (val : Cell → Fields d n K) :
    ∃ val', bcExecute user sched kind ext nghost a f ⟨inExt ext, val⟩ = some ⟨inExt ext, val'⟩ ∧
      (∀ c, ¬ (inExt ext c = true ∧ InGhostLayer ext (nghost (ax a)) (ax a) f c) → val' c = val c) ∧
      (∀ c, inExt ext c = true → InGhostLayer ext (nghost (ax a)) (ax a) f c →
        (kind = .nullGradient → val' c = val (nearest ext (nghost (ax a)) (ax a) f c)) ∧
        (kind = .reflexive → val' c = (val (mirror ext (nghost (ax a)) (ax a) f c)).flip a) ∧
        (kind = .periodic → val' c = val c)) := by
  cases kind with
  | nullGradient =>
    refine ⟨_, nullGradient_eq h0 h1 (hs _ _) val, fun c hc => if_neg hc, fun c hc hl => ⟨fun _ => ?_, by simp, by simp⟩⟩
    exact if_pos ⟨hc, hl⟩
  | periodic => exact ⟨val, rfl, fun c _ => rfl, fun c _ _ => ⟨by simp, by simp, fun _ => rfl⟩⟩
  | reflexive =>
    refine ⟨_, reflexive_eq h0 h2 (hs _ _) val, fun c hc => if_neg hc, fun c hc hl => ⟨by simp, fun _ => ?_, by simp⟩⟩
    exact if_pos ⟨hc, hl⟩
  | userDefined =>
    obtain ⟨val', h3, h4⟩ := hu rfl val
    exact ⟨val', h3, h4, fun c _ _ => ⟨by simp, by simp, by simp⟩⟩

/-- Number of the face `f` of direction `a` (`bc_id`). -/
def faceId (a : Fin d) (f : Fin 2) : ℕ := 2 * a.val + f.val

theorem faceId_lt (a : Fin d) (f : Fin 2) : faceId a f < 2 * d := by
  unfold faceId; omega

theorem faceId_surj {id : ℕ} (h : id < 2 * d) : ∃ (a : Fin d) (f : Fin 2), faceId a f = id :=
  ⟨⟨id / 2, by omega⟩, ⟨id % 2, by omega⟩, by simp [faceId]; omega⟩

theorem faceId_inj {a b : Fin d} {f g : Fin 2} (h : faceId a f = faceId b g) : a = b ∧ f = g := by
  unfold faceId at h
  exact ⟨Fin.ext (by omega), Fin.ext (by omega)⟩

section Loop
variable [Neg K] {user : UserBc d n K} {sched : Cell → Cell → List Cell}
  {bcs : Fin d → Fin 2 → BcKind} {isBorder : Fin 3 → Fin 2 → Bool} {ext nghost : Cell}

theorem bcLoop_nil (v : View Cell (Fields d n K)) :
    bcLoop user sched bcs isBorder ext nghost [] v = some v := rfl

theorem bcLoop_cons (a : Fin d) (f : Fin 2) (l : List (Option ℕ)) (v : View Cell (Fields d n K)) :
    bcLoop user sched bcs isBorder ext nghost (some (faceId a f) :: l) v =
      (if isBorder (ax a) f then bcExecute user sched (bcs a f) ext nghost a f v else some v).bind
        (bcLoop user sched bcs isBorder ext nghost l) := by
  have h1 : faceId a f / 2 = a.val := by unfold faceId; omega
  have h2 : faceId a f % 2 = f.val := by unfold faceId; omega
  unfold bcLoop
  rw [List.foldlM_cons]
  simp only [Option.bind_eq_bind, Option.bind_some, h1, h2, a.isLt, dite_true, Fin.eta, Fin.ofNat_val_eq_self]

/-- The cell is in the ghost layers of a border face listed in `l`. -/
def Hit (isBorder : Fin 3 → Fin 2 → Bool) (ext nghost : Cell) (d : ℕ) (l : List ℕ) (c : Cell) : Prop :=
  ∃ (a : Fin d) (f : Fin 2), faceId a f ∈ l ∧ isBorder (ax a) f = true ∧
    InGhostLayer ext (nghost (ax a)) (ax a) f c

theorem bcLoop_spec (hs : ∀ b e, IsSchedule (sched b e) b e)
    (h0 : ∀ a : Fin d, 0 ≤ nghost (ax a)) (h1 : ∀ a : Fin d, nghost (ax a) < ext (ax a))
    (h2 : ∀ a : Fin d, 2 * nghost (ax a) ≤ ext (ax a))
    (hu : ∀ a f, bcs a f = .userDefined → UserOk user ext nghost a f)
    (l : List ℕ) (hl : ∀ id ∈ l, id < 2 * d) (val : Cell → Fields d n K) :
    ∃ val', bcLoop user sched bcs isBorder ext nghost (l.map some) ⟨inExt ext, val⟩ = some ⟨inExt ext, val'⟩ ∧
      ∀ c, ¬ (inExt ext c = true ∧ Hit isBorder ext nghost d l c) → val' c = val c := by
  induction l generalizing val with
  | nil => exact ⟨val, rfl, fun _ _ => rfl⟩
  | cons id l ih =>
    obtain ⟨a, f, rfl⟩ := faceId_surj (hl id (by simp))
    rw [List.map_cons, bcLoop_cons]
    by_cases hb : isBorder (ax a) f = true
    · obtain ⟨val1, e1, e2, _⟩ := bcExecute_spec hs (h0 a) (h1 a) (h2 a) (hu a f) val
      obtain ⟨val2, e3, e4⟩ := ih (fun id h => hl id (by simp [h])) val1
      refine ⟨val2, by rw [if_pos hb, e1, Option.bind_some, e3], fun c hc => ?_⟩
      rw [e4 c, e2 c]
      · exact fun h => hc ⟨h.1, a, f, by simp, hb, h.2⟩
      · rintro ⟨h, b, g, h3, h4⟩
        exact hc ⟨h, b, g, by simp [h3], h4⟩
    · obtain ⟨val2, e3, e4⟩ := ih (fun id h => hl id (by simp [h])) val
      refine ⟨val2, by rw [if_neg hb, Option.bind_some, e3], fun c hc => ?_⟩
      rw [e4 c]
      rintro ⟨h, b, g, h3, h4⟩
      exact hc ⟨h, b, g, by simp [h3], h4⟩

theorem bcLoop_append (l l' : List (Option ℕ)) (v : View Cell (Fields d n K)) :
    bcLoop user sched bcs isBorder ext nghost (l ++ l') v =
      (bcLoop user sched bcs isBorder ext nghost l v).bind (bcLoop user sched bcs isBorder ext nghost l') := by
  unfold bcLoop
  rw [List.foldlM_append]
  rfl

/-- The last border face executed on a cell decides its value. -/
theorem bcLoop_last (hs : ∀ b e, IsSchedule (sched b e) b e)
    (h0 : ∀ a : Fin d, 0 ≤ nghost (ax a)) (h1 : ∀ a : Fin d, nghost (ax a) < ext (ax a))
    (h2 : ∀ a : Fin d, 2 * nghost (ax a) ≤ ext (ax a))
    (hu : ∀ a f, bcs a f = .userDefined → UserOk user ext nghost a f)
    (l l' : List ℕ) (a : Fin d) (f : Fin 2) (hl : ∀ id ∈ l ++ faceId a f :: l', id < 2 * d)
    (hb : isBorder (ax a) f = true) (val : Cell → Fields d n K) :
    ∃ val₁ val', bcLoop user sched bcs isBorder ext nghost (l.map some) ⟨inExt ext, val⟩ = some ⟨inExt ext, val₁⟩ ∧
      bcLoop user sched bcs isBorder ext nghost ((l ++ faceId a f :: l').map some) ⟨inExt ext, val⟩
        = some ⟨inExt ext, val'⟩ ∧
      (∀ c, ¬ (inExt ext c = true ∧ Hit isBorder ext nghost d l c) → val₁ c = val c) ∧
      ∀ c, inExt ext c = true → InGhostLayer ext (nghost (ax a)) (ax a) f c →
        ¬ Hit isBorder ext nghost d l' c →
        (bcs a f = .nullGradient → val' c = val₁ (nearest ext (nghost (ax a)) (ax a) f c)) ∧
        (bcs a f = .reflexive → val' c = (val₁ (mirror ext (nghost (ax a)) (ax a) f c)).flip a) ∧
        (bcs a f = .periodic → val' c = val₁ c) := by
  obtain ⟨val1, e1, e2⟩ := bcLoop_spec hs h0 h1 h2 hu (isBorder := isBorder) l (fun id h => hl id (by simp [h])) val
  obtain ⟨val2, e3, _, e4⟩ := bcExecute_spec hs (h0 a) (h1 a) (h2 a) (hu a f) val1
  obtain ⟨val3, e5, e6⟩ := bcLoop_spec hs h0 h1 h2 hu (isBorder := isBorder) l' (fun id h => hl id (by simp [h])) val2
  refine ⟨val1, val3, e1, ?_, e2, fun c hc hlc hn => ?_⟩
  · rw [List.map_append, List.map_cons, bcLoop_append, e1, Option.bind_some, bcLoop_cons, if_pos hb, e3,
      Option.bind_some, e5]
  · rw [e6 c (fun h => hn h.2)]
    exact e4 c hc hlc

end Loop

theorem mapM_except_ok {α β ε : Type} (f : α → Except ε β) (l : List α) (r : List β) :
    l.mapM f = .ok r ↔ List.Forall₂ (fun x y => f x = .ok y) l r := by
  induction l generalizing r with
  | nil =>
    simp only [List.mapM_nil, List.forall₂_nil_left_iff]
    constructor
    · intro h; cases h; rfl
    · rintro rfl; rfl
  | cons x l ih =>
    rw [List.mapM_cons]
    cases hx : f x with
    | error e =>
      constructor
      · intro h; cases h
      · intro h; cases h with | cons h1 _ => rw [hx] at h1; cases h1
    | ok y =>
      cases hl : l.mapM f with
      | error e =>
        constructor
        · intro h; cases h
        · intro h
          cases h with
          | cons h1 h2 => have := (ih _).2 h2; rw [hl] at this; cases this
      | ok ys =>
        constructor
        · intro h
          cases h
          exact List.Forall₂.cons hx ((ih _).1 hl)
        · intro h
          cases h with
          | cons h1 h2 =>
            have h3 := (ih _).2 h2
            rw [hl] at h3
            rw [hx] at h1
            cases h1; cases h3; rfl

end Heracles
