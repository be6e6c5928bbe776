import Verif.Lemmas.Boundary
import Mathlib.Data.List.Nodup

namespace Heracles

/-- One iteration of the assignment loop of `generateOrder`. -/
def slotStep (s : ℕ → Option ℕ) (st : List (Option ℕ) × ℕ) (i : ℕ) : List (Option ℕ) × ℕ :=
  match s i with
  | some f => (st.1.set f (some i), st.2 + 1)
  | none => st

theorem slotStep_count (s : ℕ → Option ℕ) (l : List ℕ) (st : List (Option ℕ) × ℕ) :
    (l.foldl (slotStep s) st).2 = st.2 + (l.filter fun i => (s i).isSome).length := by
  induction l generalizing st with
  | nil => simp
  | cons i l ih =>
    rw [List.foldl_cons, ih]
    unfold slotStep
    cases h : s i with
    | none => simp [h]
    | some f => simp [h]; omega

theorem slotStep_length (s : ℕ → Option ℕ) (l : List ℕ) (st : List (Option ℕ) × ℕ) :
    (l.foldl (slotStep s) st).1.length = st.1.length := by
  induction l generalizing st with
  | nil => simp
  | cons i l ih =>
    rw [List.foldl_cons, ih]
    unfold slotStep
    cases h : s i <;> simp

theorem slotStep_keep (s : ℕ → Option ℕ) (l : List ℕ) (st : List (Option ℕ) × ℕ) (f : ℕ)
    (hf : ∀ i ∈ l, s i ≠ some f) : (l.foldl (slotStep s) st).1[f]? = st.1[f]? := by
  induction l generalizing st with
  | nil => simp
  | cons i l ih =>
    rw [List.foldl_cons, ih _ (fun j hj => hf j (by simp [hj]))]
    unfold slotStep
    cases h : s i with
    | none => rfl
    | some g =>
      have hg : g ≠ f := fun e => hf i (by simp) (by rw [h, e])
      simp [List.getElem?_set_ne hg]

theorem slotStep_get (s : ℕ → Option ℕ) (l : List ℕ) (st : List (Option ℕ) × ℕ) (i f : ℕ)
    (hl : l.Nodup) (hi : i ∈ l) (hs : s i = some f) (hinj : ∀ j ∈ l, s j = some f → j = i) (hf : f < st.1.length) :
    (l.foldl (slotStep s) st).1[f]? = some (some i) := by
  induction l generalizing st with
  | nil => cases hi
  | cons j l ih =>
    rw [List.foldl_cons]
    rcases List.mem_cons.1 hi with rfl | hi'
    · rw [slotStep_keep]
      · unfold slotStep
        rw [hs]
        simp [List.getElem?_set_self hf]
      · intro k hk he
        have := hinj k (by simp [hk]) he
        subst this
        exact (List.nodup_cons.1 hl).1 hk
    · refine ih _ (List.nodup_cons.1 hl).2 hi' (fun k hk => hinj k (by simp [hk])) ?_
      unfold slotStep
      cases s j <;> simpa using hf

theorem generateOrder_eq (ndim : ℕ) (t : List Char) (ht : t ≠ []) :
    generateOrder ndim t =
      (let st := (List.range (2 * ndim)).foldl (slotStep fun i => faceSlot ndim ((wordsOf t).getD i []))
          (List.replicate (2 * ndim) none, 0)
       if st.2 ≠ 2 * ndim then .error "boundary priority not fully defined !" else .ok st.1.reverse) := by
  unfold generateOrder
  rw [if_neg ht]
  rfl

theorem generateOrder_ok_iff (ndim : ℕ) (t : List Char) (ht : t ≠ []) :
    (∃ o, generateOrder ndim t = .ok o) ↔
      ∀ i < 2 * ndim, (faceSlot ndim ((wordsOf t).getD i [])).isSome = true := by
  rw [generateOrder_eq ndim t ht]
  simp only [slotStep_count, zero_add]
  have hlen : (List.range (2 * ndim)).length = 2 * ndim := List.length_range
  constructor
  · intro h i hi
    by_contra hn
    have hlt : ((List.range (2 * ndim)).filter
        fun i => (faceSlot ndim ((wordsOf t).getD i [])).isSome).length < 2 * ndim := by
      conv_rhs => rw [← hlen]
      exact List.length_filter_lt_length_iff_exists.2 ⟨i, by simpa using hi, hn⟩
    obtain ⟨o, ho⟩ := h
    rw [if_pos (by omega)] at ho
    cases ho
  · intro h
    have : ((List.range (2 * ndim)).filter
        fun i => (faceSlot ndim ((wordsOf t).getD i [])).isSome).length = 2 * ndim := by
      conv_rhs => rw [← hlen]
      rw [List.length_filter_eq_length_iff]
      intro i hi
      exact h i (by simpa using hi)
    rw [if_neg (by omega)]
    exact ⟨_, rfl⟩

/-- A word without white space followed by a blank is split off. -/
theorem wordsAux_word (w : List Char) (hw : ∀ c ∈ w, isSpaceC c = false) (cur rest : List Char) :
    wordsAux (w ++ rest) cur = wordsAux rest (w.reverse ++ cur) := by
  induction w generalizing cur with
  | nil => rfl
  | cons c w ih =>
    have hc := hw c (by simp)
    have hw' : ∀ c ∈ w, isSpaceC c = false := fun x hx => hw x (by simp [hx])
    cases cur with
    | nil => simp [wordsAux, hc, ih hw']
    | cons d cur => simp [wordsAux, hc, ih hw']

theorem wordsOf_join (ws : List (List Char)) (h : ∀ w ∈ ws, w ≠ [] ∧ ∀ c ∈ w, isSpaceC c = false) :
    wordsOf (List.intercalate [' '] ws) = ws := by
  have hnil : ∀ w : List Char, w ≠ [] → wordsAux [] w.reverse = [w] := by
    intro w hw
    cases hr : w.reverse with
    | nil => simp at hr; exact absurd hr hw
    | cons c cur =>
      simp only [wordsAux]
      rw [← hr, List.reverse_reverse]
  have hsp : ∀ (w rest : List Char), w ≠ [] → wordsAux (' ' :: rest) w.reverse = w :: wordsAux rest [] := by
    intro w rest hw
    cases hr : w.reverse with
    | nil => simp at hr; exact absurd hr hw
    | cons c cur =>
      have : isSpaceC ' ' = true := rfl
      simp only [wordsAux, this, if_true]
      rw [← hr, List.reverse_reverse]
  unfold wordsOf
  induction ws with
  | nil => rfl
  | cons w ws ih =>
    have hw := h w (by simp)
    cases ws with
    | nil =>
      have : List.intercalate [' '] [w] = w ++ [] := by simp [List.intercalate, List.intersperse]
      rw [this, wordsAux_word w hw.2, List.append_nil, hnil w hw.1]
    | cons w' ws =>
      have : List.intercalate [' '] (w :: w' :: ws) = w ++ ' ' :: List.intercalate [' '] (w' :: ws) := by
        simp [List.intercalate, List.intersperse]
      rw [this, wordsAux_word w hw.2, List.append_nil, hsp w _ hw.1,
        ih (fun x hx => h x (by simp at hx ⊢; tauto))]

/-! ## Built-in conditions as pure functions -/

section Pure
variable {d n : ℕ} {K : Type}

open Classical in
/-- Pointwise effect of a built-in condition. -/
noncomputable def condPure [Neg K] (kind : BcKind) (ext : Cell) (ng : ℤ) (a : Fin d) (f : Fin 2)
    (val : Cell → Fields d n K) (c : Cell) : Fields d n K :=
  if inExt ext c = true ∧ InGhostLayer ext ng (ax a) f c then
    match kind with
    | .nullGradient => val (nearest ext ng (ax a) f c)
    | .reflexive => (val (mirror ext ng (ax a) f c)).flip a
    | _ => val c
  else val c

/-- One iteration of the loop over the faces. -/
noncomputable def bcPure [Neg K] (bcs : Fin d → Fin 2 → BcKind) (isBorder : Fin 3 → Fin 2 → Bool) (ext nghost : Cell)
    (val : Cell → Fields d n K) (id : ℕ) : Cell → Fields d n K :=
  if h : id / 2 < d then
    let a : Fin d := ⟨id / 2, h⟩
    let f : Fin 2 := Fin.ofNat 2 (id % 2)
    if isBorder (ax a) f then condPure (bcs a f) ext (nghost (ax a)) a f val else val
  else val

theorem bcPure_faceId [Neg K] {bcs : Fin d → Fin 2 → BcKind} {isBorder : Fin 3 → Fin 2 → Bool} {ext nghost : Cell}
    (val : Cell → Fields d n K) (a : Fin d) (f : Fin 2) :
    bcPure bcs isBorder ext nghost val (faceId a f) =
      if isBorder (ax a) f then condPure (bcs a f) ext (nghost (ax a)) a f val else val := by
  have h1 : faceId a f / 2 = a.val := by unfold faceId; omega
  have h2 : faceId a f % 2 = f.val := by unfold faceId; omega
  unfold bcPure
  simp only [h1, h2, a.isLt, dite_true, Fin.eta, Fin.ofNat_val_eq_self]

theorem bcLoop_pure [Neg K] {user : UserBc d n K} {sched : Cell → Cell → List Cell}
    {bcs : Fin d → Fin 2 → BcKind} {isBorder : Fin 3 → Fin 2 → Bool} {ext nghost : Cell}
    (hs : ∀ b e, IsSchedule (sched b e) b e)
    (h0 : ∀ a : Fin d, 0 ≤ nghost (ax a)) (h1 : ∀ a : Fin d, nghost (ax a) < ext (ax a))
    (h2 : ∀ a : Fin d, 2 * nghost (ax a) ≤ ext (ax a))
    (hb : ∀ a f, bcs a f ≠ .userDefined) (l : List ℕ) (hl : ∀ id ∈ l, id < 2 * d) (val : Cell → Fields d n K) :
    bcLoop user sched bcs isBorder ext nghost (l.map some) ⟨inExt ext, val⟩ =
      some ⟨inExt ext, l.foldl (bcPure bcs isBorder ext nghost) val⟩ := by
  induction l generalizing val with
  | nil => rfl
  | cons id l ih =>
    obtain ⟨a, f, rfl⟩ := faceId_surj (hl id (by simp))
    rw [List.map_cons, bcLoop_cons, List.foldl_cons, bcPure_faceId]
    have ih' := ih (fun id h => hl id (by simp [h]))
    by_cases hbo : isBorder (ax a) f = true
    · rw [if_pos hbo, if_pos hbo]
      have : bcExecute user sched (bcs a f) ext nghost a f ⟨inExt ext, val⟩ =
          some ⟨inExt ext, condPure (bcs a f) ext (nghost (ax a)) a f val⟩ := by
        have hbk := hb a f
        unfold bcExecute
        cases hk : bcs a f with
        | nullGradient => exact nullGradient_eq (h0 a) (h1 a) (hs _ _) val
        | periodic =>
          simp only [Option.some.injEq]
          refine View.ext' rfl (funext fun c => ?_)
          simp [condPure]
        | reflexive => exact reflexive_eq (h0 a) (h2 a) (hs _ _) val
        | userDefined => exact absurd hk hbk
      rw [this, Option.bind_some, ih']
    · rw [if_neg hbo, if_neg hbo, Option.bind_some, ih']

/-- Source cell of a condition. -/
def condSrc (kind : BcKind) (ext : Cell) (ng : ℤ) (a : Fin 3) (f : Fin 2) (c : Cell) : Cell :=
  match kind with
  | .nullGradient => nearest ext ng a f c
  | .reflexive => mirror ext ng a f c
  | _ => c

/-- Transformation of the value by a condition. -/
def condAct [Neg K] (kind : BcKind) (a : Fin d) (s : Fields d n K) : Fields d n K :=
  match kind with
  | .reflexive => s.flip a
  | _ => s

theorem condPure_eq [Neg K] (kind : BcKind) (ext : Cell) (ng : ℤ) (a : Fin d) (f : Fin 2)
    (val : Cell → Fields d n K) (c : Cell) :
    condPure kind ext ng a f val c =
      if inExt ext c = true ∧ InGhostLayer ext ng (ax a) f c then
        condAct kind a (val (condSrc kind ext ng (ax a) f c)) else val c := by
  unfold condPure condAct condSrc
  cases kind <;> rfl

theorem condSrc_other {kind : BcKind} {ext : Cell} {ng : ℤ} {a b : Fin 3} {f : Fin 2} {c : Cell} (h : b ≠ a) :
    condSrc kind ext ng a f c b = c b := by
  cases kind <;> simp [condSrc, nearest, mirror, h]

theorem condSrc_inside {kind : BcKind} {ext : Cell} {ng : ℤ} {a : Fin 3} {f : Fin 2} {c : Cell}
    (h0 : 0 ≤ ng) (h1 : 2 * ng < ext a) (h2 : 3 * ng ≤ ext a) (hc : inExt ext c = true) (hl : InGhostLayer ext ng a f c) :
    inExt ext (condSrc kind ext ng a f c) = true ∧
      (condSrc kind ext ng a f c = c ∧ (∀ (d n : ℕ) (K : Type) [Neg K] (b : Fin d) (s : Fields d n K), condAct kind b s = s) ∨
        ng ≤ condSrc kind ext ng a f c a ∧ condSrc kind ext ng a f c a < ext a - ng) := by
  have hca := (inExt_iff.1 hc) a
  cases kind with
  | nullGradient =>
    have hi : ng ≤ interiorLayer ext ng a f 1 ∧ interiorLayer ext ng a f 1 < ext a - ng := by
      rcases face_cases f with rfl | rfl <;> simp [interiorLayer] <;> omega
    exact ⟨inExt_update hc (by omega) (by omega), Or.inr (by simpa [condSrc, nearest] using hi)⟩
  | reflexive =>
    have hi : ng ≤ interiorLayer ext ng a f (ghostDepth ext ng a f c) ∧
        interiorLayer ext ng a f (ghostDepth ext ng a f c) < ext a - ng := by
      rcases face_cases f with rfl | rfl <;> simp [interiorLayer, ghostDepth, InGhostLayer] at hl ⊢ <;> omega
    exact ⟨inExt_update hc (by omega) (by omega), Or.inr (by simpa [condSrc, mirror] using hi)⟩
  | periodic => exact ⟨hc, Or.inl ⟨rfl, fun _ _ _ _ _ _ => rfl⟩⟩
  | userDefined => exact ⟨hc, Or.inl ⟨rfl, fun _ _ _ _ _ _ => rfl⟩⟩

theorem flip_comm [Neg K] {a b : Fin d} (h : a ≠ b) (s : Fields d n K) : (s.flip a).flip b = (s.flip b).flip a := by
  unfold Fields.flip
  simp only [Fields.mk.injEq, true_and, and_true]
  rw [Function.update_of_ne h.symm, Function.update_of_ne h, Function.update_comm h]

theorem condAct_comm [Neg K] {k k' : BcKind} {a b : Fin d} (h : a ≠ b) (s : Fields d n K) :
    condAct k a (condAct k' b s) = condAct k' b (condAct k a s) := by
  cases k <;> cases k' <;> first | rfl | exact flip_comm h.symm s

theorem condSrc_comm {k k' : BcKind} {ext : Cell} {ng ng' : ℤ} {a b : Fin 3} {f g : Fin 2} {c : Cell} (h : a ≠ b) :
    condSrc k ext ng a f (condSrc k' ext ng' b g c) = condSrc k' ext ng' b g (condSrc k ext ng a f c) := by
  cases k <;> cases k' <;>
    simp [condSrc, nearest, mirror, interiorLayer, ghostDepth, Function.update_comm h, Function.update_of_ne h,
      Function.update_of_ne h.symm]

/-- Two built-in conditions commute. -/
theorem condPure_comm [Neg K] (hd3 : d ≤ 3) {k k' : BcKind} {ext : Cell} {ng ng' : ℤ} {a b : Fin d} {f g : Fin 2}
    (h0 : 0 ≤ ng) (h0' : 0 ≤ ng') (h1 : 2 * ng < ext (ax a)) (h2 : 3 * ng ≤ ext (ax a))
    (h1' : 2 * ng' < ext (ax b)) (h2' : 3 * ng' ≤ ext (ax b))
    (hne : a ≠ b ∨ (a = b ∧ f ≠ g ∧ ng = ng')) (val : Cell → Fields d n K) :
    condPure k ext ng a f (condPure k' ext ng' b g val) = condPure k' ext ng' b g (condPure k ext ng a f val) := by
  funext c
  simp only [condPure_eq]
  by_cases hc : inExt ext c = true
  · by_cases ha : InGhostLayer ext ng (ax a) f c
    · by_cases hb : InGhostLayer ext ng' (ax b) g c
      · -- both layers: directions differ
        have hab : a ≠ b := by
          rcases hne with h | ⟨rfl, hfg, rfl⟩
          · exact h
          · exfalso
            rcases face_cases f with rfl | rfl <;> rcases face_cases g with rfl | rfl <;>
              simp [InGhostLayer] at ha hb hfg <;> omega
        have hab' : ax a ≠ ax b := fun h => hab (ax_injective hd3 h)
        obtain ⟨sa, _⟩ := condSrc_inside (kind := k) h0 h1 h2 hc ha
        obtain ⟨sb, _⟩ := condSrc_inside (kind := k') h0' h1' h2' hc hb
        have la : InGhostLayer ext ng' (ax b) g (condSrc k ext ng (ax a) f c) := by
          unfold InGhostLayer at hb ⊢; rwa [condSrc_other hab'.symm]
        have lb : InGhostLayer ext ng (ax a) f (condSrc k' ext ng' (ax b) g c) := by
          unfold InGhostLayer at ha ⊢; rwa [condSrc_other hab']
        rw [if_pos ⟨hc, ha⟩, if_pos ⟨sa, la⟩, if_pos ⟨hc, hb⟩, if_pos ⟨sb, lb⟩, condAct_comm hab, condSrc_comm hab'.symm]
      · obtain ⟨sa, hs⟩ := condSrc_inside (kind := k) h0 h1 h2 hc ha
        have la : ¬ InGhostLayer ext ng' (ax b) g (condSrc k ext ng (ax a) f c) := by
          rcases hne with h | ⟨rfl, hfg, rfl⟩
          · have hab' : ax a ≠ ax b := fun e => h (ax_injective hd3 e)
            unfold InGhostLayer at hb ⊢; rwa [condSrc_other hab'.symm]
          · rcases hs with ⟨he, _⟩ | hs
            · rw [he]; exact hb
            · rintro (⟨_, h⟩ | ⟨_, h⟩) <;> omega
        rw [if_pos ⟨hc, ha⟩, if_neg (fun h => la h.2), if_neg (fun h => hb h.2), if_pos ⟨hc, ha⟩]
    · by_cases hb : InGhostLayer ext ng' (ax b) g c
      · obtain ⟨sb, hs⟩ := condSrc_inside (kind := k') h0' h1' h2' hc hb
        have lb : ¬ InGhostLayer ext ng (ax a) f (condSrc k' ext ng' (ax b) g c) := by
          rcases hne with h | ⟨rfl, hfg, rfl⟩
          · have hab' : ax a ≠ ax b := fun e => h (ax_injective hd3 e)
            unfold InGhostLayer at ha ⊢; rwa [condSrc_other hab']
          · rcases hs with ⟨he, _⟩ | hs
            · rw [he]; exact ha
            · rintro (⟨_, h⟩ | ⟨_, h⟩) <;> omega
        rw [if_neg (fun h => ha h.2), if_pos ⟨hc, hb⟩, if_pos ⟨hc, hb⟩, if_neg (fun h => lb h.2)]
      · rw [if_neg (fun h => ha h.2), if_neg (fun h => hb h.2), if_neg (fun h => hb h.2), if_neg (fun h => ha h.2)]
  · rw [if_neg (fun h => hc h.1), if_neg (fun h => hc h.1), if_neg (fun h => hc h.1), if_neg (fun h => hc h.1)]

theorem bcPure_comm [Neg K] (hd3 : d ≤ 3) {bcs : Fin d → Fin 2 → BcKind} {isBorder : Fin 3 → Fin 2 → Bool}
    {ext nghost : Cell} {a b : Fin d} {f g : Fin 2} (h0 : 0 ≤ nghost (ax a)) (h0' : 0 ≤ nghost (ax b))
    (h1 : 2 * nghost (ax a) < ext (ax a)) (h2 : 3 * nghost (ax a) ≤ ext (ax a))
    (h1' : 2 * nghost (ax b) < ext (ax b)) (h2' : 3 * nghost (ax b) ≤ ext (ax b)) (val : Cell → Fields d n K) :
    bcPure bcs isBorder ext nghost (bcPure bcs isBorder ext nghost val (faceId a f)) (faceId b g) =
      bcPure bcs isBorder ext nghost (bcPure bcs isBorder ext nghost val (faceId b g)) (faceId a f) := by
  simp only [bcPure_faceId]
  by_cases hfg : a = b ∧ f = g
  · obtain ⟨rfl, rfl⟩ := hfg; rfl
  · have hne : a ≠ b ∨ (a = b ∧ f ≠ g ∧ nghost (ax a) = nghost (ax b)) := by
      by_cases h : a = b
      · subst h; exact Or.inr ⟨rfl, fun e => hfg ⟨rfl, e⟩, rfl⟩
      · exact Or.inl h
    split_ifs
    · exact (condPure_comm hd3 h0 h0' h1 h2 h1' h2' hne val).symm
    · rfl
    · rfl
    · rfl

end Pure

end Heracles
