import Verif.Lemmas.Boundary
import Verif.Props.Ghost

/-!
# Properties of the boundary conditions (C06, C07, C10, C11)
-/

namespace Heracles

variable {d n : ℕ} {K : Type}

/-! ## C06 -/

/-- C06: the null-gradient condition sets every ghost cell of the face to the value (of all fields) of
the non-ghost layer next to the face and changes nothing else, in any iteration order. -/
theorem C06_null_gradient (ext : Cell) (ng : ℤ) (a : Fin d) (face : Fin 2) (l : List Cell)
    (h0 : 0 ≤ ng) (h1 : ng < ext (ax a))
    (hl : IsSchedule l (slabBegin ext ng (ax a) face) (slabEnd ext ng (ax a) face))
    (val : Cell → Fields d n K) :
    ∃ v', nullGradient ext ng a face l ⟨inExt ext, val⟩ = some v' ∧ v'.dom = inExt ext ∧
      ∀ c, inExt ext c = true →
        (face = 0 → c (ax a) < ng → v'.val c = val (Function.update c (ax a) ng)) ∧
        (face = 1 → ext (ax a) - ng ≤ c (ax a) → v'.val c = val (Function.update c (ax a) (ext (ax a) - ng - 1))) ∧
        (¬ InGhostLayer ext ng (ax a) face c → v'.val c = val c) := by
  refine ⟨_, nullGradient_eq h0 h1 hl val, rfl, fun c hc => ⟨?_, ?_, ?_⟩⟩
  · rintro rfl h
    have : InGhostLayer ext ng (ax a) 0 c := Or.inl ⟨rfl, h⟩
    simp [hc, this, nearest, interiorLayer]
  · rintro rfl h
    have : InGhostLayer ext ng (ax a) 1 c := Or.inr ⟨rfl, h⟩
    simp [hc, this, nearest, interiorLayer]
  · intro h
    simp [h]

/-- C06: the iteration order is irrelevant. -/
theorem C06_order_independent (ext : Cell) (ng : ℤ) (a : Fin d) (face : Fin 2) (l l' : List Cell)
    (h0 : 0 ≤ ng) (h1 : ng < ext (ax a))
    (hl : IsSchedule l (slabBegin ext ng (ax a) face) (slabEnd ext ng (ax a) face))
    (hl' : IsSchedule l' (slabBegin ext ng (ax a) face) (slabEnd ext ng (ax a) face))
    (val : Cell → Fields d n K) :
    nullGradient ext ng a face l ⟨inExt ext, val⟩ = nullGradient ext ng a face l' ⟨inExt ext, val⟩ := by
  rw [nullGradient_eq h0 h1 hl, nullGradient_eq h0 h1 hl']

/-- C06, without any cell beyond the ghosts of the face the kernel reads out of bounds. -/
theorem C06_no_interior_out_of_bounds (ext : Cell) (ng : ℤ) (a : Fin d) (face : Fin 2) (c : Cell) (l : List Cell)
    (h1 : ext (ax a) = ng) (v : View Cell (Fields d n K)) (hv : v.dom = inExt ext) :
    nullGradient ext ng a face (c :: l) v = none := by
  unfold nullGradient
  rw [parFor_cons, nullOffset_eq]
  have : inExt ext (Function.update c (ax a) (interiorLayer ext ng (ax a) face 1)) = false := by
    rw [Bool.eq_false_iff, Ne, inExt_iff]
    intro h
    have := h (ax a)
    rcases face_cases face with rfl | rfl <;> simp [interiorLayer] at this <;> omega
  simp [View.rd_eq_none (v := v) (by rw [hv]; exact this)]

/-- A 2D array of 7 x 6 cells with 2 ghosts: hypotheses of C06 and C07 hold and the kernel copies. -/
example : ∃ v', nullGradient (d := 2) (n := 0) ![7, 6, 1] 2 1 1
      (boxList (slabBegin ![7, 6, 1] 2 1 1) (slabEnd ![7, 6, 1] 2 1 1))
      ⟨inExt ![7, 6, 1], fun c => ⟨c 1, fun _ => c 0, 0, fun _ => 0⟩⟩ = some v' ∧
      (v'.val ![3, 5, 0]).rho = 3 := by
  obtain ⟨v', h1, _, h3⟩ := C06_null_gradient (d := 2) (n := 0) (K := ℤ) ![7, 6, 1] 2 1 1
    (boxList (slabBegin ![7, 6, 1] 2 1 1) (slabEnd ![7, 6, 1] 2 1 1)) (by decide) (by decide)
    (boxList_isSchedule _ _) (fun c => ⟨c 1, fun _ => c 0, 0, fun _ => 0⟩)
  refine ⟨v', h1, ?_⟩
  rw [(h3 ![3, 5, 0] (by decide)).2.1 rfl (by decide)]
  decide

/-! ## C07 -/

/-- C07: the reflexive condition sets the ghost cell at depth `m` behind the face to the interior cell at
depth `m` in front of it, with the momentum normal to the face negated; every other cell is unchanged.
Depth 1 is the layer that touches the face. -/
theorem C07_reflexive [Neg K] (ext : Cell) (ng : ℤ) (a : Fin d) (face : Fin 2) (l : List Cell)
    (h0 : 0 ≤ ng) (h1 : 2 * ng ≤ ext (ax a))
    (hl : IsSchedule l (slabBegin ext ng (ax a) face) (slabEnd ext ng (ax a) face))
    (val : Cell → Fields d n K) :
    ∃ v', reflexive ext ng a face l ⟨inExt ext, val⟩ = some v' ∧ v'.dom = inExt ext ∧
      (∀ c m, inExt ext c = true → 1 ≤ m → m ≤ ng →
        c (ax a) = (if face = 0 then ng - m else ext (ax a) - ng + m - 1) →
        let s := val (Function.update c (ax a) (if face = 0 then ng + m - 1 else ext (ax a) - ng - m))
        (v'.val c).rho = s.rho ∧ (v'.val c).E = s.E ∧ (v'.val c).fx = s.fx ∧
        (v'.val c).rhou a = -(s.rhou a) ∧ ∀ b, b ≠ a → (v'.val c).rhou b = s.rhou b) ∧
      (∀ c, inExt ext c = true → ¬ InGhostLayer ext ng (ax a) face c → v'.val c = val c) := by
  refine ⟨_, reflexive_eq h0 h1 hl val, rfl, fun c m hc hm1 hm2 hcm => ?_, fun c _ h => by simp [h]⟩
  have hlay : InGhostLayer ext ng (ax a) face c := by
    rcases face_cases face with rfl | rfl
    · left; simp at hcm; exact ⟨rfl, by omega⟩
    · right; simp at hcm; exact ⟨rfl, by omega⟩
  have hsrc : mirror ext ng (ax a) face c =
      Function.update c (ax a) (if face = 0 then ng + m - 1 else ext (ax a) - ng - m) := by
    unfold mirror
    congr 1
    rcases face_cases face with rfl | rfl <;> simp at hcm <;> simp [interiorLayer, ghostDepth] <;> omega
  simp only [hc, hlay, and_self, if_true, hsrc, Fields.flip, Function.update_self, true_and]
  exact fun b hb => Function.update_of_ne hb _ _

/-- C07: every cell read by the kernel is an interior cell as soon as the array holds at least `ng`
cells between its two ghost layers. -/
theorem C07_reads_interior (ext : Cell) (ng : ℤ) (a : Fin 3) (face : Fin 2)
    (h1 : 3 * ng ≤ ext a) (c : Cell) (hc : inExt ext c = true) (hl : InGhostLayer ext ng a face c) :
    ng ≤ mirrorSum ext ng a face - c a ∧ mirrorSum ext ng a face - c a < ext a - ng := by
  have := (inExt_iff.1 hc) a
  rcases face_cases face with rfl | rfl <;> simp [InGhostLayer, mirrorSum] at hl ⊢ <;> omega

/-- C07: the iteration order is irrelevant. -/
theorem C07_order_independent [Neg K] (ext : Cell) (ng : ℤ) (a : Fin d) (face : Fin 2) (l l' : List Cell)
    (h0 : 0 ≤ ng) (h1 : 2 * ng ≤ ext (ax a))
    (hl : IsSchedule l (slabBegin ext ng (ax a) face) (slabEnd ext ng (ax a) face))
    (hl' : IsSchedule l' (slabBegin ext ng (ax a) face) (slabEnd ext ng (ax a) face))
    (val : Cell → Fields d n K) :
    reflexive ext ng a face l ⟨inExt ext, val⟩ = reflexive ext ng a face l' ⟨inExt ext, val⟩ := by
  rw [reflexive_eq h0 h1 hl, reflexive_eq h0 h1 hl']

example : ∃ v', reflexive (d := 2) (n := 0) ![7, 6, 1] 2 0 0
      (boxList (slabBegin ![7, 6, 1] 2 0 0) (slabEnd ![7, 6, 1] 2 0 0))
      ⟨inExt ![7, 6, 1], fun c => ⟨c 0, ![c 0, c 1], 0, fun _ => 0⟩⟩ = some v' ∧
      (v'.val ![0, 4, 0]).rho = 3 ∧ (v'.val ![0, 4, 0]).rhou 0 = -3 ∧ (v'.val ![0, 4, 0]).rhou 1 = 4 := by
  obtain ⟨v', h1, _, h3, _⟩ := C07_reflexive (d := 2) (n := 0) (K := ℤ) ![7, 6, 1] 2 0 0
    (boxList (slabBegin ![7, 6, 1] 2 0 0) (slabEnd ![7, 6, 1] 2 0 0)) (by decide) (by decide)
    (boxList_isSchedule _ _) (fun c => ⟨c 0, ![c 0, c 1], 0, fun _ => 0⟩)
  obtain ⟨e1, _, _, e4, e5⟩ := h3 ![0, 4, 0] 2 (by decide) (by decide) (by decide) (by decide)
  refine ⟨v', h1, ?_, ?_, ?_⟩
  · rw [e1]; decide
  · rw [e4]; decide
  · rw [e5 1 (by decide)]; decide

/-! ## C11 -/

section C11
variable [Neg K] (user : UserBc d n K) (sched : Cell → Cell → List Cell)
  (bcs : Fin d → Fin 2 → BcKind) (nx dims : Cell) (ng : ℤ)

/-- The border flags of a rank (C02). -/
def borderOf (dims rank : Cell) : Fin 3 → Fin 2 → Bool := fun a f =>
  if f = 0 then decide (rank a = 0) else decide (rank a = dims a - 1)

/-- C11 (main statement).  `perm` is any order of the `2 * d` faces. After the full boundary update from
a distributed field whose interior is the global field `G`:
* interior cells are unchanged,
* cells that are in no ghost layer of a border face hold the periodic image of `G` (values of the
  neighbouring ranks),
* a cell in the ghost layers of exactly one border face gets the condition of that face, applied to the
  exchanged field. -/
theorem C11_full_update (hd3 : d ≤ 3) (hs : ∀ b e, IsSchedule (sched b e) b e)
    (hng : 0 ≤ ng) (hN : ∀ a, 0 ≤ nx a) (hd : ∀ a, 0 < dims a)
    (hsz : ∀ a : Fin 3, a.val < d → ∀ r, 0 ≤ r → r < dims a →
      ng ≤ localSize (nx a) (dims a) r ∧ 1 ≤ localSize (nx a) (dims a) r)
    (perm : List ℕ) (hperm : perm.Perm (List.range (2 * d)))
    (G : Cell → Fields d n K) (D : DistView (Fields d n K))
    (hext : ∀ rank, inBox 0 dims rank → D.ext rank = localExt nx dims (nghostOf d ng) rank)
    (hint : ∀ rank, inBox 0 dims rank → ∀ c,
      inBox (nghostOf d ng) (fun a => D.ext rank a - nghostOf d ng a) c →
      D.val rank c = G (globalOf nx dims (nghostOf d ng) rank c))
    (rank : Cell) (hr : inBox 0 dims rank)
    (hu : ∀ a f, bcs a f = .userDefined → UserOk user (D.ext rank) (nghostOf d ng) a f) :
    let W := fun c => G (wrap nx (globalOf nx dims (nghostOf d ng) rank c))
    let ext := D.ext rank
    let Border := fun (a : Fin d) (f : Fin 2) (c : Cell) =>
      borderOf dims rank (ax a) f = true ∧ InGhostLayer ext ng (ax a) f c
    ∃ v', bcUpdate user sched bcs (borderOf dims) (nghostOf d ng) dims (perm.map some) D rank = some v' ∧
      v'.dom = inExt ext ∧
      (∀ c, inBox (nghostOf d ng) (fun a => ext a - nghostOf d ng a) c → v'.val c = D.val rank c) ∧
      (∀ c, inExt ext c = true → (∀ a f, ¬ Border a f c) → v'.val c = W c) ∧
      (∀ c a f, inExt ext c = true → Border a f c → (∀ b g, Border b g c → b = a ∧ g = f) →
        (bcs a f = .nullGradient → v'.val c = W (nearest ext ng (ax a) f c)) ∧
        (bcs a f = .reflexive → v'.val c = (W (mirror ext ng (ax a) f c)).flip a) ∧
        (bcs a f = .periodic → v'.val c = W c)) := by
  intro W ext Border
  have hnga : ∀ a : Fin d, nghostOf d ng (ax a) = ng := fun a => by
    simp [nghostOf, ax_val hd3]
  obtain ⟨S, hS, hSext, hSval⟩ := C04_halo_is_periodic_image d nx dims ng hng hN hd
    (fun a ha r h0 h1 => (hsz a ha r h0 h1).1) G D hext hint
  have hE : S.ext rank = ext := by rw [hSext]
  have hsize : ∀ a : Fin d, ext (ax a) = localSize (nx (ax a)) (dims (ax a)) (rank (ax a)) + 2 * ng := by
    intro a
    change D.ext rank (ax a) = _
    rw [hext rank hr]
    simp [localExt, hnga]
  have hszr := fun a : Fin d => hsz (ax a) (by rw [ax_val hd3]; exact a.isLt) (rank (ax a)) (hr (ax a)).1 (hr (ax a)).2
  have g0 : ∀ a : Fin d, 0 ≤ nghostOf d ng (ax a) := fun a => by rw [hnga]; exact hng
  have g1 : ∀ a : Fin d, nghostOf d ng (ax a) < ext (ax a) := fun a => by
    rw [hnga, hsize]; have := (hszr a).2; omega
  have g2 : ∀ a : Fin d, 2 * nghostOf d ng (ax a) ≤ ext (ax a) := fun a => by
    rw [hnga, hsize]; have := (hszr a).2; omega
  have hlt : ∀ id ∈ perm, id < 2 * d := fun id h => by simpa using (hperm.mem_iff).1 h
  have hmem : ∀ (a : Fin d) (f : Fin 2), faceId a f ∈ perm := fun a f =>
    (hperm.mem_iff).2 (by simpa using faceId_lt a f)
  have hit_iff : ∀ l c, Hit (borderOf dims rank) ext (nghostOf d ng) d l c ↔
      ∃ a f, faceId a f ∈ l ∧ Border a f c := by
    intro l c
    unfold Hit
    simp only [hnga]
    rfl
  have hrun : ∀ val', bcLoop user sched bcs (borderOf dims rank) ext (nghostOf d ng) (perm.map some)
      ⟨inExt ext, S.val rank⟩ = some ⟨inExt ext, val'⟩ →
      bcUpdate user sched bcs (borderOf dims) (nghostOf d ng) dims (perm.map some) D rank
        = some ⟨inExt ext, val'⟩ := by
    intro val' h
    unfold bcUpdate
    rw [hS]
    simp only [Option.bind_eq_bind, Option.bind_some, hE, h]
  obtain ⟨val', e1, e2⟩ := bcLoop_spec (isBorder := borderOf dims rank) hs g0 g1 g2 hu perm hlt (S.val rank)
  have hW : ∀ c, inExt ext c = true → S.val rank c = W c := fun c hc => hSval rank hr c hc
  have hout : ∀ c, inExt ext c = true → (∀ a f, ¬ Border a f c) → val' c = W c := by
    intro c hc hb
    rw [e2 c, hW c hc]
    rintro ⟨_, h⟩
    obtain ⟨a, f, _, h⟩ := (hit_iff _ _).1 h
    exact hb a f h
  refine ⟨⟨inExt ext, val'⟩, hrun val' e1, rfl, ?_, hout, ?_⟩
  · intro c hc
    have hcin : inExt ext c = true := by
      rw [inExt_iff]
      intro b
      have h1 := hc b
      have h2 := nghostOf_nonneg (ndim := d) hng b
      simp only at h1
      omega
    have hno : ∀ a f, ¬ Border a f c := by
      rintro a f ⟨_, h⟩
      have h1 := hc (ax a)
      simp only [hnga] at h1
      rcases h with ⟨_, h⟩ | ⟨_, h⟩ <;> omega
    obtain ⟨S', hS', _, hkeep⟩ := C05_interior_unchanged d nx dims ng hng hN hd D hext
    rw [hS] at hS'
    cases hS'
    change val' c = _
    rw [hout c hcin hno, ← hW c hcin, hkeep rank c hc]
  · intro c a f hc hB huniq
    obtain ⟨l, l', hsplit⟩ := List.append_of_mem (hmem a f)
    have hnd : perm.Nodup := hperm.nodup_iff.2 List.nodup_range
    rw [hsplit] at hnd
    have hnl : faceId a f ∉ l := fun h => (List.disjoint_of_nodup_append hnd) h (by simp)
    have hnl' : faceId a f ∉ l' := fun h => by
      have := (List.nodup_append.1 hnd).2.1
      rw [List.nodup_cons] at this
      exact this.1 h
    obtain ⟨val₁, val₂, k1, k2, k3, k4⟩ := bcLoop_last (isBorder := borderOf dims rank) hs g0 g1 g2 hu l l' a f
      (by rw [← hsplit]; exact hlt) hB.1 (S.val rank)
    rw [← hsplit, e1] at k2
    have hval : val' = val₂ := by
      have := congrArg View.val (Option.some.inj k2)
      simpa using this
    have hn' : ¬ Hit (borderOf dims rank) ext (nghostOf d ng) d l' c := by
      rw [hit_iff]
      rintro ⟨b, g, h, hb⟩
      obtain ⟨rfl, rfl⟩ := huniq b g hb
      exact hnl' h
    obtain ⟨r1, r2, r3⟩ := k4 c hc (by rw [hnga]; exact hB.2) hn'
    -- values of the source cells before the condition of this face is run
    have hsrc : ∀ x, inExt ext x = true → (∀ b, b ≠ ax a → x b = c b) →
        (ng ≤ x (ax a) ∧ x (ax a) < ext (ax a) - ng) ∨ x = c → val₁ x = W x := by
      intro x hx hxc hxa
      rw [k3 x, hW x hx]
      rintro ⟨_, h⟩
      obtain ⟨b, g, hm, hb1, hb2⟩ := (hit_iff _ _).1 h
      rcases hxa with hxa | rfl
      · by_cases hba : b = a
        · subst hba
          rcases hb2 with ⟨_, h⟩ | ⟨_, h⟩ <;> omega
        · have hne : ax b ≠ ax a := fun h => hba (ax_injective hd3 h)
          have : Border b g c := ⟨hb1, by
            unfold InGhostLayer at hb2 ⊢
            rwa [hxc _ hne] at hb2⟩
          exact hba (huniq b g this).1
      · obtain ⟨rfl, rfl⟩ := huniq b g ⟨hb1, hb2⟩
        exact hnl hm
    have hca := (inExt_iff.1 hc) (ax a)
    have hext' := hsize a
    obtain ⟨hs1, hs2⟩ := hszr a
    have hlay := hB.2
    change (_ → val' c = _) ∧ (_ → val' c = _) ∧ (_ → val' c = _)
    rw [hval]
    simp only [hnga] at r1 r2
    refine ⟨fun hk => ?_, fun hk => ?_, fun hk => ?_⟩
    · rw [r1 hk]
      have hi : ng ≤ interiorLayer ext ng (ax a) f 1 ∧ interiorLayer ext ng (ax a) f 1 < ext (ax a) - ng := by
        rcases face_cases f with rfl | rfl <;> simp [interiorLayer] <;> omega
      exact hsrc _ (inExt_update hc (by omega) (by omega))
        (fun b hb => Function.update_of_ne hb _ _) (Or.inl (by simpa [nearest] using hi))
    · rw [r2 hk]
      have hi : ng ≤ interiorLayer ext ng (ax a) f (ghostDepth ext ng (ax a) f c) ∧
          interiorLayer ext ng (ax a) f (ghostDepth ext ng (ax a) f c) < ext (ax a) - ng := by
        rcases face_cases f with rfl | rfl <;>
          simp [interiorLayer, ghostDepth, InGhostLayer] at hlay ⊢ <;> omega
      congr 1
      exact hsrc (mirror ext ng (ax a) f c) (inExt_update hc (by omega) (by omega))
        (fun b hb => Function.update_of_ne hb _ _) (Or.inl (by simpa [mirror] using hi))
    · rw [r3 hk]
      exact hsrc c hc (fun _ _ => rfl) (Or.inr rfl)

/-- C11, edges and corners: among the border faces whose ghost layers contain a cell, the one executed
last decides the value, computed from what the previous conditions left. -/
theorem C11_last_executed_face_wins (hs : ∀ b e, IsSchedule (sched b e) b e)
    (isBorder : Fin 3 → Fin 2 → Bool) (ext nghost : Cell)
    (h0 : ∀ a : Fin d, 0 ≤ nghost (ax a)) (h1 : ∀ a : Fin d, nghost (ax a) < ext (ax a))
    (h2 : ∀ a : Fin d, 2 * nghost (ax a) ≤ ext (ax a))
    (hu : ∀ a f, bcs a f = .userDefined → UserOk user ext nghost a f)
    (before after : List ℕ) (a : Fin d) (f : Fin 2)
    (hl : ∀ id ∈ before ++ faceId a f :: after, id < 2 * d)
    (hb : isBorder (ax a) f = true) (val : Cell → Fields d n K) (c : Cell) (hc : inExt ext c = true)
    (hlay : InGhostLayer ext (nghost (ax a)) (ax a) f c)
    (hafter : ∀ (b : Fin d) (g : Fin 2), faceId b g ∈ after → isBorder (ax b) g = true →
      ¬ InGhostLayer ext (nghost (ax b)) (ax b) g c) :
    ∃ v₁ v', bcLoop user sched bcs isBorder ext nghost (before.map some) ⟨inExt ext, val⟩ = some v₁ ∧
      bcLoop user sched bcs isBorder ext nghost ((before ++ faceId a f :: after).map some) ⟨inExt ext, val⟩
        = some v' ∧
      (bcs a f = .nullGradient → v'.val c = v₁.val (nearest ext (nghost (ax a)) (ax a) f c)) ∧
      (bcs a f = .reflexive → v'.val c = (v₁.val (mirror ext (nghost (ax a)) (ax a) f c)).flip a) ∧
      (bcs a f = .periodic → v'.val c = v₁.val c) := by
  obtain ⟨val₁, val₂, k1, k2, _, k4⟩ := bcLoop_last (isBorder := isBorder) hs h0 h1 h2 hu before after a f hl hb val
  refine ⟨_, _, k1, k2, k4 c hc hlay ?_⟩
  rintro ⟨b, g, hm, hb1, hb2⟩
  exact hafter b g hm hb1 hb2

end C11

/-- C11 is not vacuous: a 1D field of 6 cells on 2 ranks with 2 ghosts, wall on the left, null gradient
on the right. Rank 0 mirrors its left ghosts and takes its right ghosts from rank 1. -/
example : ∃ v', bcUpdate (d := 1) (n := 0) (fun _ _ v => some v) boxList
      (fun _ f => if f = 0 then .reflexive else .nullGradient) (borderOf ![2, 1, 1]) (nghostOf 1 2) ![2, 1, 1]
      ([0, 1].map some)
      (scatter ![6, 1, 1] ![2, 1, 1] (nghostOf 1 2) (fun c => (⟨c 0, fun _ => c 0, 0, fun _ => 0⟩ : Fields 1 0 ℤ))
        ⟨-9, fun _ => -9, -9, fun _ => -9⟩) ![0, 0, 0] = some v' ∧
      (v'.val ![0, 0, 0]).rho = 1 ∧ (v'.val ![0, 0, 0]).rhou 0 = -1 ∧ (v'.val ![6, 0, 0]).rho = 4 := by
  obtain ⟨v', h1, _, _, h4, h5⟩ := C11_full_update (d := 1) (n := 0) (K := ℤ) (fun _ _ v => some v) boxList
    (fun _ f => if f = 0 then .reflexive else .nullGradient) ![6, 1, 1] ![2, 1, 1] 2 (by decide)
    boxList_isSchedule (by decide) (by decide) (by decide)
    (by
      intro a ha r h0 h1
      obtain rfl : a = 0 := Fin.ext (by simpa using ha)
      rw [localSize_eq (by decide) (by decide)]
      simp only [Matrix.cons_val_zero]
      have : ¬ r < 0 := by omega
      simp [this])
    [0, 1] (by decide) (fun c => (⟨c 0, fun _ => c 0, 0, fun _ => 0⟩ : Fields 1 0 ℤ))
    (scatter ![6, 1, 1] ![2, 1, 1] (nghostOf 1 2) (fun c => (⟨c 0, fun _ => c 0, 0, fun _ => 0⟩ : Fields 1 0 ℤ))
      ⟨-9, fun _ => -9, -9, fun _ => -9⟩) (fun _ _ => rfl)
    (fun rank _ c hc => by simp only [scatter] at hc ⊢; rw [if_pos hc]) ![0, 0, 0] (by decide)
    (by intro a f h; split at h <;> simp at h)
  refine ⟨v', h1, ?_, ?_, ?_⟩
  · rw [(h5 ![0, 0, 0] 0 0 (by decide) (by decide) (by decide)).2.1 rfl]; decide
  · rw [(h5 ![0, 0, 0] 0 0 (by decide) (by decide) (by decide)).2.1 rfl]; decide
  · rw [h4 ![6, 0, 0] (by decide) (by decide)]; decide

/-! ## C10 -/

/-- Specification: the configured boundary kind of a face; `get` looks up a key of the section. -/
def resolvedChoice (get : String → Option String) (dirKey faceKey : String) : String :=
  match get faceKey, get dirKey, get "BC" with
  | some s, _, _ => s
  | none, some s, _ => s
  | none, none, some s => s
  | none, none, none => ""

/-- C10: the choice of a face is the face entry, otherwise the direction entry, otherwise the global
entry; an empty choice is an error. -/
theorem C10_fallback (get : String → Option String) (a : Fin 3) (f : Fin 2) :
    let dirKey := (["BC_X0", "BC_X1", "BC_X2"] : List String).getD a.val ""
    let faceKey := dirKey ++ (["_left", "_right"] : List String).getD f.val ""
    (resolvedChoice get dirKey faceKey ≠ "" → bcChoice get a f = .ok (resolvedChoice get dirKey faceKey)) ∧
    (resolvedChoice get dirKey faceKey = "" → ∃ msg, bcChoice get a f = .error msg) := by
  intro dirKey faceKey
  have hdir : "BC" ++ bcDirName a = dirKey := by
    fin_cases a <;> rfl
  have hface : "BC" ++ bcDirName a ++ bcFaceName f = faceKey := by
    rw [hdir]; rfl
  have hres : iniGet get ("BC" ++ bcDirName a ++ bcFaceName f) (iniGet get ("BC" ++ bcDirName a) (iniGet get "BC" ""))
      = resolvedChoice get dirKey faceKey := by
    rw [hface, hdir]
    unfold iniGet resolvedChoice
    cases get faceKey <;> cases get dirKey <;> cases get "BC" <;> rfl
  unfold bcChoice
  simp only [hres]
  constructor
  · intro h; rw [if_neg h]
  · intro h; exact ⟨_, if_pos h⟩

/-- Specification: the kind of condition a name stands for. -/
def kindOfName (s : String) : Option BcKind :=
  ([("NullGradient", BcKind.nullGradient), ("Periodic", .periodic), ("Reflexive", .reflexive),
    ("UserDefined", .userDefined)] : List (String × BcKind)).lookup s

theorem bcConstruct_ok_iff (s : String) (k : BcKind) : bcConstruct s = .ok k ↔ kindOfName s = some k := by
  unfold bcConstruct bcFactory kindOfName
  by_cases h1 : s = "UserDefined"
  · subst h1; simp [List.lookup]
  · by_cases h2 : s = "NullGradient"
    · subst h2; simp
    · by_cases h3 : s = "Periodic"
      · subst h3; simp [List.lookup]
      · by_cases h4 : s = "Reflexive"
        · subst h4; simp [List.lookup]
        · have e1 : (s == "UserDefined") = false := by simpa using h1
          have e2 : (s == "NullGradient") = false := by simpa using h2
          have e3 : (s == "Periodic") = false := by simpa using h3
          have e4 : (s == "Reflexive") = false := by simpa using h4
          simp [h1, h2, h3, h4, List.lookup, e1, e2, e3, e4]

/-- Keys of the configuration entries of a direction and of a face. -/
def dirKey (a : Fin 3) : String := (["BC_X0", "BC_X1", "BC_X2"] : List String).getD a.val ""
def faceKey (a : Fin 3) (f : Fin 2) : String := dirKey a ++ (["_left", "_right"] : List String).getD f.val ""

/-- C10: the run goes on exactly when the resolved choice of every face names a known condition, and
then the condition of face `f` of direction `a` (slot `2 a + f`) is the resolved one; otherwise it
aborts. -/
theorem C10_select (ndim : ℕ) (hn : ndim ≤ 3) (get : String → Option String) :
    ((∃ r, bcSelect ndim get = .ok r) ↔
      ∀ a : Fin 3, a.val < ndim → ∀ f, (kindOfName (resolvedChoice get (dirKey a) (faceKey a f))).isSome) ∧
    (∀ r, bcSelect ndim get = .ok r → r.length = 2 * ndim ∧ ∀ a : Fin 3, a.val < ndim → ∀ f : Fin 2,
      r[2 * a.val + f.val]? = kindOfName (resolvedChoice get (dirKey a) (faceKey a f))) := by
  set res : Fin 3 × Fin 2 → String := fun p => resolvedChoice get (dirKey p.1) (faceKey p.1 p.2) with hres
  have hch : ∀ p : Fin 3 × Fin 2, ∀ s, bcChoice get p.1 p.2 = .ok s ↔ res p ≠ "" ∧ s = res p := by
    intro p s
    obtain ⟨h1, h2⟩ := C10_fallback get p.1 p.2
    change (res p ≠ "" → bcChoice get p.1 p.2 = .ok (res p)) at h1
    change (res p = "" → ∃ msg, bcChoice get p.1 p.2 = .error msg) at h2
    by_cases h : res p = ""
    · obtain ⟨m, hm⟩ := h2 h
      rw [hm]; simp [h]
    · rw [h1 h]; simp [h, eq_comm]
  have hne : ∀ p, (kindOfName (res p)).isSome → res p ≠ "" := by
    intro p hp h
    rw [h] at hp
    simp [kindOfName, List.lookup] at hp
  obtain ⟨faces, hf⟩ : ∃ faces, faces = ((List.finRange 3).filter (fun a => decide (a.val < ndim))).flatMap fun a =>
    [(a, (0 : Fin 2)), (a, (1 : Fin 2))] := ⟨_, rfl⟩
  have hsel : ∀ r, bcSelect ndim get = .ok r ↔
      List.Forall₂ (fun p k => kindOfName (res p) = some k) faces r := by
    intro r
    have hstep : bcSelect ndim get = (faces.mapM fun p => bcChoice get p.1 p.2) >>= fun ch => ch.mapM bcConstruct := by
      rw [hf]; rfl
    rw [hstep]
    constructor
    · intro h
      cases hm : (faces.mapM fun p => bcChoice get p.1 p.2) with
      | error e => rw [hm] at h; cases h
      | ok ch =>
        rw [hm] at h
        have h1 := (mapM_except_ok _ _ _).1 hm
        have h2 := (mapM_except_ok _ _ _).1 (show ch.mapM bcConstruct = .ok r from h)
        clear hm h hstep hf
        induction h1 generalizing r with
        | nil => cases h2; exact .nil
        | cons ha _ ih =>
          cases h2 with
          | cons hb hc =>
            refine .cons ?_ (ih _ hc)
            rw [((hch _ _).1 ha).2] at hb
            exact (bcConstruct_ok_iff _ _).1 hb
    · intro h
      have h1 : (faces.mapM fun p => bcChoice get p.1 p.2) = .ok (faces.map res) := by
        rw [mapM_except_ok]
        clear hstep hf
        induction h with
        | nil => exact .nil
        | cons ha _ ih => exact .cons ((hch _ _).2 ⟨hne _ (by rw [ha]; rfl), rfl⟩) ih
      rw [h1]
      change (faces.map res).mapM bcConstruct = .ok r
      rw [mapM_except_ok]
      clear hstep h1 hf
      induction h with
      | nil => exact .nil
      | cons ha _ ih => exact .cons ((bcConstruct_ok_iff _ _).2 ha) ih
  have hmem : ∀ p : Fin 3 × Fin 2, p ∈ faces ↔ p.1.val < ndim := by
    rintro ⟨a, f⟩
    simp only [hf, List.mem_flatMap, List.mem_filter, List.mem_finRange, decide_eq_true_eq, true_and,
      List.mem_cons, List.not_mem_nil, or_false, Prod.mk.injEq]
    constructor
    · rintro ⟨b, hb, ⟨rfl, _⟩ | ⟨rfl, _⟩⟩ <;> exact hb
    · intro h
      exact ⟨a, h, by rcases face_cases f with rfl | rfl <;> simp⟩
  constructor
  · constructor
    · rintro ⟨r, hr⟩ a ha f
      have h := (hsel r).1 hr
      have hm := (hmem (a, f)).2 ha
      clear hr hf hmem hsel
      induction h with
      | nil => cases hm
      | cons hx _ ih =>
        rcases List.mem_cons.1 hm with rfl | hm
        · change (kindOfName (res (a, f))).isSome; rw [hx]; rfl
        · exact ih hm
    · intro h
      refine ⟨faces.map fun p => (kindOfName (res p)).getD .periodic, (hsel _).2 ?_⟩
      have : ∀ p ∈ faces, (kindOfName (res p)).isSome := fun p hp => h p.1 ((hmem p).1 hp) p.2
      clear hf hmem hsel
      induction faces with
      | nil => exact .nil
      | cons p l ih =>
        refine .cons ?_ (ih fun q hq => this q (by simp [hq]))
        obtain ⟨k, hk⟩ := Option.isSome_iff_exists.1 (this p (by simp))
        simp [hk]
  · intro r hr
    have h := (hsel r).1 hr
    have hlen := h.length_eq
    clear hsel hmem hr
    have hget : ∀ (i : ℕ) (p : Fin 3 × Fin 2), faces[i]? = some p → r[i]? = kindOfName (res p) := by
      clear hf hlen
      induction h with
      | nil => intro i p hp; simp at hp
      | cons hx _ ih =>
        intro i p hp
        cases i with
        | zero => simp at hp ⊢; rw [← hp, hx]
        | succ i => simpa using ih i p (by simpa using hp)
    refine ⟨?_, fun a ha f => hget _ (a, f) ?_⟩
    · rw [← hlen, hf]
      rcases (by omega : ndim = 0 ∨ ndim = 1 ∨ ndim = 2 ∨ ndim = 3) with rfl | rfl | rfl | rfl <;> rfl
    · rw [hf]
      rcases (by omega : ndim = 0 ∨ ndim = 1 ∨ ndim = 2 ∨ ndim = 3) with rfl | rfl | rfl | rfl <;> revert a f <;> decide

/-- C10 in use: a global "Periodic" with a wall on the left face of the second direction. -/
example : bcSelect 2 (fun k => if k = "BC" then some "Periodic" else if k = "BC_X1_left" then some "Reflexive" else none)
    = .ok [.periodic, .periodic, .reflexive, .periodic] := by
  simp [bcSelect, bcChoice, iniGet, bcDirName, bcFaceName, bcConstruct, bcFactory, List.finRange, pure, Except.pure,
    bind, Except.bind]

end Heracles
