import Verif.Lemmas.Reflection
import Verif.Lemmas.Order
import Verif.Lemmas.Distributed
import Verif.Props.Riemann
import Verif.Props.Conservation

/-!
# Walls

Arrays whose ghost cells beyond a face are the mirror image of the cells inside it: the two face states at the wall are mirror images of
each other. Boundary values written by the reflexive and periodic conditions are of this kind, in any order of the faces.
-/

namespace Heracles

variable {d n : ℕ} {K : Type}

section Faces
variable [Field K] [LinearOrder K] [IsStrictOrderedRing K]

/-- The data of the `2 m` layers `lo, …, lo + 2 m - 1` of direction `b` are symmetric about their middle. -/
structure MirrorWall (ext : Cell) (b : Fin d) (lo m : ℤ) (p : PGrid d K) (U : Cell → Fields d n K) (up : Cell → VelPres d K) : Prop where
  U : ∀ c, inExt ext c = true → lo ≤ c (ax b) → c (ax b) < lo + 2 * m → U c = (U (reflect (ax b) (2 * lo + 2 * m) c)).flip b
  up : ∀ c, inExt ext c = true → lo ≤ c (ax b) → c (ax b) < lo + 2 * m → up c = (up (reflect (ax b) (2 * lo + 2 * m) c)).flip b
  grav : ∀ c, inExt ext c = true → lo ≤ c (ax b) → c (ax b) < lo + 2 * m → ∀ a,
    p.grav c a = (if a = b then -1 else 1) * p.grav (reflect (ax b) (2 * lo + 2 * m) c) a
  dx : ∀ i, lo ≤ i → i < lo + 2 * m → p.dx (ax b) i = p.dx (ax b) (2 * lo + 2 * m - 1 - i)

/-- The grid seen from cell `s`. -/
def PGrid.shift (p : PGrid d K) (s : Cell) : PGrid d K where
  x := fun a i => p.x a (i + s a)
  dx := fun a i => p.dx a (i + s a)
  ds := fun c => p.ds (c + s)
  dv := fun c => p.dv (c + s)
  grav := fun c => p.grav (c + s)

variable {ext : Cell} {b : Fin d} {lo m : ℤ} {p : PGrid d K} {U : Cell → Fields d n K} {up : Cell → VelPres d K}

/-- The two face states at the middle of the symmetric layers are mirror images. -/
theorem MirrorWall.faces (hd : d ≤ 3) (h : MirrorWall ext b lo m p U up) {tr : Trig K} (hG : GeoOf tr .cartesian ext p) (hm : 2 ≤ m) (hlo : 0 ≤ lo)
    (hhi : lo + 2 * m ≤ ext (ax b)) (lim : Limiter) (eos : EoS K) (dt : K) {c : Cell} (hc : StencilIn d ext c) (hcb : c (ax b) = lo + m) :
    recVal lim eos tr .cartesian p dt U up (nb c (ax b) (-1)) 1 b = (recVal lim eos tr .cartesian p dt U up c 0 b).flip b := by
  set s : Cell := Function.update 0 (ax b) lo with hs
  have hsb : s (ax b) = lo := by rw [hs, Function.update_self]
  have hsn : ∀ y, y ≠ ax b → s y = 0 := fun y hy => by rw [hs, Function.update_of_ne hy]; rfl
  set ext2 : Cell := Function.update ext (ax b) (2 * m) with he2
  have he2b : ext2 (ax b) = 2 * m := by rw [he2, Function.update_self]
  have he2n : ∀ y, y ≠ ax b → ext2 y = ext y := fun y hy => by rw [he2, Function.update_of_ne hy]
  have hin : ∀ e, inExt ext2 e = true → inExt ext (e + s) = true := fun e he => inExt_iff.2 fun y => by
    have := inExt_iff.1 he y
    by_cases hy : y = ax b
    · subst hy
      rw [he2b] at this
      rw [Pi.add_apply, hsb]
      omega
    · rw [he2n y hy] at this
      rw [Pi.add_apply, hsn y hy, add_zero]
      exact this
  have hwin : ∀ e, inExt ext2 e = true → lo ≤ (e + s) (ax b) ∧ (e + s) (ax b) < lo + 2 * m := fun e he => by
    have := inExt_iff.1 he (ax b)
    rw [he2b] at this
    rw [Pi.add_apply, hsb]
    omega
  have href : ∀ e, reflect (ax b) (2 * lo + 2 * m) (e + s) = reflect (ax b) (ext2 (ax b)) e + s := fun e => by
    funext y
    by_cases hy : y = ax b
    · subst hy
      rw [reflect_self, Pi.add_apply, Pi.add_apply, reflect_self, hsb, he2b]
      ring
    · rw [reflect_ne hy, Pi.add_apply, Pi.add_apply, reflect_ne hy]
  have hG' : GeoOf tr .cartesian ext2 (p.shift s) := by
    refine ⟨fun a i h1 h2 => ?_, fun e he => ?_, fun e he => ?_⟩
    · have h3 : 0 ≤ i + s a ∧ i + s a < ext a := by
        by_cases hy : a = ax b
        · subst hy; rw [he2b] at h2; rw [hsb]; omega
        · rw [he2n a hy] at h2; rw [hsn a hy]; omega
      show p.dx a (i + s a) = p.x a (i + 1 + s a) - p.x a (i + s a)
      rw [hG.dx a _ h3.1 h3.2, add_right_comm]
    · exact (hG.ds _ (hin e he)).trans rfl
    · exact (hG.dv _ (hin e he)).trans rfl
  have hR : Reflected b ext2 (p.shift s) (p.shift s) := by
    refine reflected_of_dx hd hG' hG' (fun i h1 h2 => ?_) (fun _ _ _ _ _ => rfl) (fun e he a => ?_)
    · rw [he2b] at h2 ⊢
      show p.dx (ax b) (i + s (ax b)) = p.dx (ax b) (2 * m - 1 - i + s (ax b))
      rw [hsb, h.dx _ (by omega) (by omega)]
      congr 1
      ring
    · show p.grav (e + s) a = _ * p.grav (reflect (ax b) (ext2 (ax b)) e + s) a
      rw [← href]
      exact h.grav _ (hin e he) (hwin e he).1 (hwin e he).2 a
  have hst : ∀ e, StencilIn d ext2 e → recVal lim eos tr .cartesian (p.shift s) dt (fun c => U (c + s)) (fun c => up (c + s)) e =
      recVal lim eos tr .cartesian p dt U up (e + s) := fun e _ =>
    recVal_shift lim eos tr .cartesian dt (fun a t _ _ => by
        show p.dx (ax a) (e (ax a) + t + s (ax a)) = _
        rw [add_right_comm]) (fun _ _ _ _ => rfl) (fun _ _ _ _ => rfl)
      (fun a => by
        unfold PGrid.dirGeo
        rw [nb_add]
        rfl) rfl rfl
  have hsc : ∀ t : ℤ, -1 ≤ t → t ≤ 0 → StencilIn d ext2 (nb c (ax b) t - s) := by
    intro t t1 t2 a u u1 u2
    refine inExt_iff.2 fun y => ?_
    by_cases hy : y = ax b
    · subst hy
      rw [he2b]
      by_cases ha : ax b = ax a
      · rw [← ha, nb_self, Pi.sub_apply, nb_self, hsb, hcb]; omega
      · rw [nb_ne _ ha, Pi.sub_apply, nb_self, hsb, hcb]; omega
    · rw [he2n y hy]
      have h1 := inExt_iff.1 (hc a u u1 u2) y
      by_cases ha : y = ax a
      · subst ha
        rw [nb_self] at h1
        rw [nb_self, Pi.sub_apply, nb_ne _ hy, hsn _ hy, sub_zero]
        exact h1
      · rw [nb_ne _ ha] at h1
        rw [nb_ne _ ha, Pi.sub_apply, nb_ne _ hy, hsn _ hy, sub_zero]
        exact h1
  have key := recVal_reflect hd hR lim eos tr dt (U := fun c => U (c + s)) (U' := fun c => U (c + s)) (up := fun c => up (c + s)) (up' := fun c => up (c + s))
    (fun e he => by rw [← href]; exact h.U _ (hin e he) (hwin e he).1 (hwin e he).2)
    (fun e he => by rw [← href]; exact h.up _ (hin e he) (hwin e he).1 (hwin e he).2)
    (hsc (-1) le_rfl (by norm_num)) 1 b
  have hrc : reflect (ax b) (ext2 (ax b)) (nb c (ax b) (-1) - s) = nb c (ax b) 0 - s := by
    funext y
    by_cases hy : y = ax b
    · subst hy
      rw [reflect_self, he2b, Pi.sub_apply, Pi.sub_apply, nb_self, nb_self, hsb, hcb]
      ring
    · rw [reflect_ne hy, Pi.sub_apply, Pi.sub_apply, nb_ne _ hy, nb_ne _ hy]
  rw [hrc, hst _ (hsc (-1) le_rfl (by norm_num)), hst _ (hsc 0 (by norm_num) le_rfl), sub_add_cancel, sub_add_cancel, nb_zero] at key
  simpa [revSide] using key

/-- Along direction `a` the arrays are those of a periodic box, or both ends are walls. -/
def ClosedAlong (ext : Cell) (ng : ℤ) (a : Fin d) (p : PGrid d K) (U : Cell → Fields d n K) (up : Cell → VelPres d K) : Prop :=
  PeriodicAlong ext ng a p U up ∨ MirrorWall ext a 0 ng p U up ∧ MirrorWall ext a (ext (ax a) - 2 * ng) ng p U up

/-- A quantity whose flux through the walls vanishes keeps its total, up to its sources. -/
theorem closed_total {ng : ℤ} {R : Cell → Fin 2 → Fin d → Fields d n K} (hd : d ≤ 3) (hng : 2 ≤ ng) {lim : Limiter} {eos : EoS K} {tr : Trig K} {dt : K}
    (hG : GeoOf tr .cartesian ext p) (hdv : ∀ c, layer d ext ng c → p.dv c ≠ 0)
    (hsz : ∀ a : Fin d, firstIdx d ng (ax a) ≤ lastIdx d ext ng (ax a))
    (hR : ∀ c, layer d ext (ng - 1) c → R c = recVal lim eos tr .cartesian p (dt / 2) U up c)
    (ψ : Fin d → (Fin 2 → Fin d → Fields d n K) → (Fin 2 → Fin d → Fields d n K) → K)
    (hB : ∀ a, PeriodicAlong ext ng a p U up ∨ ∀ c, layer d ext ng c →
      (c (ax a) = firstIdx d ng (ax a) → ψ a (R (nb c (ax a) (-1))) (R c) = 0) ∧
      (c (ax a) = lastIdx d ext ng (ax a) → ψ a (R c) (R (nb c (ax a) 1)) = 0)) (q q' s : Cell → K)
    (hq : ∀ c, layer d ext ng c → q' c = q c + dt / p.dv c * ∑ a, (p.ds c (ax a) * ψ a (R (nb c (ax a) (-1))) (R c)
      - p.ds (nb c (ax a) 1) (ax a) * ψ a (R (nb (nb c (ax a) 1) (ax a) (-1))) (R (nb c (ax a) 1))) + dt * s c) :
    ∑ c ∈ interior d ext ng, p.dv c * q' c = ∑ c ∈ interior d ext ng, p.dv c * q c
      + dt * ∑ c ∈ interior d ext ng, p.dv c * s c := by
  have h0 : ∑ c ∈ interior d ext ng, ∑ a : Fin d, (p.ds c (ax a) * ψ a (R (nb c (ax a) (-1))) (R c)
      - p.ds (nb c (ax a) 1) (ax a) * ψ a (R (nb (nb c (ax a) 1) (ax a) (-1))) (R (nb c (ax a) 1))) = 0 := by
    rw [Finset.sum_comm]
    refine Finset.sum_eq_zero fun a _ => ?_
    have hs := hsz a
    have hax := ax_lt hd a
    have hnga : nghostOf d ng (ax a) = ng := by simp only [nghostOf, if_pos hax]
    rcases hB a with hP | hW
    · unfold firstIdx lastIdx at hs
      refine box_periodic (nghostOf d ng) (fun i => ext i - nghostOf d ng i) (ax a) (by omega)
        (fun c => p.ds c (ax a) * ψ a (R (nb c (ax a) (-1))) (R c)) ?_
      intro c hc hca
      have e : ext (ax a) - nghostOf d ng (ax a) - nghostOf d ng (ax a) = ext (ax a) - 2 * ng := by rw [hnga]; ring
      simp only [e]
      exact hP.flux lim eos tr dt U up hd hng hG (hsz a) hR (ψ a) hc hca
    · unfold firstIdx lastIdx at hs
      have hb := box_telescope (nghostOf d ng) (fun i => ext i - nghostOf d ng i) (ax a) (by omega)
        (fun c => p.ds c (ax a) * ψ a (R (nb c (ax a) (-1))) (R c))
      refine hb.trans ?_
      rw [Finset.sum_eq_zero, Finset.sum_eq_zero, sub_zero]
      · intro c hc
        rw [Finset.mem_filter] at hc
        have hc1 : layer d ext ng c := mem_interior.1 hc.1
        have e0 : nb (nb c (ax a) 1) (ax a) (-1) = c := by rw [nb_nb]; exact nb_zero c _
        show p.ds (nb c (ax a) 1) (ax a) * ψ a (R (nb (nb c (ax a) 1) (ax a) (-1))) (R (nb c (ax a) 1)) = 0
        rw [e0, (hW c hc1).2 hc.2, mul_zero]
      · intro c hc
        rw [Finset.mem_filter] at hc
        have hc1 : layer d ext ng c := mem_interior.1 hc.1
        show p.ds c (ax a) * ψ a (R (nb c (ax a) (-1))) (R c) = 0
        rw [(hW c hc1).1 hc.2, mul_zero]
  rw [← add_zero (∑ c ∈ interior d ext ng, p.dv c * q c), ← mul_zero dt, ← h0, Finset.mul_sum, Finset.mul_sum,
    ← Finset.sum_add_distrib, ← Finset.sum_add_distrib]
  refine Finset.sum_congr rfl fun c hc => ?_
  have hc' := mem_interior.1 hc
  have := hdv c hc'
  rw [hq c hc']
  field_simp

end Faces

/-! ### Boundary values -/

section Values
variable [InvolutiveNeg K]

theorem flip_flip (a : Fin d) (s : Fields d n K) : (s.flip a).flip a = s := by
  unfold Fields.flip
  simp

/-- A built-in condition applied twice is applied once. -/
theorem condPure_idem {k : BcKind} {ext : Cell} {ng : ℤ} {a : Fin d} {f : Fin 2} (h0 : 0 ≤ ng) (h1 : 2 * ng < ext (ax a)) (h2 : 3 * ng ≤ ext (ax a))
    (val : Cell → Fields d n K) : condPure k ext ng a f (condPure k ext ng a f val) = condPure k ext ng a f val := by
  funext c
  by_cases hc : inExt ext c = true ∧ InGhostLayer ext ng (ax a) f c
  · simp only [condPure_eq]
    rw [if_pos hc, if_pos hc]
    obtain ⟨s1, s2⟩ := condSrc_inside (kind := k) h0 h1 h2 hc.1 hc.2
    rcases s2 with ⟨e, hid⟩ | hs
    · rw [hid, e, if_pos hc, e]
    · rw [if_neg]
      rintro ⟨-, hL⟩
      rcases face_cases f with rfl | rfl <;> simp [InGhostLayer] at hL <;> omega
  · rw [condPure_eq, if_neg hc]

variable {nx : Cell} {ng : ℤ} {bcs : Fin d → Fin 2 → BcKind} {order : List ℕ}

/-- A condition that has been applied, whatever was applied before and after, holds in the end. -/
theorem bcGlob_fixed (hd3 : d ≤ 3) (hng : 0 ≤ ng) (hpos : ∀ a, 0 < nx a) (hsz : ∀ a : Fin d, ng ≤ nx (ax a)) (ho : ∀ id ∈ order, id < 2 * d)
    (G : Cell → Fields d n K) {a : Fin d} {f : Fin 2} (hf : faceId a f ∈ order) :
    condPure (bcs a f) (globExt nx (nghostOf d ng)) ng a f (bcGlob bcs nx (nghostOf d ng) order G) = bcGlob bcs nx (nghostOf d ng) order G := by
  have hnga : ∀ a : Fin d, nghostOf d ng (ax a) = ng := fun a => by simp [nghostOf, ax_val hd3]
  have he : ∀ a : Fin d, globExt nx (nghostOf d ng) (ax a) = nx (ax a) + 2 * ng := fun a => by rw [globExt, hnga]
  have hcomm : ∀ (b : Fin d) (g : Fin 2) (V : Cell → Fields d n K),
      condPure (bcs a f) (globExt nx (nghostOf d ng)) ng a f (condPure (bcs b g) (globExt nx (nghostOf d ng)) ng b g V) =
      condPure (bcs b g) (globExt nx (nghostOf d ng)) ng b g (condPure (bcs a f) (globExt nx (nghostOf d ng)) ng a f V) := by
    intro b g V
    have p1 := hpos (ax a)
    have p2 := hpos (ax b)
    have p3 := hsz a
    have p4 := hsz b
    by_cases hab : a = b
    · subst hab
      by_cases hfg : f = g
      · subst hfg; rfl
      · exact condPure_comm hd3 hng hng (by rw [he]; omega) (by rw [he]; omega) (by rw [he]; omega) (by rw [he]; omega) (.inr ⟨rfl, hfg, rfl⟩) V
    · exact condPure_comm hd3 hng hng (by rw [he]; omega) (by rw [he]; omega) (by rw [he]; omega) (by rw [he]; omega) (.inl hab) V
  have hfold : ∀ l : List ℕ, (∀ id ∈ l, id < 2 * d) → ∀ V : Cell → Fields d n K,
      condPure (bcs a f) (globExt nx (nghostOf d ng)) ng a f V = V →
      condPure (bcs a f) (globExt nx (nghostOf d ng)) ng a f (l.foldl (bcPure bcs (fun _ _ => true) (globExt nx (nghostOf d ng)) (nghostOf d ng)) V) =
        l.foldl (bcPure bcs (fun _ _ => true) (globExt nx (nghostOf d ng)) (nghostOf d ng)) V := by
    intro l
    induction l with
    | nil => exact fun _ V h => h
    | cons id l ih =>
      intro hl V h
      rw [List.foldl_cons]
      refine ih (fun i hi => hl i (by simp [hi])) _ ?_
      obtain ⟨b, g, rfl⟩ := faceId_surj (hl id (by simp))
      rw [bcPure_faceId, if_pos rfl, hnga, hcomm, h]
  have main : ∀ l : List ℕ, (∀ id ∈ l, id < 2 * d) → faceId a f ∈ l → ∀ V : Cell → Fields d n K,
      condPure (bcs a f) (globExt nx (nghostOf d ng)) ng a f (l.foldl (bcPure bcs (fun _ _ => true) (globExt nx (nghostOf d ng)) (nghostOf d ng)) V) =
        l.foldl (bcPure bcs (fun _ _ => true) (globExt nx (nghostOf d ng)) (nghostOf d ng)) V := by
    intro l
    induction l with
    | nil => exact fun _ h => absurd h (by simp)
    | cons id l ih =>
      intro hl hm V
      have hl' : ∀ i ∈ l, i < 2 * d := fun i hi => hl i (by simp [hi])
      rw [List.foldl_cons]
      rcases List.mem_cons.1 hm with rfl | hm
      · refine hfold l hl' _ ?_
        rw [bcPure_faceId, if_pos rfl, hnga]
        have p1 := hpos (ax a)
        have p3 := hsz a
        exact condPure_idem hng (by rw [he]; omega) (by rw [he]; omega) V
      · exact ih hl' hm _
  exact main order ho hf _

/-- Ghost values of a reflexive face. -/
theorem bcGlob_wall (hd3 : d ≤ 3) (hng : 0 ≤ ng) (hpos : ∀ a, 0 < nx a) (hsz : ∀ a : Fin d, ng ≤ nx (ax a)) (ho : ∀ id ∈ order, id < 2 * d)
    (G : Cell → Fields d n K) {a : Fin d} (f : Fin 2) (hf : faceId a f ∈ order) (hb : bcs a f = .reflexive) {C : Cell}
    (hC : inExt (globExt nx (nghostOf d ng)) C = true) (h1 : (if f = 0 then 0 else nx (ax a)) ≤ C (ax a))
    (h2 : C (ax a) < (if f = 0 then 0 else nx (ax a)) + 2 * ng) :
    bcGlob bcs nx (nghostOf d ng) order G C =
      (bcGlob bcs nx (nghostOf d ng) order G (reflect (ax a) (2 * (if f = 0 then 0 else nx (ax a)) + 2 * ng) C)).flip a := by
  have hnga : nghostOf d ng (ax a) = ng := by simp [nghostOf, ax_val hd3]
  have he : globExt nx (nghostOf d ng) (ax a) = nx (ax a) + 2 * ng := by rw [globExt, hnga]
  have hfix := bcGlob_fixed (bcs := bcs) hd3 hng hpos hsz ho G hf
  generalize bcGlob bcs nx (nghostOf d ng) order G = W at hfix
  have key : ∀ C, inExt (globExt nx (nghostOf d ng)) C = true → InGhostLayer (globExt nx (nghostOf d ng)) ng (ax a) f C →
      W C = (W (reflect (ax a) (2 * (if f = 0 then 0 else nx (ax a)) + 2 * ng) C)).flip a := by
    intro C hC hL
    have e1 := congrFun hfix C
    rw [condPure_eq, if_pos ⟨hC, hL⟩, hb] at e1
    rw [← e1]
    show (W (mirror (globExt nx (nghostOf d ng)) ng (ax a) f C)).flip a = _
    have : mirror (globExt nx (nghostOf d ng)) ng (ax a) f C = reflect (ax a) (2 * (if f = 0 then 0 else nx (ax a)) + 2 * ng) C := by
      funext y
      by_cases hy : y = ax a
      · subst hy
        rw [reflect_self]
        unfold mirror
        rw [Function.update_self]
        rcases face_cases f with rfl | rfl
        · simp only [interiorLayer, ghostDepth, if_true]; ring
        · simp only [interiorLayer, ghostDepth, he, Fin.reduceEq, if_false]; ring
      · rw [reflect_ne hy]
        unfold mirror
        rw [Function.update_of_ne hy]
    rw [this]
  by_cases hL : InGhostLayer (globExt nx (nghostOf d ng)) ng (ax a) f C
  · exact key C hC hL
  · have hr : reflect (ax a) (2 * (if f = 0 then 0 else nx (ax a)) + 2 * ng) (reflect (ax a) (2 * (if f = 0 then 0 else nx (ax a)) + 2 * ng) C) = C := by
      funext y
      by_cases hy : y = ax a
      · subst hy; rw [reflect_self, reflect_self]; ring
      · rw [reflect_ne hy, reflect_ne hy]
    have hC' : inExt (globExt nx (nghostOf d ng)) (reflect (ax a) (2 * (if f = 0 then 0 else nx (ax a)) + 2 * ng) C) = true := inExt_iff.2 fun y => by
      have := inExt_iff.1 hC y
      by_cases hy : y = ax a
      · subst hy
        rw [reflect_self]
        rw [he] at this ⊢
        have := hpos (ax a)
        rcases face_cases f with rfl | rfl
        · simp only [if_true] at h1 h2 ⊢; omega
        · simp only [Fin.reduceEq, if_false] at h1 h2 ⊢; omega
      · rw [reflect_ne hy]; exact this
    have hL' : InGhostLayer (globExt nx (nghostOf d ng)) ng (ax a) f (reflect (ax a) (2 * (if f = 0 then 0 else nx (ax a)) + 2 * ng) C) := by
      rcases face_cases f with rfl | rfl
      · simp [InGhostLayer, reflect_self] at hL ⊢; omega
      · simp [InGhostLayer, reflect_self, he] at hL ⊢; omega
    have := key _ hC' hL'
    rw [hr] at this
    rw [this, flip_flip]

theorem condSrc_nb {k : BcKind} {ext : Cell} {m : ℤ} {a b : Fin 3} {f : Fin 2} (h : a ≠ b) (c : Cell) (t : ℤ) :
    condSrc k ext m b f (nb c a t) = nb (condSrc k ext m b f c) a t := by
  cases k <;> simp [condSrc, nearest, mirror, interiorLayer, ghostDepth, nb, Function.update_comm h, Function.update_of_ne h,
      Function.update_of_ne h.symm]

/-- A direction with periodic conditions stays periodic when the conditions of the other directions are applied. -/
theorem bcGlob_periodicAlong (hd3 : d ≤ 3) (hng : 0 ≤ ng) (hpos : ∀ a, 0 < nx a) (hsz : ∀ a : Fin d, ng ≤ nx (ax a)) (ho : ∀ id ∈ order, id < 2 * d)
    (G : Cell → Fields d n K) {a : Fin d} (hb : ∀ f, bcs a f = .periodic) {C : Cell}
    (h1 : inExt (globExt nx (nghostOf d ng)) C = true) (h2 : inExt (globExt nx (nghostOf d ng)) (nb C (ax a) (nx (ax a))) = true) :
    bcGlob bcs nx (nghostOf d ng) order G (nb C (ax a) (nx (ax a))) = bcGlob bcs nx (nghostOf d ng) order G C := by
  have hnga : ∀ a : Fin d, nghostOf d ng (ax a) = ng := fun a => by simp [nghostOf, ax_val hd3]
  have he : ∀ a : Fin d, globExt nx (nghostOf d ng) (ax a) = nx (ax a) + 2 * ng := fun a => by rw [globExt, hnga]
  have main : ∀ l : List ℕ, (∀ id ∈ l, id < 2 * d) → ∀ V : Cell → Fields d n K,
      (∀ C, inExt (globExt nx (nghostOf d ng)) C = true → inExt (globExt nx (nghostOf d ng)) (nb C (ax a) (nx (ax a))) = true →
        V (nb C (ax a) (nx (ax a))) = V C) →
      ∀ C, inExt (globExt nx (nghostOf d ng)) C = true → inExt (globExt nx (nghostOf d ng)) (nb C (ax a) (nx (ax a))) = true →
      l.foldl (bcPure bcs (fun _ _ => true) (globExt nx (nghostOf d ng)) (nghostOf d ng)) V (nb C (ax a) (nx (ax a))) =
        l.foldl (bcPure bcs (fun _ _ => true) (globExt nx (nghostOf d ng)) (nghostOf d ng)) V C := by
    intro l
    induction l with
    | nil => exact fun _ _ h => h
    | cons id l ih =>
      intro hl V hV
      rw [List.foldl_cons]
      refine ih (fun i hi => hl i (by simp [hi])) _ fun C h1 h2 => ?_
      obtain ⟨b, f, rfl⟩ := faceId_surj (hl id (by simp))
      rw [bcPure_faceId, if_pos rfl, hnga]
      by_cases hab : a = b
      · subst hab
        have hid : ∀ C, condPure (bcs a f) (globExt nx (nghostOf d ng)) ng a f V C = V C := fun C => by
          rw [hb]
          unfold condPure
          split <;> rfl
        rw [hid, hid]
        exact hV C h1 h2
      · have hax : ax a ≠ ax b := fun h => hab (ax_injective hd3 h)
        have hL : InGhostLayer (globExt nx (nghostOf d ng)) ng (ax b) f (nb C (ax a) (nx (ax a))) ↔
            InGhostLayer (globExt nx (nghostOf d ng)) ng (ax b) f C := by
          unfold InGhostLayer
          rw [nb_ne _ hax.symm]
        rw [condPure_eq, condPure_eq]
        by_cases hL' : InGhostLayer (globExt nx (nghostOf d ng)) ng (ax b) f C
        · have p1 := hpos (ax b)
          have p2 := hsz b
          have s1 := (condSrc_inside (kind := bcs b f) hng (by rw [he]; omega) (by rw [he]; omega) h1 hL').1
          have s2 := (condSrc_inside (kind := bcs b f) hng (by rw [he]; omega) (by rw [he]; omega) h2 (hL.2 hL')).1
          rw [if_pos ⟨h2, hL.2 hL'⟩, if_pos ⟨h1, hL'⟩, condSrc_nb hax]
          rw [condSrc_nb hax] at s2
          rw [hV _ s1 s2]
        · rw [if_neg (fun h => hL' (hL.1 h.2)), if_neg (fun h => hL' h.2)]
          exact hV C h1 h2
  refine main order ho _ (fun C _ _ => ?_) C h1 h2
  congr 1
  funext y
  by_cases hy : y = ax a
  · subst hy
    simp only [wrap, Pi.sub_apply, nb_self]
    rw [show C (ax a) + nx (ax a) - nghostOf d ng (ax a) = C (ax a) - nghostOf d ng (ax a) + nx (ax a) by ring, Int.add_emod_right]
  · simp only [wrap, Pi.sub_apply, nb_ne _ hy]

end Values

end Heracles
