import Verif.Model.Distributed
import Verif.Lemmas.Conservation
import Verif.Lemmas.Geometry
import Verif.Lemmas.Order
import Verif.Props.Boundary
import Verif.Props.Reduce
import Verif.Props.Euler

/-!
# A decomposed run follows a run on one global array

Cells of the global array are numbered from the first ghost: local cell `c` of a rank is global cell `c + start`.
-/

namespace Heracles

variable {d n : ℕ} {K : Type}

/-- First owned cell of a rank. -/
def startCell (nx dims rank : Cell) : Cell := fun a => localStart (nx a) (dims a) (rank a)

/-- Extents of the global array. -/
def globExt (nx nghost : Cell) : Cell := fun a => nx a + 2 * nghost a

/-- Every rank holds its part of the global array `W`. -/
structure HoldsAll {V : Type} (nx dims nghost : Cell) (W : Cell → V) (D : DistView V) : Prop where
  ext : ∀ rank, inBox 0 dims rank → D.ext rank = localExt nx dims nghost rank
  val : ∀ rank, inBox 0 dims rank → ∀ c, inExt (localExt nx dims nghost rank) c = true →
    D.val rank c = W (c + startCell nx dims rank)

theorem allRanks_some {V : Type} {dims : Cell} {f : Cell → Option V} {dflt : Cell → V} {g : Cell → V}
    (h : ∀ r, inBox 0 dims r → f r = some (g r)) :
    ∃ v, allRanks dims f dflt = some v ∧ ∀ r, inBox 0 dims r → v r = g r := by
  refine ⟨fun r => (f r).getD (dflt r), if_pos fun r hr => ?_, fun r hr => ?_⟩
  · rw [h r (((boxList_isSchedule 0 dims).2 r).1 hr)]; rfl
  · show (f r).getD (dflt r) = _
    rw [h r hr]; rfl

section Bc

/-- Boundary conditions on the global array. -/
noncomputable def bcGlob [Neg K] (bcs : Fin d → Fin 2 → BcKind) (nx nghost : Cell) (order : List ℕ) (G : Cell → Fields d n K) :
    Cell → Fields d n K :=
  order.foldl (bcPure bcs (fun _ _ => true) (globExt nx nghost) nghost) fun C => G (wrap nx (C - nghost))

variable [Neg K] {nx dims rank : Cell} {ng : ℤ}

theorem inExt_shift (hN : ∀ a, 0 ≤ nx a) (hdm : ∀ a, 0 < dims a) (hr : inBox 0 dims rank) {nghost c : Cell}
    (hc : inExt (localExt nx dims nghost rank) c = true) : inExt (globExt nx nghost) (c + startCell nx dims rank) = true := by
  refine inExt_iff.2 fun a => ?_
  have h := inExt_iff.1 hc a
  have h1 := localStart_nonneg (r := rank a) (hN a) (hdm a) (hr a).1
  have h2 := localStart_add_size_le (r := rank a) (hN a) (hdm a) (hr a).2
  simp only [localExt] at h
  simp only [globExt, Pi.add_apply, startCell]
  omega

/-- The faces of a rank that are not on the border of the domain are not in the ghost layers of the global array. -/
theorem layer_shift (hN : ∀ a, 0 ≤ nx a) (hdm : ∀ a, 0 < dims a) (hr : inBox 0 dims rank) (a : Fin 3) (f : Fin 2)
    {nghost c : Cell} (hsz : ∀ r, 0 ≤ r → r < dims a → nghost a ≤ localSize (nx a) (dims a) r)
    (hc : inExt (localExt nx dims nghost rank) c = true) :
    InGhostLayer (globExt nx nghost) (nghost a) a f (c + startCell nx dims rank) ↔
      borderOf dims rank a f = true ∧ InGhostLayer (localExt nx dims nghost rank) (nghost a) a f c := by
  have h := inExt_iff.1 hc a
  have r0 := (hr a).1
  have r1 := (hr a).2
  have hs1 := hsz 0 le_rfl (hdm a)
  have hs2 := hsz (dims a - 1) (by have := hdm a; omega) (by omega)
  have z := localStart_zero (hN a) (hdm a)
  have tp := localStart_top (hN a) (hdm a)
  have s0 := localStart_succ (r := 0) (hN a) (hdm a)
  have s1 := localStart_succ (r := rank a) (hN a) (hdm a)
  have s2 := localStart_succ (r := dims a - 1) (hN a) (hdm a)
  rw [sub_add_cancel] at s2
  simp only [Pi.zero_apply] at r0
  simp only [localExt] at h
  have h01 : ¬ ((0 : Fin 2) = 1) := by decide
  have h10 : ¬ ((1 : Fin 2) = 0) := by decide
  rcases face_cases f with rfl | rfl
  · have e1 : borderOf dims rank a 0 = true ↔ rank a = 0 := by simp [borderOf]
    rw [e1]
    simp only [InGhostLayer, globExt, localExt, Pi.add_apply, startCell, true_and, h01, false_and, or_false]
    by_cases hb : rank a = 0
    · rw [hb, z]; simp
    · have := localStart_mono (r := 0 + 1) (s := rank a) (hN a) (hdm a) (by omega)
      exact ⟨fun h => by omega, fun h => absurd h.1 hb⟩
  · have e1 : borderOf dims rank a 1 = true ↔ rank a = dims a - 1 := by simp [borderOf]
    rw [e1]
    simp only [InGhostLayer, globExt, localExt, Pi.add_apply, startCell, true_and, h10, false_and, false_or]
    by_cases hb : rank a = dims a - 1
    · rw [← hb] at s2
      exact ⟨fun h => ⟨hb, by omega⟩, fun h => by have := h.2; omega⟩
    · have := localStart_mono (r := rank a + 1) (s := dims a - 1) (hN a) (hdm a) (by omega)
      exact ⟨fun h => by omega, fun h => absurd h.1 hb⟩

theorem bcPure_shift (hd3 : d ≤ 3) (hN : ∀ a, 0 ≤ nx a) (hdm : ∀ a, 0 < dims a) (hr : inBox 0 dims rank) (hng : 0 < ng)
    (hsz : ∀ a : Fin 3, a.val < d → ∀ r, 0 ≤ r → r < dims a → ng ≤ localSize (nx a) (dims a) r)
    (bcs : Fin d → Fin 2 → BcKind) {id : ℕ} (hid : id < 2 * d) {val W : Cell → Fields d n K}
    (h : ∀ c, inExt (localExt nx dims (nghostOf d ng) rank) c = true → val c = W (c + startCell nx dims rank)) (c : Cell)
    (hc : inExt (localExt nx dims (nghostOf d ng) rank) c = true) :
    bcPure bcs (borderOf dims rank) (localExt nx dims (nghostOf d ng) rank) (nghostOf d ng) val id c =
      bcPure bcs (fun _ _ => true) (globExt nx (nghostOf d ng)) (nghostOf d ng) W id (c + startCell nx dims rank) := by
  obtain ⟨a, f, rfl⟩ := faceId_surj hid
  have hnga : nghostOf d ng (ax a) = ng := by simp [nghostOf, ax_val hd3]
  have hsza : ∀ r, 0 ≤ r → r < dims (ax a) → nghostOf d ng (ax a) ≤ localSize (nx (ax a)) (dims (ax a)) r := by
    intro r h0 h1; rw [hnga]; exact hsz (ax a) (by rw [ax_val hd3]; exact a.isLt) r h0 h1
  have key := layer_shift hN hdm hr (ax a) f hsza hc
  have hg := inExt_shift hN hdm hr hc
  rw [bcPure_faceId, bcPure_faceId, if_pos (rfl : (fun (_ : Fin 3) (_ : Fin 2) => true) (ax a) f = true)]
  by_cases hB : borderOf dims rank (ax a) f = true ∧
      InGhostLayer (localExt nx dims (nghostOf d ng) rank) (nghostOf d ng (ax a)) (ax a) f c
  · rw [if_pos hB.1, condPure_eq, condPure_eq, if_pos ⟨hc, hB.2⟩, if_pos ⟨hg, key.2 hB⟩]
    have z := localStart_zero (hN (ax a)) (hdm (ax a))
    have tp := localStart_top (hN (ax a)) (hdm (ax a))
    have s1 := localStart_succ (r := rank (ax a)) (hN (ax a)) (hdm (ax a))
    have hsr := hsza (rank (ax a)) (hr (ax a)).1 (hr (ax a)).2
    have hca := inExt_iff.1 hc (ax a)
    have hext : localExt nx dims (nghostOf d ng) rank (ax a) = localSize (nx (ax a)) (dims (ax a)) (rank (ax a)) + 2 * ng := by
      simp only [localExt, hnga]
    have hL := hB.2
    rw [hnga] at hL hsr ⊢
    have hst : f = 0 → startCell nx dims rank (ax a) = 0 := by
      rintro rfl
      have : rank (ax a) = 0 := by simpa [borderOf] using hB.1
      simp only [startCell, this, z]
    have hen : f = 1 → startCell nx dims rank (ax a) + localSize (nx (ax a)) (dims (ax a)) (rank (ax a)) = nx (ax a) := by
      rintro rfl
      have : rank (ax a) = dims (ax a) - 1 := by simpa [borderOf] using hB.1
      simp only [startCell]
      rw [← s1, this, sub_add_cancel, tp]
    have hsrc : condSrc (bcs a f) (localExt nx dims (nghostOf d ng) rank) ng (ax a) f c + startCell nx dims rank =
        condSrc (bcs a f) (globExt nx (nghostOf d ng)) ng (ax a) f (c + startCell nx dims rank) := by
      funext b
      by_cases hb : b = ax a
      · subst hb
        rw [Pi.add_apply]
        have hge : globExt nx (nghostOf d ng) (ax a) = nx (ax a) + 2 * ng := by simp only [globExt, hnga]
        rcases face_cases f with rfl | rfl
        · have := hst rfl
          cases bcs a 0 <;> simp [condSrc, nearest, mirror, interiorLayer, ghostDepth, this]
        · have := hen rfl
          cases bcs a 1 <;> simp [condSrc, nearest, mirror, interiorLayer, ghostDepth, hge, hext] <;> omega
      · rw [Pi.add_apply, condSrc_other hb, condSrc_other hb, Pi.add_apply]
    rw [← hsrc]
    congr 1
    refine h _ (inExt_iff.2 fun b => ?_)
    by_cases hb : b = ax a
    · subst hb
      rcases face_cases f with rfl | rfl
      · simp [InGhostLayer] at hL
        cases bcs a 0 <;> simp [condSrc, nearest, mirror, interiorLayer, ghostDepth, hext] at hca ⊢ <;> omega
      · simp [InGhostLayer] at hL
        cases bcs a 1 <;> simp [condSrc, nearest, mirror, interiorLayer, ghostDepth, hext] at hca hL ⊢ <;> omega
    · rw [condSrc_other hb]; exact inExt_iff.1 hc b
  · have hR : condPure (bcs a f) (globExt nx (nghostOf d ng)) (nghostOf d ng (ax a)) a f W (c + startCell nx dims rank) =
        W (c + startCell nx dims rank) := by
      rw [condPure_eq, if_neg (fun h => hB (key.1 h.2))]
    rw [hR]
    by_cases hb : borderOf dims rank (ax a) f = true
    · rw [if_pos hb, condPure_eq, if_neg (fun h => hB ⟨hb, h.2⟩)]
      exact h c hc
    · rw [if_neg hb]
      exact h c hc

theorem bcFold_shift (hd3 : d ≤ 3) (hN : ∀ a, 0 ≤ nx a) (hdm : ∀ a, 0 < dims a) (hr : inBox 0 dims rank) (hng : 0 < ng)
    (hsz : ∀ a : Fin 3, a.val < d → ∀ r, 0 ≤ r → r < dims a → ng ≤ localSize (nx a) (dims a) r)
    (bcs : Fin d → Fin 2 → BcKind) (l : List ℕ) (hl : ∀ id ∈ l, id < 2 * d) {val W : Cell → Fields d n K}
    (h : ∀ c, inExt (localExt nx dims (nghostOf d ng) rank) c = true → val c = W (c + startCell nx dims rank)) (c : Cell)
    (hc : inExt (localExt nx dims (nghostOf d ng) rank) c = true) :
    l.foldl (bcPure bcs (borderOf dims rank) (localExt nx dims (nghostOf d ng) rank) (nghostOf d ng)) val c =
      l.foldl (bcPure bcs (fun _ _ => true) (globExt nx (nghostOf d ng)) (nghostOf d ng)) W (c + startCell nx dims rank) := by
  induction l generalizing val W with
  | nil => exact h c hc
  | cons id l ih =>
    rw [List.foldl_cons, List.foldl_cons]
    exact ih (fun i hi => hl i (by simp [hi]))
      (fun c hc => bcPure_shift hd3 hN hdm hr hng hsz bcs (hl id (by simp)) h c hc)

end Bc

/-- The boundary update of all ranks yields the parts of one global array. -/
theorem distBcs_holds [Neg K] (hd3 : d ≤ 3) {nx dims : Cell} {ng : ℤ} (hN : ∀ a, 0 ≤ nx a)
    (hdm : ∀ a, 0 < dims a) (hng : 0 < ng)
    (hsz : ∀ a : Fin 3, a.val < d → ∀ r, 0 ≤ r → r < dims a → ng ≤ localSize (nx a) (dims a) r)
    (user : UserBc d n K) {sched : Cell → Cell → List Cell} (hs : ∀ b e, IsSchedule (sched b e) b e)
    {bcs : Fin d → Fin 2 → BcKind} (hb : ∀ a f, bcs a f ≠ .userDefined) {order : List ℕ} (ho : ∀ id ∈ order, id < 2 * d)
    (G : Cell → Fields d n K) (D : DistView (Fields d n K))
    (hext : ∀ rank, inBox 0 dims rank → D.ext rank = localExt nx dims (nghostOf d ng) rank)
    (hint : ∀ rank, inBox 0 dims rank → ∀ c,
      inBox (nghostOf d ng) (fun a => D.ext rank a - nghostOf d ng a) c →
      D.val rank c = G (globalOf nx dims (nghostOf d ng) rank c)) :
    ∃ D', distBcs user sched bcs (borderOf dims) (nghostOf d ng) dims (order.map some) D = some D' ∧
      HoldsAll nx dims (nghostOf d ng) (bcGlob bcs nx (nghostOf d ng) order G) D' := by
  obtain ⟨S, hS, hSext, hSval⟩ := C04_halo_is_periodic_image d nx dims ng hng.le hN hdm hsz G D hext hint
  have hnga : ∀ a : Fin d, nghostOf d ng (ax a) = ng := fun a => by simp [nghostOf, ax_val hd3]
  obtain ⟨v, hv, hv'⟩ := allRanks_some (dims := dims)
    (f := bcUpdate user sched bcs (borderOf dims) (nghostOf d ng) dims (order.map some) D) (dflt := D.local)
    (g := fun r => ⟨inExt (localExt nx dims (nghostOf d ng) r),
      order.foldl (bcPure bcs (borderOf dims r) (localExt nx dims (nghostOf d ng) r) (nghostOf d ng)) (S.val r)⟩) (by
    intro r hr
    have hszr := fun a : Fin d => hsz (ax a) (by rw [ax_val hd3]; exact a.isLt) (r (ax a)) (hr (ax a)).1 (hr (ax a)).2
    unfold bcUpdate
    rw [hS]
    simp only [Option.bind_eq_bind, Option.bind_some]
    rw [hSext, hext r hr]
    refine bcLoop_pure hs (fun a => by rw [hnga]; exact hng.le) (fun a => ?_) (fun a => ?_) hb order ho _
    · simp only [localExt, hnga]; have := hszr a; omega
    · simp only [localExt, hnga]; have := hszr a; omega)
  refine ⟨⟨D.ext, fun r => (v r).val⟩, by unfold distBcs; rw [hv]; rfl, ⟨hext, fun rank hr c hc => ?_⟩⟩
  show (v rank).val c = _
  rw [hv' rank hr]
  refine bcFold_shift hd3 hN hdm hr hng hsz bcs order ho (fun c hc => ?_) c hc
  rw [hSval rank hr c (by rw [hext rank hr]; exact hc)]
  congr 2
  funext a
  simp only [globalOf, Pi.sub_apply, Pi.add_apply, startCell]
  ring

section Step
variable [Field K] [LinearOrder K] [IsStrictOrderedRing K]

/-- Grid of the global array. -/
def globGrid (tr : Trig K) (geom : Geom) (X : Fin 3 → ℤ → K) (Gr : Cell → Fin d → K) : PGrid d K where
  x := X
  dx := fun a i => X a (i + 1) - X a i
  ds := dsFun tr geom d X (fun a i => X a (i + 1) - X a i) 0
  dv := dvFun tr geom d X (fun a i => X a (i + 1) - X a i) 0
  grav := Gr

/-- The memory of a rank: its grid is what `set_grid` computes from the global nodes `X`, its arrays have the local extents, its
loops traverse their ranges. -/
structure RankOk (tr : Trig K) (geom : Geom) (nx dims : Cell) (ng : ℤ) (X : Fin 3 → ℤ → K) (rank : Cell)
    (m : RankMem d n K) : Prop where
  grid : ∃ topo l1 r l l', GridTopo.mk? d nx dims rank ng = .ok topo ∧
    (∀ a, IsLineSchedule (l1 a) (topo.nxLocalWg a)) ∧ topo.range.allGhosts = .ok r ∧
    IsSchedule l (r.cellBegin d) (r.cellEnd d) ∧ IsSchedule l' (r.cellBegin d) (r.cellEnd d) ∧
    setGrid tr geom d topo l1 l l' (fun a => View.line (nx a + 2 * topo.nghost a + 1) (X a))
      (GridData.alloc topo.nxLocalWg) = some m.grid
  conv : IsSchedule m.conv 0 (localExt nx dims (nghostOf d ng) rank)
  parts : IsPartition m.parts 0 (localExt nx dims (nghostOf d ng) rank)
  sc : m.sc.Ok (nghostOf d (ng - 1)) (fun a => localExt nx dims (nghostOf d ng) rank a - nghostOf d (ng - 1) a)
  l : IsSchedule m.l (nghostOf d ng) (fun a => localExt nx dims (nghostOf d ng) rank a - nghostOf d ng a)
  l' : IsSchedule m.l' (nghostOf d ng) (fun a => localExt nx dims (nghostOf d ng) rank a - nghostOf d ng a)
  up : m.up.dom = inExt (localExt nx dims (nghostOf d ng) rank)
  upRec : m.upRec.dom = inExt (localExt nx dims (nghostOf d ng) rank)
  faces : m.faces.dom = inExt (localExt nx dims (nghostOf d ng) rank)
  new : m.new.dom = inExt (localExt nx dims (nghostOf d ng) rank)

/-- Primitive variables of the global array. -/
def primGlob (eos : EoS K) (W : Cell → Fields d n K) (C : Cell) : VelPres d K :=
  ⟨fun i => (W C).rhou i / (W C).rho, eos.presFromEvol (W C).rho ((W C).E - (∑ i, (W C).rhou i ^ 2) / (W C).rho / 2)⟩

variable {nx dims rank : Cell} {ng : ℤ} {tr : Trig K} {geom : Geom} {X : Fin 3 → ℤ → K}

theorem RankOk.fits (hN : ∀ a, 0 ≤ nx a) (hdm : ∀ a, 0 < dims a) (hr : inBox 0 dims rank) {m : RankMem d n K}
    (h : RankOk tr geom nx dims ng X rank m) {grav : GravField d K} {G : Cell → Fin d → K}
    (hG : ∀ c, inExt (localExt nx dims (nghostOf d ng) rank) c = true → ∀ a, grav c a = some (G c a)) :
    (∃ p : PGrid d K, m.grid.Fits grav (localExt nx dims (nghostOf d ng) rank) p ∧
      GeoOf tr geom (localExt nx dims (nghostOf d ng) rank) p ∧ p.grav = G ∧
      ∀ a i, p.x a i = X a (i + startCell nx dims rank a)) ∧
    ∀ a, m.grid.xc a = View.line (localExt nx dims (nghostOf d ng) rank a) fun i =>
      if 0 ≤ i ∧ i < localExt nx dims (nghostOf d ng) rank a then
        (X a (i + startCell nx dims rank a) + X a (i + startCell nx dims rank a + 1)) / 2 else 0 := by
  obtain ⟨topo, l1, r, l, l', ht, h1, hrg, hl, hl', hg⟩ := h.grid
  obtain ⟨e1, e2, e3, e4, e5⟩ := range_box hN hdm hr ht
  obtain ⟨g, hg', hxc, hp⟩ := setGrid_spec tr geom hN hdm hr ht h1 hrg hl hl' X
  rw [hg] at hg'
  cases hg'
  rw [e1] at hp hxc
  obtain ⟨p, q1, q2, q3, q4⟩ := hp G grav hG
  refine ⟨⟨p, q1, q2, q3, fun a i => ?_⟩, fun a => ?_⟩
  · rw [q4, e2, add_comm]; rfl
  · rw [hxc a, e2]
    congr 1
    funext i
    simp only [startCell]
    rw [add_comm _ i, ← add_assoc, add_comm (_ + i) 1, add_comm _ i, add_comm 1]

/-- The measures of a rank are those of the global array. -/
theorem geo_shift {p : PGrid d K} {ext s : Cell} (hp : GeoOf tr geom ext p) (hx : ∀ a i, p.x a i = X a (i + s a))
    {Gr : Cell → Fin d → K} :
    (∀ a i, 0 ≤ i → i < ext a → p.dx a i = (globGrid tr geom X Gr).dx a (i + s a)) ∧
    (∀ c, inExt ext c = true → p.ds c = (globGrid tr geom X Gr).ds (c + s)) ∧
    (∀ c, inExt ext c = true → p.dv c = (globGrid tr geom X Gr).dv (c + s)) := by
  have hdx : ∀ a i, 0 ≤ i → i < ext a → p.dx a i = (globGrid tr geom X Gr).dx a (i + s a) := by
    intro a i h0 h1
    rw [hp.dx a i h0 h1, hx, hx]
    show _ = X a (i + s a + 1) - X a (i + s a)
    rw [add_right_comm]
  refine ⟨hdx, fun c hc => ?_, fun c hc => ?_⟩
  all_goals
    have h := inExt_iff.1 hc
    have d0 := hdx 0 (c 0) (h 0).1 (h 0).2
    have d1 := hdx 1 (c 1) (h 1).1 (h 1).2
    have d2 := hdx 2 (c 2) (h 2).1 (h 2).2
    simp only [globGrid] at d0 d1 d2
  · rw [hp.ds c hc]
    simp only [globGrid, dsFun, hx, d0, d1, d2, Pi.add_apply, add_right_comm _ (1 : ℤ)]
  · rw [hp.dv c hc]
    simp only [globGrid, dvFun, hx, d0, d1, d2, Pi.add_apply, add_right_comm _ (1 : ℤ)]

theorem dirGeo_shift {p : PGrid d K} {ext s : Cell} (hp : GeoOf tr geom ext p) (hx : ∀ a i, p.x a i = X a (i + s a))
    {Gr : Cell → Fin d → K} (a : Fin d) {c : Cell} (hc : inExt ext c = true) (hc' : inExt ext (nb c (ax a) 1) = true) :
    p.dirGeo geom a c = (globGrid tr geom X Gr).dirGeo geom a (c + s) := by
  obtain ⟨_, h2, h3⟩ := geo_shift (Gr := Gr) hp hx
  unfold PGrid.dirGeo
  rw [h2 c hc, h3 c hc, h2 _ hc', ← nb_add]
  cases geom
  · rfl
  · have e : (globGrid tr .spherical X Gr).x = X := rfl
    simp only [hx, e, Pi.add_apply, add_right_comm _ (1 : ℤ)]

/-- A step of a rank is a step of the global array. -/
theorem stepVal_shift (hd3 : d ≤ 3) (lim : Limiter) (sol : Solver) (eos : EoS K) {p : PGrid d K} {ext s : Cell}
    (hp : GeoOf tr geom ext p) (hx : ∀ a i, p.x a i = X a (i + s a)) {Gr : Cell → Fin d → K}
    (hgr : ∀ c, inExt ext c = true → p.grav c = Gr (c + s)) (dt : K) {U W : Cell → Fields d n K} {up UP : Cell → VelPres d K}
    (hU : ∀ c, inExt ext c = true → U c = W (c + s)) (hup : ∀ c, inExt ext c = true → up c = UP (c + s)) {m : ℤ} (hm : 2 ≤ m)
    {c : Cell} (hc : layer d ext m c) :
    stepVal lim sol eos tr geom p dt U up c = stepVal lim sol eos tr geom (globGrid tr geom X Gr) dt W UP (c + s) := by
  obtain ⟨h1, h2, h3⟩ := geo_shift (Gr := Gr) hp hx
  have hrec : ∀ k, 1 ≤ k → ∀ e, layer d ext k e → recVal lim eos tr geom p (dt / 2) U up e =
      recVal lim eos tr geom (globGrid tr geom X Gr) (dt / 2) W UP (e + s) := by
    intro k hk e he
    have hst := layer_stencil hd3 he hk
    have hin := layer_inExt he (by omega)
    refine recVal_shift lim eos tr geom (dt / 2) ?_ ?_ ?_ ?_ ?_ ?_
    · intro a t t1 t2
      have := inExt_iff.1 (hst a t t1 t2) (ax a)
      rw [nb_self] at this
      rw [h1 (ax a) _ this.1 this.2, add_right_comm]
    · exact fun a t t1 t2 => hU _ (hst a t t1 t2)
    · exact fun a t t1 t2 => hup _ (hst a t t1 t2)
    · exact fun a => dirGeo_shift hp hx a hin (hst a 1 (by norm_num) (by norm_num))
    · exact hgr e hin
    · exact h3 e hin
  have hst := layer_stencil hd3 hc (by omega)
  have hin := layer_inExt hc (by omega)
  unfold stepVal
  rw [hU c hin]
  refine godVal_shift sol eos tr geom dt _ (hrec m (by omega) c hc) ?_ ?_ ?_ ?_
  · exact fun a t t1 t2 => hrec (m - 1) (by omega) _ (layer_nb hd3 hc a t1 t2)
  · exact fun a => dirGeo_shift hp hx a hin (hst a 1 (by norm_num) (by norm_num))
  · exact hgr c hin
  · exact h3 c hin

end Step

end Heracles
