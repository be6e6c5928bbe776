import Verif.Lemmas.Geometry
import Mathlib.Algebra.BigOperators.Ring.Finset
import Mathlib.Tactic.FieldSimp
import Mathlib.Tactic.LinearCombination

/-!
# Sums over boxes, translations
-/

namespace Heracles

variable {d n : ℕ} {K : Type}

theorem nb_nb (c : Cell) (a : Fin 3) (s t : ℤ) : nb (nb c a s) a t = nb c a (s + t) := by
  unfold nb
  rw [Function.update_self, Function.update_idem]
  congr 1
  ring

theorem nb_zero (c : Cell) (a : Fin 3) : nb c a 0 = c := by
  unfold nb
  rw [add_zero, Function.update_eq_self]

theorem nb_self (c : Cell) (a : Fin 3) (s : ℤ) : nb c a s a = c a + s := Function.update_self ..

theorem nb_ne (c : Cell) {a b : Fin 3} (h : b ≠ a) (s : ℤ) : nb c a s b = c b := Function.update_of_ne h ..

theorem nb_add (c s : Cell) (a : Fin 3) (t : ℤ) : nb (c + s) a t = nb c a t + s := by
  funext b
  by_cases h : b = a
  · subst h
    rw [nb_self, Pi.add_apply, Pi.add_apply, nb_self]
    ring
  · rw [nb_ne _ h, Pi.add_apply, Pi.add_apply, nb_ne _ h]

/-- Telescoping sum over a box along direction `a`. -/
theorem box_telescope [AddCommGroup K] (b e : Cell) (a : Fin 3) (hbe : b a < e a) (f : Cell → K) :
    ∑ c ∈ Fintype.piFinset (fun i => Finset.Ico (b i) (e i)), (f c - f (nb c a 1)) =
      ∑ c ∈ (Fintype.piFinset (fun i => Finset.Ico (b i) (e i))).filter (fun c => c a = b a), f c -
      ∑ c ∈ (Fintype.piFinset (fun i => Finset.Ico (b i) (e i))).filter (fun c => c a = e a - 1), f (nb c a 1) := by
  have hmem : ∀ c : Cell, c ∈ Fintype.piFinset (fun i => Finset.Ico (b i) (e i)) ↔ ∀ i, b i ≤ c i ∧ c i < e i := by
    intro c; simp [Fintype.mem_piFinset]
  rw [Finset.sum_sub_distrib]
  have h1 := Finset.sum_filter_add_sum_filter_not (Fintype.piFinset (fun i => Finset.Ico (b i) (e i)))
    (fun c : Cell => c a = b a) f
  have h2 := Finset.sum_filter_add_sum_filter_not (Fintype.piFinset (fun i => Finset.Ico (b i) (e i)))
    (fun c : Cell => c a = e a - 1) (fun c => f (nb c a 1))
  have h3 : ∑ c ∈ (Fintype.piFinset (fun i => Finset.Ico (b i) (e i))).filter (fun c : Cell => ¬ c a = e a - 1), f (nb c a 1) =
      ∑ c ∈ (Fintype.piFinset (fun i => Finset.Ico (b i) (e i))).filter (fun c : Cell => ¬ c a = b a), f c := by
    refine Finset.sum_nbij' (fun c => nb c a 1) (fun c => nb c a (-1)) ?_ ?_ ?_ ?_ ?_
    · intro c hc
      rw [Finset.mem_filter, hmem] at hc ⊢
      refine ⟨fun i => ?_, ?_⟩
      · have := hc.1 i
        by_cases h : i = a
        · subst h; rw [nb_self]; have := hc.2; omega
        · rw [nb_ne _ h]; exact this
      · rw [nb_self]; have := hc.1 a; omega
    · intro c hc
      rw [Finset.mem_filter, hmem] at hc ⊢
      refine ⟨fun i => ?_, ?_⟩
      · have := hc.1 i
        by_cases h : i = a
        · subst h; rw [nb_self]; have := hc.2; omega
        · rw [nb_ne _ h]; exact this
      · rw [nb_self]; have := hc.1 a; omega
    · intro c _
      rw [nb_nb]; exact nb_zero c a
    · intro c _
      rw [nb_nb]; exact nb_zero c a
    · intro c _; rfl
  rw [← h1, ← h2, h3]
  abel

/-- The faces on both sides of a periodic box cancel. -/
theorem box_periodic [AddCommGroup K] (b e : Cell) (a : Fin 3) (hbe : b a < e a) (f : Cell → K)
    (hf : ∀ c, (∀ i, b i ≤ c i ∧ c i < e i) → c a = b a → f c = f (nb c a (e a - b a))) :
    ∑ c ∈ Fintype.piFinset (fun i => Finset.Ico (b i) (e i)), (f c - f (nb c a 1)) = 0 := by
  have hmem : ∀ c : Cell, c ∈ Fintype.piFinset (fun i => Finset.Ico (b i) (e i)) ↔ ∀ i, b i ≤ c i ∧ c i < e i := by
    intro c; simp [Fintype.mem_piFinset]
  rw [box_telescope b e a hbe, sub_eq_zero]
  refine Finset.sum_nbij' (fun c => nb c a (e a - b a - 1)) (fun c => nb c a (-(e a - b a - 1))) ?_ ?_ ?_ ?_ ?_
  · intro c hc
    rw [Finset.mem_filter, hmem] at hc ⊢
    refine ⟨fun i => ?_, ?_⟩
    · have := hc.1 i
      by_cases h : i = a
      · subst h; rw [nb_self]; have := hc.2; omega
      · rw [nb_ne _ h]; exact this
    · rw [nb_self, hc.2]; omega
  · intro c hc
    rw [Finset.mem_filter, hmem] at hc ⊢
    refine ⟨fun i => ?_, ?_⟩
    · have := hc.1 i
      by_cases h : i = a
      · subst h; rw [nb_self]; have := hc.2; omega
      · rw [nb_ne _ h]; exact this
    · rw [nb_self, hc.2]; omega
  · intro c _
    rw [nb_nb, add_neg_cancel]; exact nb_zero c a
  · intro c _
    rw [nb_nb, neg_add_cancel]; exact nb_zero c a
  · intro c hc
    rw [Finset.mem_filter, hmem] at hc
    rw [hf c hc.1 hc.2, nb_nb, sub_add_cancel]

section
variable [Field K] [LinearOrder K] [IsStrictOrderedRing K]

theorem reconVal_shift (lim : Limiter) {dx dx' : Fin 3 → ℤ → K} {v v' : Cell → K} {c s : Cell} (a : Fin d)
    (hdx : ∀ t : ℤ, -1 ≤ t → t ≤ 1 → dx' (ax a) (c (ax a) + t) = dx (ax a) (c (ax a) + s (ax a) + t))
    (hv : ∀ t : ℤ, -1 ≤ t → t ≤ 1 → v' (nb c (ax a) t) = v (nb c (ax a) t + s)) (side : Fin 2) :
    reconVal lim dx' v' c side a = reconVal lim dx v (c + s) side a := by
  unfold reconVal
  have h0 := hdx 0 (by norm_num) (by norm_num)
  have h1 := hdx 1 (by norm_num) (by norm_num)
  have h2 := hdx (-1) (by norm_num) (by norm_num)
  have g0 := hv 0 (by norm_num) (by norm_num)
  have g1 := hv 1 (by norm_num) (by norm_num)
  have g2 := hv (-1) (by norm_num) (by norm_num)
  rw [← nb_add] at g0 g1 g2
  rw [nb_zero, nb_zero] at g0
  rw [add_zero, add_zero] at h0
  unfold nb at g1 g2
  rw [Pi.add_apply] at g1 g2
  rw [Pi.add_apply, sub_eq_add_neg, sub_eq_add_neg, g0, h0, h1, h2, g1, g2]

/-- The face states of a cell depend only on the data of the cell and of its direct neighbours, and are carried along by
translations. -/
theorem recVal_shift (lim : Limiter) (eos : EoS K) (tr : Trig K) (geom : Geom) {p p' : PGrid d K} (dt : K)
    {U U' : Cell → Fields d n K} {up up' : Cell → VelPres d K} {c s : Cell}
    (hdx : ∀ a : Fin d, ∀ t : ℤ, -1 ≤ t → t ≤ 1 → p'.dx (ax a) (c (ax a) + t) = p.dx (ax a) (c (ax a) + s (ax a) + t))
    (hU : ∀ a : Fin d, ∀ t : ℤ, -1 ≤ t → t ≤ 1 → U' (nb c (ax a) t) = U (nb c (ax a) t + s))
    (hup : ∀ a : Fin d, ∀ t : ℤ, -1 ≤ t → t ≤ 1 → up' (nb c (ax a) t) = up (nb c (ax a) t + s))
    (hgeo : ∀ a, p'.dirGeo geom a c = p.dirGeo geom a (c + s)) (hgrav : p'.grav c = p.grav (c + s))
    (hdv : p'.dv c = p.dv (c + s)) :
    recVal lim eos tr geom p' dt U' up' c = recVal lim eos tr geom p dt U up (c + s) := by
  have hf : faceUP lim p' up' c = faceUP lim p up (c + s) := by
    funext side a
    unfold faceUP
    congr 1
    · funext i
      exact reconVal_shift lim a (hdx a) (fun t h1 h2 => by rw [hup a t h1 h2]) side
    · exact reconVal_shift lim a (hdx a) (fun t h1 h2 => by rw [hup a t h1 h2]) side
  have hg : faceFields lim eos p' U' up' c = faceFields lim eos p U up (c + s) := by
    funext side a
    unfold faceFields
    rw [hf]
    have hr : reconVal lim p'.dx (fun c => (U' c).rho) c side a = reconVal lim p.dx (fun c => (U c).rho) (c + s) side a :=
      reconVal_shift lim a (hdx a) (fun t h1 h2 => by rw [hU a t h1 h2]) side
    rw [hr]
    dsimp only
    congr 1
    funext i
    exact reconVal_shift lim a (hdx a) (fun t h1 h2 => by rw [hU a t h1 h2]) side
  unfold recVal
  funext side a
  rw [hf, hg]
  unfold hanVal
  simp only [hgeo, hgrav, hdv]

theorem godVal_shift (sol : Solver) (eos : EoS K) (tr : Trig K) (geom : Geom) {p p' : PGrid d K} (dt : K) (u : Fields d n K)
    {R R' : Cell → Fin 2 → Fin d → Fields d n K} {c s : Cell}
    (hR : R' c = R (c + s)) (hRn : ∀ a : Fin d, ∀ t : ℤ, -1 ≤ t → t ≤ 1 → R' (nb c (ax a) t) = R (nb c (ax a) t + s))
    (hgeo : ∀ a, p'.dirGeo geom a c = p.dirGeo geom a (c + s)) (hgrav : p'.grav c = p.grav (c + s))
    (hdv : p'.dv c = p.dv (c + s)) :
    godVal sol eos tr geom p' dt u R' c = godVal sol eos tr geom p dt u R (c + s) := by
  have h1 : ∀ a : Fin d, R' (nb c (ax a) 1) = R (nb (c + s) (ax a) 1) := fun a => by
    rw [nb_add]; exact hRn a 1 (by norm_num) (by norm_num)
  have h2 : ∀ a : Fin d, R' (nb c (ax a) (-1)) = R (nb (c + s) (ax a) (-1)) := fun a => by
    rw [nb_add]; exact hRn a (-1) (by norm_num) (by norm_num)
  unfold godVal
  simp only [hR, h1, h2, hgeo, hgrav, hdv]

/-- What is needed to run a step on arrays of extents `ext`: at least two ghosts, grid arrays and gravity of the right
extents, and loops that traverse the boxes of `range.with_ghosts(1)` and `range.no_ghosts()`. -/
structure StepOk (g : GridData K) (grav : GravField d K) (ext : Cell) (p : PGrid d K) (ng : ℤ) (sc : RecScheds d n)
    (l l' : List Cell) : Prop where
  dim : d ≤ 3
  ghosts : 2 ≤ ng
  fits : g.Fits grav ext p
  sc : sc.Ok (nghostOf d (ng - 1)) (fun a => ext a - nghostOf d (ng - 1) a)
  l : IsSchedule l (nghostOf d ng) (fun a => ext a - nghostOf d ng a)
  l' : IsSchedule l' (nghostOf d ng) (fun a => ext a - nghostOf d ng a)

theorem StepOk.step {g : GridData K} {grav : GravField d K} {ext : Cell} {p : PGrid d K} {ng : ℤ} {sc : RecScheds d n}
    {l l' : List Cell} (h : StepOk g grav ext p ng sc l l') (lim : Limiter) (sol : Solver) (eos : EoS K) (tr : Trig K)
    (geom : Geom) (dt : K) (U : Cell → Fields d n K) (up : Cell → VelPres d K)
    (upRec : Cell → Fin 2 → Fin d → VelPres d K) (rec : Cell → Fin 2 → Fin d → Fields d n K) (new : Cell → Fields d n K) :
    hydroStep lim sol eos tr geom g grav dt sc l l' ⟨inExt ext, U⟩ ⟨inExt ext, up⟩ ⟨inExt ext, upRec⟩ ⟨inExt ext, rec⟩
        ⟨inExt ext, new⟩ =
      some ⟨inExt ext, fun c => if layer d ext ng c then stepVal lim sol eos tr geom p dt U up c else new c⟩ :=
  hydroStep_eq h.dim lim sol eos tr geom h.fits dt h.ghosts h.sc h.l h.l' U up upRec rec new

theorem StepOk.recon {g : GridData K} {grav : GravField d K} {ext : Cell} {p : PGrid d K} {ng : ℤ} {sc : RecScheds d n}
    {l l' : List Cell} (h : StepOk g grav ext p ng sc l l') (lim : Limiter) (eos : EoS K) (tr : Trig K)
    (geom : Geom) (dt : K) (U : Cell → Fields d n K) (up : Cell → VelPres d K)
    (upRec : Cell → Fin 2 → Fin d → VelPres d K) (rec : Cell → Fin 2 → Fin d → Fields d n K) :
    hydroReconstruct lim eos tr geom g grav dt sc ⟨inExt ext, U⟩ ⟨inExt ext, up⟩ ⟨inExt ext, upRec⟩ ⟨inExt ext, rec⟩ =
      some ⟨inExt ext, fun c => if layer d ext (ng - 1) c then recVal lim eos tr geom p dt U up c else rec c⟩ := by
  have := h.ghosts
  exact hydroReconstruct_eq h.dim lim eos tr geom h.fits dt h.sc (fun c hc => layer_inExt (m := ng - 1) hc (by omega))
    (fun c hc => layer_stencil h.dim (m := ng - 1) hc (by omega)) U up upRec rec

theorem clamp_eq (v : K) : clamp v 0 1 = max 0 (min v 1) := by
  unfold clamp
  split
  · rename_i h
    rw [max_eq_left ((min_le_left _ _).trans h.le)]
  · rename_i h
    split
    · rename_i h'
      rw [min_eq_right h'.le, max_eq_right zero_le_one]
    · rename_i h'
      rw [min_eq_left (not_lt.1 h'), max_eq_right (not_lt.1 h)]

end

end Heracles
