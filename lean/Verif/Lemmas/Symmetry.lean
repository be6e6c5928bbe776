import Verif.Spec.Symmetry
import Verif.Lemmas.Conservation
import Verif.Lemmas.Geometry
import Verif.Props.Riemann

/-! Lemmas on permuted axes. -/

namespace Heracles

variable {d n : ℕ} {K : Type}

section Perm
variable [Field K] (σ : Equiv.Perm (Fin d))

theorem sum_perm (f : Fin d → K) : ∑ i, f (σ.symm i) = ∑ i, f i := Equiv.sum_comp σ.symm f

theorem update_perm (f : Fin d → K) (a : Fin d) (v : K) : Function.update (fun i => f (σ.symm i)) (σ a) v = fun i => Function.update f a v (σ.symm i) := by
  funext i
  by_cases h : i = σ a
  · subst h; simp
  · rw [Function.update_of_ne h, Function.update_of_ne (fun e => h (by rw [← e]; simp))]

theorem Cons.perm_ek (c : Cons d K) : (c.perm σ).ek = c.ek := by
  unfold Cons.ek Cons.perm
  rw [← sum_perm σ fun i => c.rhou i * c.rhou i]

theorem Prim.perm_ek (p : Prim d K) : (p.perm σ).ek = p.ek := by
  unfold Prim.ek Prim.perm
  rw [← sum_perm σ fun i => p.u i * p.u i]

theorem toPrim_perm (eos : EoS K) (c : Cons d K) : toPrim eos (c.perm σ) = (toPrim eos c).perm σ := by
  unfold toPrim Cons.evol
  rw [Cons.perm_ek]
  rfl

theorem toCons_perm (eos : EoS K) (p : Prim d K) : toCons eos (p.perm σ) = (toCons eos p).perm σ := by
  unfold toCons
  rw [Prim.perm_ek]
  rfl

theorem fluxPrim_perm (eos : EoS K) (p : Prim d K) (a : Fin d) : fluxPrim eos (p.perm σ) (σ a) = (fluxPrim eos p a).perm σ := by
  unfold fluxPrim
  rw [Prim.perm_ek]
  have e : (p.perm σ).u (σ a) = p.u a := by simp [Prim.perm]
  apply Flux.ext
  · simp only [e]; rfl
  · simp only [e]
    exact update_perm σ (fun i => p.rho * p.u a * p.u i) a _
  · simp only [e]; rfl

variable [LinearOrder K]

theorem flux_perm (s : Solver) (eos : EoS K) (cL cR : Cons d K) (a : Fin d) :
    s.flux eos (cL.perm σ) (cR.perm σ) (σ a) = (s.flux eos cL cR a).perm σ := by
  have eu : ∀ p : Prim d K, (p.perm σ).u (σ a) = p.u a := fun p => by simp [Prim.perm]
  have er : ∀ p : Prim d K, (p.perm σ).rho = p.rho := fun _ => rfl
  have eP : ∀ p : Prim d K, (p.perm σ).P = p.P := fun _ => rfl
  have eL : ∀ pL pR : Prim d K, waveL eos (pL.perm σ) (pR.perm σ) (σ a) = waveL eos pL pR a := fun pL pR => by simp only [waveL, eu, er, eP]
  have eR : ∀ pL pR : Prim d K, waveR eos (pL.perm σ) (pR.perm σ) (σ a) = waveR eos pL pR a := fun pL pR => by simp only [waveR, eu, er, eP]
  cases s with
  | hll =>
    change hllFlux eos _ _ _ = (hllFlux eos _ _ _).perm σ
    unfold hllFlux
    simp only [toPrim_perm, eL, eR, fluxPrim_perm]
    rfl
  | hllc =>
    change hllcFlux eos _ _ _ = (hllcFlux eos _ _ _).perm σ
    have hu : ∀ (pL pR : Prim d K) wL wR, hllcUstar (pL.perm σ) (pR.perm σ) (σ a) wL wR = hllcUstar pL pR a wL wR := fun pL pR wL wR => by
      simp only [hllcUstar, eu, er, eP]
    have hp : ∀ (pL pR : Prim d K) wL wR, hllcPstar (pL.perm σ) (pR.perm σ) (σ a) wL wR = hllcPstar pL pR a wL wR := fun pL pR wL wR => by
      simp only [hllcPstar, hu, eu, er, eP]
    have hs : ∀ (c : Cons d K) (p : Prim d K) (f : Flux d K) S us ps, hllcStar (c.perm σ) (p.perm σ) (f.perm σ) (σ a) S us ps = (hllcStar c p f a S us ps).perm σ := by
      intro c p f S us ps
      unfold hllcStar
      simp only [eu]
      apply Flux.ext
      · rfl
      · exact update_perm σ (fun i => c.rho * (S - p.u a) / (S - us) * us * p.u i) a _
      · rfl
    unfold hllcFlux
    simp only [toPrim_perm, eL, eR, fluxPrim_perm, hu, hp]
    by_cases h : hllcUstar (toPrim eos cL) (toPrim eos cR) a (waveL eos (toPrim eos cL) (toPrim eos cR) a) (waveR eos (toPrim eos cL) (toPrim eos cR) a) > 0
    · simp only [if_pos h, hs]
      split_ifs <;> rfl
    · simp only [if_neg h, hs]
      split_ifs <;> rfl
  | splitting =>
    change splittingFlux eos _ _ _ = (splittingFlux eos _ _ _).perm σ
    unfold splittingFlux
    simp only [toPrim_perm, eu, er, eP]
    by_cases h : ((toPrim eos cL).u a + (toPrim eos cR).u a) / 2 -
        1 / (2 * (11 / 10 * max ((toPrim eos cL).rho * eos.sound (toPrim eos cL).rho (toPrim eos cL).P)
          ((toPrim eos cR).rho * eos.sound (toPrim eos cR).rho (toPrim eos cR).P))) * ((toPrim eos cR).P - (toPrim eos cL).P) > 0
    · simp only [if_pos h]
      apply Flux.ext
      · rfl
      · simp only [Flux.perm, ← update_perm, Cons.perm, Equiv.symm_apply_apply]
      · rfl
    · simp only [if_neg h]
      apply Flux.ext
      · rfl
      · simp only [Flux.perm, ← update_perm, Cons.perm, Equiv.symm_apply_apply]
      · rfl

end Perm

section PermStep
variable [Field K] [LinearOrder K]

/-- The grid `p'` is `p` with permuted axes, on an array of extents `ext'`; `τ` extends `σ` to the three axes of the arrays. -/
structure Permuted (σ : Equiv.Perm (Fin d)) (τ : Equiv.Perm (Fin 3)) (ext' : Cell) (p p' : PGrid d K) : Prop where
  ax : ∀ a : Fin d, τ (ax a) = ax (σ a)
  dx : ∀ x i, 0 ≤ i → i < ext' (τ x) → p'.dx (τ x) i = p.dx x i
  ds : ∀ c, inExt ext' c = true → ∀ x, p'.ds c (τ x) = p.ds (c ∘ τ) x
  dv : ∀ c, inExt ext' c = true → p'.dv c = p.dv (c ∘ τ)
  grav : ∀ c, inExt ext' c = true → ∀ a, p'.grav c (σ a) = p.grav (c ∘ τ) a

theorem nb_perm (τ : Equiv.Perm (Fin 3)) (c : Cell) (x : Fin 3) (s : ℤ) : nb c (τ x) s ∘ τ = nb (c ∘ τ) x s := by
  funext y
  unfold nb
  simp only [Function.comp_apply]
  by_cases h : y = x
  · subst h; simp
  · rw [Function.update_of_ne h, Function.update_of_ne (fun e => h (τ.injective e))]; rfl

theorem stencil_self {ext c : Cell} (h : StencilIn d ext c) (a : Fin d) : inExt ext c = true := by
  have := h a 0 (by norm_num) (by norm_num)
  rwa [nb_zero] at this

variable {σ : Equiv.Perm (Fin d)} {τ : Equiv.Perm (Fin 3)} {ext' : Cell} {p p' : PGrid d K}

theorem reconVal_perm (h : Permuted σ τ ext' p p') (lim : Limiter) {var var' : Cell → K} (hv : ∀ c, inExt ext' c = true → var' c = var (c ∘ τ))
    {c : Cell} (hc : StencilIn d ext' c) (side : Fin 2) (a : Fin d) :
    reconVal lim p'.dx var' c side (σ a) = reconVal lim p.dx var (c ∘ τ) side a := by
  have hs : ∀ s : ℤ, -1 ≤ s → s ≤ 1 → p'.dx (ax (σ a)) (c (ax (σ a)) + s) = p.dx (ax a) ((c ∘ τ) (ax a) + s) := by
    intro s h1 h2
    have := inExt_iff.1 (hc (σ a) s h1 h2) (ax (σ a))
    rw [nb, Function.update_self] at this
    rw [← h.ax a] at this ⊢
    exact h.dx (ax a) _ this.1 this.2
  have hn : ∀ s : ℤ, -1 ≤ s → s ≤ 1 → var' (Function.update c (ax (σ a)) (c (ax (σ a)) + s)) = var (Function.update (c ∘ τ) (ax a) ((c ∘ τ) (ax a) + s)) := by
    intro s h1 h2
    have e := nb_perm τ c (ax a) s
    rw [h.ax a] at e
    exact (hv _ (hc (σ a) s h1 h2)).trans (by change var (nb _ _ _ ∘ τ) = _; rw [e]; rfl)
  unfold reconVal
  have h0 := hs 0 (by norm_num) (by norm_num)
  rw [add_zero, add_zero] at h0
  rw [h0, hs 1 (by norm_num) le_rfl, hn 1 (by norm_num) le_rfl, hv c (stencil_self hc a)]
  have h1 := hs (-1) le_rfl (by norm_num)
  have h2 := hn (-1) le_rfl (by norm_num)
  simp only [← sub_eq_add_neg] at h1 h2
  rw [h1, h2]

theorem faceUP_perm (h : Permuted σ τ ext' p p') (lim : Limiter) {up up' : Cell → VelPres d K}
    (hv : ∀ c, inExt ext' c = true → up' c = (up (c ∘ τ)).perm σ) {c : Cell} (hc : StencilIn d ext' c) (side : Fin 2) (a : Fin d) :
    faceUP lim p' up' c side (σ a) = (faceUP lim p up (c ∘ τ) side a).perm σ := by
  unfold faceUP VelPres.perm
  congr 1
  · funext i
    exact reconVal_perm h lim (var := fun c => (up c).u (σ.symm i)) (var' := fun c => (up' c).u i) (fun c hc => by rw [hv c hc]; rfl) hc side a
  · exact reconVal_perm h lim (var := fun c => (up c).P) (var' := fun c => (up' c).P) (fun c hc => by rw [hv c hc]; rfl) hc side a

theorem faceFields_perm (h : Permuted σ τ ext' p p') (lim : Limiter) (eos : EoS K) {U U' : Cell → Fields d n K} {up up' : Cell → VelPres d K}
    (hU : ∀ c, inExt ext' c = true → U' c = (U (c ∘ τ)).perm σ) (hv : ∀ c, inExt ext' c = true → up' c = (up (c ∘ τ)).perm σ) {c : Cell}
    (hc : StencilIn d ext' c) (side : Fin 2) (a : Fin d) :
    faceFields lim eos p' U' up' c side (σ a) = (faceFields lim eos p U up (c ∘ τ) side a).perm σ := by
  have e1 : reconVal lim p'.dx (fun c => (U' c).rho) c side (σ a) = reconVal lim p.dx (fun c => (U c).rho) (c ∘ τ) side a :=
    reconVal_perm h lim (fun c hc => by rw [hU c hc]; rfl) hc side a
  have e2 : ∀ i, reconVal lim p'.dx (fun c => (U' c).fx i) c side (σ a) = reconVal lim p.dx (fun c => (U c).fx i) (c ∘ τ) side a :=
    fun i => reconVal_perm h lim (fun c hc => by rw [hU c hc]; rfl) hc side a
  unfold faceFields
  simp only [e1, e2, faceUP_perm h lim hv hc side a]
  have e3 := toCons_perm σ eos (Prim.mk (reconVal lim p.dx (fun c => (U c).rho) (c ∘ τ) side a) (faceUP lim p up (c ∘ τ) side a).u
    (faceUP lim p up (c ∘ τ) side a).P)
  apply Fields.ext
  · rfl
  · exact congrArg (Cons.rhou) e3
  · exact (congrArg (fun c : Cons d K => c.E) e3 :)
  · rfl

theorem dirGeo_perm (h : Permuted σ τ ext' p p') {c : Cell} (hc : StencilIn d ext' c) (a : Fin d) :
    p'.dirGeo .cartesian (σ a) c = p.dirGeo .cartesian a (c ∘ τ) := by
  have e := nb_perm τ c (ax a) 1
  rw [h.ax a] at e
  have h0 := h.ds c (stencil_self hc a) (ax a)
  have h1 := h.ds _ (hc (σ a) 1 (by norm_num) le_rfl) (ax a)
  rw [h.ax a] at h0 h1
  unfold PGrid.dirGeo
  simp only
  rw [h0, h1, h.dv c (stencil_self hc a), e]

theorem momDiff_cart {K : Type} [Field K] (tr : Trig K) (g : DirGeo K) (w : K) (pL pR : Prim d K) (fL fR : Flux d K) (a i : Fin d) :
    momDiff tr .cartesian g w pL pR fL fR a i = fluxDiff g w (fL.rhou i) (fR.rhou i) := by
  simp [momDiff]

theorem hanVal_perm (h : Permuted σ τ ext' p p') (eos : EoS K) (tr : Trig K) (dt : K) {up up' : Fin 2 → Fin d → VelPres d K}
    {old old' : Fin 2 → Fin d → Fields d n K} (hup : ∀ s a, up' s (σ a) = (up s a).perm σ) (hold : ∀ s a, old' s (σ a) = (old s a).perm σ)
    {c : Cell} (hc : StencilIn d ext' c) (side : Fin 2) (a : Fin d) :
    hanVal eos tr .cartesian p' dt up' old' c side (σ a) = (hanVal eos tr .cartesian p dt up old (c ∘ τ) side a).perm σ := by
  have hf : ∀ (f : Fields d n K) (q : VelPres d K), facePrim (f.perm σ) (q.perm σ) = (facePrim f q).perm σ := fun _ _ => rfl
  have hdv := h.dv c (stencil_self hc a)
  have hg : ∀ a, p'.grav c (σ a) = p.grav (c ∘ τ) a := h.grav c (stencil_self hc a)
  have hrho : (hanVal eos tr .cartesian p' dt up' old' c side (σ a)).rho = (hanVal eos tr .cartesian p dt up old (c ∘ τ) side a).rho := by
    unfold hanVal
    simp only
    rw [← Equiv.sum_comp σ]
    simp only [hup, hold, hf, fluxPrim_perm, dirGeo_perm h hc, hdv]
    rfl
  apply Fields.ext
  · exact hrho
  · funext i
    unfold hanVal
    simp only [momDiff_cart]
    rw [← Equiv.sum_comp σ]
    simp only [hup, hold, hf, fluxPrim_perm, dirGeo_perm h hc, hdv, hg]
    simp only [Flux.perm, Fields.perm]
    congr 1
    refine Finset.sum_congr rfl fun b _ => ?_
    have : (i = σ b) ↔ (σ.symm i = b) := ⟨fun e => by rw [e]; simp, fun e => by rw [← e]; simp⟩
    simp only [this]
  · unfold hanVal
    simp only
    rw [← Equiv.sum_comp σ]
    simp only [hup, hold, hf, fluxPrim_perm, dirGeo_perm h hc, hdv, hg]
    simp only [Flux.perm, Fields.perm, Equiv.symm_apply_apply]
  · have hr := hrho
    funext i
    change (_ / (hanVal eos tr .cartesian p' dt up' old' c side (σ a)).rho : K) = _ / (hanVal eos tr .cartesian p dt up old (c ∘ τ) side a).rho
    rw [hr]
    congr 1
    rw [← Equiv.sum_comp σ]
    simp only [hup, hold, hf, fluxPrim_perm, dirGeo_perm h hc, hdv]
    rfl

theorem recVal_perm (h : Permuted σ τ ext' p p') (lim : Limiter) (eos : EoS K) (tr : Trig K) (dt : K) {U U' : Cell → Fields d n K}
    {up up' : Cell → VelPres d K} (hU : ∀ c, inExt ext' c = true → U' c = (U (c ∘ τ)).perm σ)
    (hv : ∀ c, inExt ext' c = true → up' c = (up (c ∘ τ)).perm σ) {c : Cell} (hc : StencilIn d ext' c) (side : Fin 2) (a : Fin d) :
    recVal lim eos tr .cartesian p' dt U' up' c side (σ a) = (recVal lim eos tr .cartesian p dt U up (c ∘ τ) side a).perm σ :=
  hanVal_perm h eos tr dt (fun s a => faceUP_perm h lim hv hc s a) (fun s a => faceFields_perm h lim eos hU hv hc s a) hc side a

theorem godVal_perm (h : Permuted σ τ ext' p p') (sol : Solver) (eos : EoS K) (tr : Trig K) (dt : K) {s s' : Fields d n K} (hs : s' = s.perm σ)
    {R R' : Cell → Fin 2 → Fin d → Fields d n K} {c : Cell} (hin : inExt ext' c = true) (hc : StencilIn d ext' c)
    (h0 : ∀ side a, R' c side (σ a) = (R (c ∘ τ) side a).perm σ)
    (hR : ∀ (a : Fin d) (k : ℤ), -1 ≤ k → k ≤ 1 → ∀ side b, R' (nb c (ax a) k) side (σ b) = (R (nb c (ax a) k ∘ τ) side b).perm σ) :
    godVal sol eos tr .cartesian p' dt s' R' c = (godVal sol eos tr .cartesian p dt s R (c ∘ τ)).perm σ := by
  subst hs
  have hdv := h.dv c hin
  have hg : ∀ a, p'.grav c (σ a) = p.grav (c ∘ τ) a := h.grav c hin
  have hn : ∀ a k, -1 ≤ k → k ≤ 1 → ∀ side, R' (nb c (ax (σ a)) k) side (σ a) = (R (nb (c ∘ τ) (ax a) k) side a).perm σ := by
    intro a k h1 h2 side
    have e := nb_perm τ c (ax a) k
    rw [h.ax a] at e
    rw [hR (σ a) k h1 h2 side a, e]
  have hm : ∀ a, R' (nb c (ax (σ a)) (-1)) 1 (σ a) = (R (nb (c ∘ τ) (ax a) (-1)) 1 a).perm σ := fun a => hn a (-1) le_rfl (by norm_num) 1
  have hp : ∀ a, R' (nb c (ax (σ a)) 1) 0 (σ a) = (R (nb (c ∘ τ) (ax a) 1) 0 a).perm σ := fun a => hn a 1 (by norm_num) le_rfl 0
  have hc' : ∀ f : Fields d n K, (f.perm σ).cons = f.cons.perm σ := fun _ => rfl
  have hrho : (godVal sol eos tr .cartesian p' dt (s.perm σ) R' c).rho = (godVal sol eos tr .cartesian p dt s R (c ∘ τ)).rho := by
    unfold godVal
    simp only
    rw [← Equiv.sum_comp σ]
    simp only [hm, hp, h0, hc', flux_perm, dirGeo_perm h hc, hdv]
    rfl
  apply Fields.ext
  · exact hrho
  · funext i
    unfold godVal
    simp only [momDiff_cart]
    rw [← Equiv.sum_comp σ]
    simp only [hm, hp, h0, hc', flux_perm, dirGeo_perm h hc, hdv, hg]
    simp only [Flux.perm, Fields.perm]
    congr 1
    refine Finset.sum_congr rfl fun b _ => ?_
    have : (i = σ b) ↔ (σ.symm i = b) := ⟨fun e => by rw [e]; simp, fun e => by rw [← e]; simp⟩
    simp only [this]
  · unfold godVal
    simp only
    rw [← Equiv.sum_comp σ]
    simp only [hm, hp, h0, hc', flux_perm, dirGeo_perm h hc, hdv, hg]
    simp only [Flux.perm, Fields.perm, Equiv.symm_apply_apply]
  · funext i
    change clamp (_ / (godVal sol eos tr .cartesian p' dt (s.perm σ) R' c).rho) 0 1 = clamp (_ / (godVal sol eos tr .cartesian p dt s R (c ∘ τ)).rho) 0 1
    rw [hrho]
    congr 2
    rw [← Equiv.sum_comp σ]
    simp only [hm, hp, h0, hc', flux_perm, dirGeo_perm h hc, hdv]
    rfl

theorem layer_perm {m : ℤ} (h : Permuted σ τ ext' p p') {c : Cell} {ext : Cell} (hd : d ≤ 3) (he : ∀ x, ext' (τ x) = ext x) :
    layer d ext' m c ↔ layer d ext m (c ∘ τ) := by
  have hlt : ∀ x : Fin 3, (τ x).val < d ↔ x.val < d := by
    have h1 : ∀ x : Fin 3, x.val < d → (τ x).val < d := by
      intro x hx
      have e : x = ax (⟨x.val, hx⟩ : Fin d) := by apply Fin.ext; rw [ax_val hd]
      rw [e, h.ax, ax_val hd]
      exact Fin.isLt _
    have h2 : ∀ x : Fin 3, (τ x).val < d → x.val < d := by
      intro x hx
      have e : τ x = ax (σ (σ.symm ⟨(τ x).val, hx⟩)) := by apply Fin.ext; rw [ax_val hd]; simp
      rw [← h.ax] at e
      rw [τ.injective e, ax_val hd]
      exact Fin.isLt _
    exact fun x => ⟨h2 x, h1 x⟩
  have hg : ∀ x, nghostOf d m (τ x) = nghostOf d m x := fun x => by simp only [nghostOf, hlt]
  constructor
  · intro hc x
    have := hc (τ x)
    simp only [hg, he] at this
    exact this
  · intro hc x
    obtain ⟨y, rfl⟩ := τ.surjective x
    have := hc y
    simp only [hg, he]
    exact this

theorem stepVal_perm (hd : d ≤ 3) (h : Permuted σ τ ext' p p') (lim : Limiter) (sol : Solver) (eos : EoS K) (tr : Trig K) (dt : K)
    {U U' : Cell → Fields d n K} {up up' : Cell → VelPres d K} (hU : ∀ c, inExt ext' c = true → U' c = (U (c ∘ τ)).perm σ)
    (hv : ∀ c, inExt ext' c = true → up' c = (up (c ∘ τ)).perm σ) {ng : ℤ} (hng : 2 ≤ ng) {c : Cell} (hc : layer d ext' ng c) :
    stepVal lim sol eos tr .cartesian p' dt U' up' c = (stepVal lim sol eos tr .cartesian p dt U up (c ∘ τ)).perm σ :=
  godVal_perm h sol eos tr dt (hU c (layer_inExt hc (by omega))) (layer_inExt hc (by omega)) (layer_stencil hd hc (by omega))
    (fun side a => recVal_perm h lim eos tr (dt / 2) hU hv (layer_stencil hd hc (by omega)) side a)
    (fun _ _ h1 h2 side b => recVal_perm h lim eos tr (dt / 2) hU hv (layer_stencil hd (layer_nb hd hc _ h1 h2) (by omega)) side b)

theorem geoOf_permuted (hd : d ≤ 3) {tr : Trig K} {ext : Cell} (hax : ∀ a : Fin d, τ (ax a) = ax (σ a)) (he : ∀ x, ext' (τ x) = ext x)
    (hp : GeoOf tr .cartesian ext p) (hp' : GeoOf tr .cartesian ext' p') (δ : Fin 3 → K)
    (hx : ∀ x i, 0 ≤ i → i ≤ ext x → p'.x (τ x) i = p.x x i + δ x)
    (hg : ∀ c, inExt ext' c = true → ∀ a, p'.grav c (σ a) = p.grav (c ∘ τ) a) : Permuted σ τ ext' p p' := by
  have hin : ∀ c, inExt ext' c = true → inExt ext (c ∘ τ) = true := by
    intro c hc
    refine inExt_iff.2 fun x => ?_
    have := inExt_iff.1 hc (τ x)
    rw [he] at this
    exact this
  have hdx : ∀ x i, 0 ≤ i → i < ext' (τ x) → p'.dx (τ x) i = p.dx x i := by
    intro x i h1 h2
    have h3 := h2
    rw [he] at h3
    rw [hp'.dx _ _ h1 h2, hp.dx _ _ h1 h3, hx x i h1 h3.le, hx x (i + 1) (by omega) (by omega)]
    ring
  have hdc : ∀ c, inExt ext' c = true → ∀ x, p'.dx (τ x) (c (τ x)) = p.dx x ((c ∘ τ) x) := fun c hc x =>
    hdx x _ (inExt_iff.1 hc _).1 (inExt_iff.1 hc _).2
  refine ⟨hax, hdx, fun c hc x => ?_, fun c hc => ?_, hg⟩
  · rw [hp'.ds c hc, hp.ds _ (hin c hc)]
    have e : ∀ (q : PGrid d K) (c : Cell) (x : Fin 3), dsFun tr .cartesian d q.x q.dx 0 c x = ∏ y, if x = y then 1 else q.dx y (c y) := by
      intro q c x
      rw [Fin.prod_univ_three]
      rfl
    rw [e, e, ← Equiv.prod_comp τ]
    refine Finset.prod_congr rfl fun y _ => ?_
    rw [hdc c hc y]
    simp only [τ.injective.eq_iff]
  · rw [hp'.dv c hc, hp.dv _ (hin c hc)]
    have e : ∀ (q : PGrid d K) (c : Cell), dvFun tr .cartesian d q.x q.dx 0 c = ∏ y, q.dx y (c y) := by
      intro q c
      rw [Fin.prod_univ_three]
      rfl
    rw [e, e, ← Equiv.prod_comp τ]
    exact Finset.prod_congr rfl fun y _ => hdc c hc y

end PermStep

end Heracles
