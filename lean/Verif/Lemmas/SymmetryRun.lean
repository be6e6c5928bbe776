import Verif.Lemmas.Reflection
import Verif.Lemmas.Simulation
import Verif.Props.Positivity
import Verif.Spec.SymmetryRuns

/-!
# Whole runs with permuted or reversed axes
-/

namespace Heracles

variable {d n : ℕ} {K : Type} [Neg K]

/-- With the built-in conditions the order of the faces does not matter. -/
theorem bcGlob_order (hd3 : d ≤ 3) {nx : Cell} {ng : ℤ} (h0 : 0 ≤ ng) (h1 : ∀ a : Fin d, 0 < nx (ax a)) (h2 : ∀ a : Fin d, ng ≤ nx (ax a))
    {order order' : List ℕ} (ho : ∀ id ∈ order, id < 2 * d) (hp : order.Perm order') (bcs : Fin d → Fin 2 → BcKind) (G : Cell → Fields d n K) :
    bcGlob bcs nx (nghostOf d ng) order G = bcGlob bcs nx (nghostOf d ng) order' G := by
  have e : ∀ a : Fin d, nghostOf d ng (ax a) = ng := fun a => by
    unfold nghostOf
    rw [ax_val hd3, if_pos a.isLt]
  refine hp.foldl_eq' (fun x hx y hy z => ?_) _
  obtain ⟨a, f, rfl⟩ := faceId_surj (ho x hx)
  obtain ⟨b, g, rfl⟩ := faceId_surj (ho y hy)
  have g1 := h1 a
  have g2 := h2 a
  have g3 := h1 b
  have g4 := h2 b
  exact bcPure_comm hd3 (by rw [e]; exact h0) (by rw [e]; exact h0) (by simp only [globExt, e]; omega) (by simp only [globExt, e]; omega)
    (by simp only [globExt, e]; omega) (by simp only [globExt, e]; omega) z

/-- Cells of one array that take the place of cells of another one: the cell `C` of the second array is the cell `κ C` of the first, its
fields are obtained by `act`, its face `φ` takes the place of a face. -/
structure Relabel (κ : Cell → Cell) (act : Fields d n K → Fields d n K) (φ : Fin d → Fin 2 → Fin d × Fin 2) (ext ext' nghost nghost' : Cell) : Prop where
  mem : ∀ C, inExt ext' C = true ↔ inExt ext (κ C) = true
  layer : ∀ a f C, InGhostLayer ext' (nghost' (ax (φ a f).1)) (ax (φ a f).1) (φ a f).2 C ↔ InGhostLayer ext (nghost (ax a)) (ax a) f (κ C)
  src : ∀ k a f C, κ (condSrc k ext' (nghost' (ax (φ a f).1)) (ax (φ a f).1) (φ a f).2 C) = condSrc k ext (nghost (ax a)) (ax a) f (κ C)
  cond : ∀ k a f s, condAct k (φ a f).1 (act s) = act (condAct k a s)

/-- The face that takes the place of a face, by numbers. -/
def faceImage (φ : Fin d → Fin 2 → Fin d × Fin 2) (id : ℕ) : ℕ :=
  if h : id / 2 < d then faceId (φ ⟨id / 2, h⟩ (Fin.ofNat 2 (id % 2))).1 (φ ⟨id / 2, h⟩ (Fin.ofNat 2 (id % 2))).2 else id

theorem faceImage_faceId (φ : Fin d → Fin 2 → Fin d × Fin 2) (a : Fin d) (f : Fin 2) : faceImage φ (faceId a f) = faceId (φ a f).1 (φ a f).2 := by
  have h1 : faceId a f / 2 = a.val := by unfold faceId; omega
  have h2 : faceId a f % 2 = f.val := by unfold faceId; omega
  unfold faceImage
  simp only [h1, h2, a.isLt, dite_true, Fin.eta, Fin.ofNat_val_eq_self]

section
variable {κ : Cell → Cell} {act : Fields d n K → Fields d n K} {φ : Fin d → Fin 2 → Fin d × Fin 2}

theorem bcPure_relabel {ext ext' nghost nghost' : Cell} (h : Relabel κ act φ ext ext' nghost nghost') {bcs bcs' : Fin d → Fin 2 → BcKind}
    (hb : ∀ a f, bcs' (φ a f).1 (φ a f).2 = bcs a f) (V : Cell → Fields d n K) (a : Fin d) (f : Fin 2) :
    bcPure bcs' (fun _ _ => true) ext' nghost' (fun C => act (V (κ C))) (faceImage φ (faceId a f)) =
      fun C => act (bcPure bcs (fun _ _ => true) ext nghost V (faceId a f) (κ C)) := by
  funext C
  rw [faceImage_faceId, bcPure_faceId, bcPure_faceId, if_pos rfl, if_pos rfl, condPure_eq, condPure_eq, hb]
  have e : (inExt ext' C = true ∧ InGhostLayer ext' (nghost' (ax (φ a f).1)) (ax (φ a f).1) (φ a f).2 C) =
      (inExt ext (κ C) = true ∧ InGhostLayer ext (nghost (ax a)) (ax a) f (κ C)) := propext (and_congr (h.mem C) (h.layer a f C))
  simp only [e]
  split_ifs
  · rw [h.src, h.cond]
  · rfl

theorem bcGlob_relabel {nx nx' nghost nghost' : Cell} (h : Relabel κ act φ (globExt nx nghost) (globExt nx' nghost') nghost nghost')
    {bcs bcs' : Fin d → Fin 2 → BcKind} (hb : ∀ a f, bcs' (φ a f).1 (φ a f).2 = bcs a f) {order : List ℕ} (ho : ∀ id ∈ order, id < 2 * d)
    {G G' : Cell → Fields d n K} (hG : ∀ C, G' (wrap nx' (C - nghost')) = act (G (wrap nx (κ C - nghost)))) :
    bcGlob bcs' nx' nghost' (order.map (faceImage φ)) G' = fun C => act (bcGlob bcs nx nghost order G (κ C)) := by
  unfold bcGlob
  suffices hs : ∀ V : Cell → Fields d n K, (order.map (faceImage φ)).foldl (bcPure bcs' (fun _ _ => true) (globExt nx' nghost') nghost') (fun C => act (V (κ C))) =
      fun C => act (order.foldl (bcPure bcs (fun _ _ => true) (globExt nx nghost) nghost) V (κ C)) by
    rw [← hs, show (fun C => G' (wrap nx' (C - nghost'))) = fun C => act (G (wrap nx (κ C - nghost))) from funext hG]
  induction order with
  | nil => exact fun V => rfl
  | cons id l ih =>
    intro V
    obtain ⟨a, f, rfl⟩ := faceId_surj (ho id (by simp))
    rw [List.map_cons, List.foldl_cons, List.foldl_cons, bcPure_relabel h hb]
    exact ih (fun id h => ho id (by simp [h])) _

end

/-- The cells of one domain that take the place of cells of another one. -/
structure DomainMap (μ : Cell → Cell) (nx nx' : Cell) : Prop where
  pos : ∀ a, 0 < nx' a
  box : ∀ g, inBox 0 nx' g ↔ inBox 0 nx (μ g)
  surj : Function.Surjective μ
  wrap : ∀ C, wrap nx (μ C) = μ (wrap nx' C)

/-- The same in the arrays with ghosts. -/
def withGhosts (nghost : Cell) (μ : Cell → Cell) (C : Cell) : Cell := μ (C - nghost) + nghost

/-- The face numbers of a run name all faces. -/
theorem faceImage_perm {φ : Fin d → Fin 2 → Fin d × Fin 2} (hφ : Function.Bijective fun q : Fin d × Fin 2 => φ q.1 q.2) {order : List ℕ}
    (ho : order.Perm (List.range (2 * d))) : (order.map (faceImage φ)).Perm (List.range (2 * d)) := by
  refine (ho.map _).trans ((List.perm_ext_iff_of_nodup ?_ List.nodup_range).2 fun id => ?_)
  · refine (List.nodup_map_iff_inj_on List.nodup_range).2 fun x hx y hy e => ?_
    obtain ⟨a, f, rfl⟩ := faceId_surj (List.mem_range.1 hx)
    obtain ⟨b, g, rfl⟩ := faceId_surj (List.mem_range.1 hy)
    rw [faceImage_faceId, faceImage_faceId] at e
    unfold faceId at e
    have h1 : φ a f = φ b g := Prod.ext (Fin.ext (by omega)) (Fin.ext (by omega))
    have := hφ.1 (a₁ := (a, f)) (a₂ := (b, g)) h1
    simp only [Prod.mk.injEq] at this
    rw [this.1, this.2]
  · rw [List.mem_map, List.mem_range]
    constructor
    · rintro ⟨x, hx, rfl⟩
      obtain ⟨a, f, rfl⟩ := faceId_surj (List.mem_range.1 hx)
      rw [faceImage_faceId]
      unfold faceId
      omega
    · intro h
      obtain ⟨a, f, rfl⟩ := faceId_surj h
      obtain ⟨⟨b, g⟩, e⟩ := hφ.2 (a, f)
      refine ⟨faceId b g, List.mem_range.2 (by unfold faceId; omega), ?_⟩
      rw [faceImage_faceId]
      simp only at e
      rw [e]

section Relabel
variable {μ : Cell → Cell} {nx nx' : Cell} {ng : ℤ} {X X' : Fin 3 → ℤ → ℝ} {order order' : List ℕ}

theorem bcGlob_seen {act : Fields d n K → Fields d n K} {φ : Fin d → Fin 2 → Fin d × Fin 2} (hd3 : d ≤ 3) (h0 : 0 ≤ ng) (h2 : ∀ a : Fin d, ng ≤ nx' (ax a)) (hm : DomainMap μ nx nx')
    (h : Relabel (withGhosts (nghostOf d ng) μ) act φ (globExt nx (nghostOf d ng)) (globExt nx' (nghostOf d ng)) (nghostOf d ng) (nghostOf d ng))
    (hφ : Function.Bijective fun q : Fin d × Fin 2 => φ q.1 q.2) {bcs bcs' : Fin d → Fin 2 → BcKind} (hb : ∀ a f, bcs' (φ a f).1 (φ a f).2 = bcs a f)
    (ho : order.Perm (List.range (2 * d))) (ho' : order'.Perm (List.range (2 * d))) {G G' : Cell → Fields d n K}
    (hG : ∀ g, inBox 0 nx' g → G' g = act (G (μ g))) :
    bcGlob bcs' nx' (nghostOf d ng) order' G' = fun C => act (bcGlob bcs nx (nghostOf d ng) order G (withGhosts (nghostOf d ng) μ C)) := by
  have e : order'.Perm (order.map (faceImage φ)) := ho'.trans (faceImage_perm hφ ho).symm
  have hid : ∀ (l : List ℕ), l.Perm (List.range (2 * d)) → ∀ id ∈ l, id < 2 * d := fun l hl id hi => List.mem_range.1 (hl.mem_iff.1 hi)
  rw [bcGlob_order hd3 h0 (fun a => hm.pos _) h2 (hid _ ho') e, bcGlob_relabel h hb (hid _ ho)]
  intro C
  rw [hG (wrap nx' (C - nghostOf d ng)) fun a => ⟨Int.emod_nonneg _ (hm.pos a).ne', Int.emod_lt_of_pos _ (hm.pos a)⟩, ← hm.wrap]
  unfold withGhosts
  rw [add_sub_cancel_right]

theorem isRate_seen {eos : EoS ℝ} {lo : ℝ} {tr : Trig ℝ} (hm : DomainMap μ nx nx')
    (hmem : ∀ C, inExt (globExt nx' (nghostOf d ng)) C = true ↔ inExt (globExt nx (nghostOf d ng)) (withGhosts (nghostOf d ng) μ C) = true)
    {W W' : Cell → Fields d n ℝ}
    (hr : ∀ C, inExt (globExt nx' (nghostOf d ng)) C = true → (globRank eos nx' (nghostOf d ng) X' W').rate eos tr .cartesian C =
      (globRank eos nx (nghostOf d ng) X W).rate eos tr .cartesian (withGhosts (nghostOf d ng) μ C)) {m : ℝ}
    (h : IsRate lo eos tr .cartesian nx (nghostOf d ng) X W m) : IsRate lo eos tr .cartesian nx' (nghostOf d ng) X' W' m := by
  refine ⟨h.ge, fun C hC => ?_, ?_⟩
  · rw [hr C hC]
    exact h.le _ ((hmem C).1 hC)
  · rcases h.mem with e | ⟨C, hC, e⟩
    · exact Or.inl e
    · obtain ⟨g, hg⟩ := hm.surj (C - nghostOf d ng)
      have hk : withGhosts (nghostOf d ng) μ (g + nghostOf d ng) = C := by
        unfold withGhosts
        rw [add_sub_cancel_right, hg, sub_add_cancel]
      have hC' : inExt (globExt nx' (nghostOf d ng)) (g + nghostOf d ng) = true := (hmem _).2 (by rw [hk]; exact hC)
      exact Or.inr ⟨_, hC', by rw [hr _ hC', hk, e]⟩

theorem bad_seen {act : Fields d n ℝ → Fields d n ℝ} {p p' : ProgParams d n} {Gr Gr' : (Cell → Fields d n ℝ) → Cell → Fin d → ℝ} (hm : DomainMap μ nx nx')
    (hi : ∀ s, internal (act s) = internal s) (W : Cell → Fields d n ℝ) :
    (globHydro p' nx' ng X' Gr' order').bad (fun C => act (W (withGhosts (nghostOf d ng) μ C))) = (globHydro p nx ng X Gr order).bad W := by
  rw [Bool.eq_iff_iff, globHydro_bad, globHydro_bad]
  simp only [hi, withGhosts, add_sub_cancel_right]
  constructor
  · rintro ⟨g, hg, h⟩
    exact ⟨μ g, (hm.box g).1 hg, h⟩
  · rintro ⟨g, hg, h⟩
    obtain ⟨g', rfl⟩ := hm.surj g
    exact ⟨g', (hm.box g').2 hg, h⟩

end Relabel

/-! ### Permuted axes -/

section Perm
variable {σ : Equiv.Perm (Fin d)} {τ : Equiv.Perm (Fin 3)}

theorem perm_lt (hd : d ≤ 3) (hτ : ∀ a : Fin d, τ (ax a) = ax (σ a)) (x : Fin 3) : (τ x).val < d ↔ x.val < d := by
  have h1 : ∀ x : Fin 3, x.val < d → (τ x).val < d := by
    intro x hx
    have e : x = ax (⟨x.val, hx⟩ : Fin d) := by apply Fin.ext; rw [ax_val hd]
    rw [e, hτ, ax_val hd]
    exact Fin.isLt _
  have h2 : ∀ x : Fin 3, (τ x).val < d → x.val < d := by
    intro x hx
    have e : τ x = ax (σ (σ.symm ⟨(τ x).val, hx⟩)) := by apply Fin.ext; rw [ax_val hd]; simp
    rw [← hτ] at e
    rw [τ.injective e, ax_val hd]
    exact Fin.isLt _
  exact ⟨h2 x, h1 x⟩

theorem nghost_perm (hd : d ≤ 3) (hτ : ∀ a : Fin d, τ (ax a) = ax (σ a)) (ng : ℤ) (x : Fin 3) : nghostOf d ng (τ x) = nghostOf d ng x := by
  simp only [nghostOf, perm_lt hd hτ]

theorem update_comp_perm {V : Type} (C : Fin 3 → V) (x : Fin 3) (v : V) : Function.update C (τ x) v ∘ τ = Function.update (C ∘ τ) x v := by
  funext y
  by_cases h : y = x
  · subst h
    simp
  · rw [Function.update_of_ne h, Function.comp_apply, Function.update_of_ne fun e => h (τ.injective e), Function.comp_apply]

theorem Fields.perm_flip (s : Fields d n ℝ) (a : Fin d) : (s.perm σ).flip (σ a) = (s.flip a).perm σ := by
  refine Fields.ext rfl ?_ rfl rfl
  funext i
  show _ = (s.flip a).rhou (σ.symm i)
  rw [Fields.flip_rhou, Fields.flip_rhou]
  simp only [Fields.perm, Equiv.symm_apply_eq]

theorem relabel_perm (hd : d ≤ 3) (hτ : ∀ a : Fin d, τ (ax a) = ax (σ a)) {nx nx' : Cell} (hn : ∀ x, nx' (τ x) = nx x) (ng : ℤ) :
    Relabel (n := n) (K := ℝ) (fun C => C ∘ τ) (Fields.perm σ) (fun a f => (σ a, f)) (globExt nx (nghostOf d ng)) (globExt nx' (nghostOf d ng)) (nghostOf d ng)
      (nghostOf d ng) := by
  have he : ∀ x, globExt nx' (nghostOf d ng) (τ x) = globExt nx (nghostOf d ng) x := fun x => by
    simp only [globExt, hn, nghost_perm hd hτ]
  refine ⟨fun C => ?_, fun a f C => ?_, fun k a f C => ?_, fun k a f s => ?_⟩
  · rw [inExt_iff, inExt_iff]
    constructor
    · intro h x
      rw [← he]
      exact h (τ x)
    · intro h x
      obtain ⟨y, rfl⟩ := τ.surjective x
      rw [he]
      exact h y
  · simp only [InGhostLayer, ← hτ, he, nghost_perm hd hτ, Function.comp_apply]
  · simp only [← hτ, nghost_perm hd hτ]
    cases k
    · simp only [condSrc, nearest, update_comp_perm, interiorLayer, he]
    · rfl
    · simp only [condSrc, mirror, update_comp_perm, interiorLayer, ghostDepth, he, Function.comp_apply]
    · rfl
  · cases k
    case reflexive => exact Fields.perm_flip s a
    all_goals rfl

theorem wrap_perm (hd : d ≤ 3) (hτ : ∀ a : Fin d, τ (ax a) = ax (σ a)) {nx nx' : Cell} (hn : ∀ x, nx' (τ x) = nx x) (ng : ℤ) (C : Cell) :
    wrap nx' (C - nghostOf d ng) ∘ τ = wrap nx (C ∘ τ - nghostOf d ng) := by
  funext x
  simp only [wrap, Function.comp_apply, Pi.sub_apply, hn, nghost_perm hd hτ]

theorem kinetic_perm (s : Fields d n ℝ) : kinetic (s.perm σ) = kinetic s := by
  simp only [kinetic, Fields.perm]
  rw [sum_perm σ fun i => s.rhou i ^ 2]

theorem internal_perm (s : Fields d n ℝ) : internal (s.perm σ) = internal s := by
  unfold internal
  rw [kinetic_perm]
  rfl

theorem Fields.perm_cons (s : Fields d n ℝ) : (s.perm σ).cons = s.cons.perm σ := rfl

theorem primGlob_perm (eos : EoS ℝ) (κ : Cell → Cell) (W : Cell → Fields d n ℝ) :
    primGlob eos (fun C => (W (κ C)).perm σ) = fun C => (primGlob eos W (κ C)).perm σ := by
  funext C
  rw [primGlob_toPrim, primGlob_toPrim]
  show VelPres.mk (toPrim eos ((W (κ C)).cons.perm σ)).u (toPrim eos ((W (κ C)).cons.perm σ)).P = _
  rw [toPrim_perm]
  rfl

theorem consFields_perm (eos : EoS ℝ) (s : Prim d ℝ) (fx : Fin n → ℝ) : consFields eos (s.perm σ) fx = (consFields eos s fx).perm σ := by
  have e := toCons_perm σ eos s
  have e2 := congrArg Cons.E e
  exact Fields.ext rfl (congrArg Cons.rhou e) e2 rfl

theorem sum2_perm {F F' : Fin d → Fin d → ℝ} (h : ∀ a i, F' (σ a) (σ i) = F a i) : ∑ a, ∑ i, F' a i = ∑ a, ∑ i, F a i := by
  rw [← Equiv.sum_comp σ]
  refine Finset.sum_congr rfl fun a _ => ?_
  rw [← Equiv.sum_comp σ]
  exact Finset.sum_congr rfl fun i _ => h a i

/-- The velocity divergence of the pressure fix, one direction and one component. -/
noncomputable def divTerm (eos : EoS ℝ) (r0 : Fin 2 → Fin d → Fields d n ℝ) (rm rp : Fin d → Fin 2 → Fin d → Fields d n ℝ) (ds : Fin 3 → ℝ)
    (dsp : Fin d → Fin 3 → ℝ) (dv : ℝ) (idim ipos : Fin d) : ℝ :=
  (((toPrim eos (r0 1 idim).cons).u ipos + (toPrim eos (rp idim 0 idim).cons).u ipos) / 2 * dsp idim (ax ipos) -
    ((toPrim eos (rm idim 1 idim).cons).u ipos + (toPrim eos (r0 0 idim).cons).u ipos) / 2 * ds (ax ipos)) / dv

/-- The same for the flux of internal energy. -/
noncomputable def divTermE (eos : EoS ℝ) (s : Fields d n ℝ) (um uPl : Fin d → Fields d n ℝ) (r0 : Fin 2 → Fin d → Fields d n ℝ)
    (rm rp : Fin d → Fin 2 → Fin d → Fields d n ℝ) (ds : Fin 3 → ℝ) (dsp : Fin d → Fin 3 → ℝ) (dv : ℝ) (idim ipos : Fin d) : ℝ :=
  (((toPrim eos (r0 1 idim).cons).u ipos + (toPrim eos (rp idim 0 idim).cons).u ipos) / 2 *
      (if ((toPrim eos (r0 1 idim).cons).u ipos + (toPrim eos (rp idim 0 idim).cons).u ipos) / 2 > 0 then s.E - s.cons.ek else (uPl idim).E - (uPl idim).cons.ek) *
        dsp idim (ax ipos) - ((toPrim eos (rm idim 1 idim).cons).u ipos + (toPrim eos (r0 0 idim).cons).u ipos) / 2 *
      (if ((toPrim eos (rm idim 1 idim).cons).u ipos + (toPrim eos (r0 0 idim).cons).u ipos) / 2 < 0 then s.E - s.cons.ek else (um idim).E - (um idim).cons.ek) *
        ds (ax ipos)) / dv

theorem pressureFixEnergy_terms (eos : EoS ℝ) (dt eps : ℝ) (s q : Fields d n ℝ) (um uPl : Fin d → Fields d n ℝ)
    (r0 : Fin 2 → Fin d → Fields d n ℝ) (rm rp : Fin d → Fin 2 → Fin d → Fields d n ℝ) (ds : Fin 3 → ℝ) (dsp : Fin d → Fin 3 → ℝ) (dv : ℝ) :
    pressureFixEnergy eos dt eps s q um uPl r0 rm rp ds dsp dv =
      s.E - s.cons.ek + ((if s.E - s.cons.ek < eps / 10 * s.cons.ek then 0 else (s.E - s.cons.ek) * (s.E - s.cons.ek) / (s.cons.ek * s.cons.ek * eps * eps)) *
        (q.E - q.cons.ek - (s.E - s.cons.ek)) +
        (1 - if s.E - s.cons.ek < eps / 10 * s.cons.ek then 0 else (s.E - s.cons.ek) * (s.E - s.cons.ek) / (s.cons.ek * s.cons.ek * eps * eps)) *
        (dt * (-(toPrim eos s.cons).P * ∑ a, ∑ i, divTerm eos r0 rm rp ds dsp dv a i - ∑ a, ∑ i, divTermE eos s um uPl r0 rm rp ds dsp dv a i))) +
        1 / 2 * ∑ i, s.rhou i * s.rhou i / s.rho := rfl

theorem pressureFixEnergy_perm (eos : EoS ℝ) (dt eps : ℝ) (s q : Fields d n ℝ) {um uPl um' uPl' : Fin d → Fields d n ℝ}
    {r0 r0' : Fin 2 → Fin d → Fields d n ℝ} {rm rp rm' rp' : Fin d → Fin 2 → Fin d → Fields d n ℝ} {ds ds' : Fin 3 → ℝ} {dsp dsp' : Fin d → Fin 3 → ℝ} (dv : ℝ)
    (h1 : ∀ a, um' (σ a) = (um a).perm σ) (h2 : ∀ a, uPl' (σ a) = (uPl a).perm σ) (h3 : ∀ i a, r0' i (σ a) = (r0 i a).perm σ)
    (h4 : ∀ b i a, rm' (σ b) i (σ a) = (rm b i a).perm σ) (h5 : ∀ b i a, rp' (σ b) i (σ a) = (rp b i a).perm σ)
    (h6 : ∀ a, ds' (ax (σ a)) = ds (ax a)) (h7 : ∀ b a, dsp' (σ b) (ax (σ a)) = dsp b (ax a)) :
    pressureFixEnergy eos dt eps (s.perm σ) (q.perm σ) um' uPl' r0' rm' rp' ds' dsp' dv =
      pressureFixEnergy eos dt eps s q um uPl r0 rm rp ds dsp dv := by
  have eu : ∀ (f : Prim d ℝ) i, (f.perm σ).u (σ i) = f.u i := fun f i => by simp [Prim.perm]
  have eP : ∀ f : Prim d ℝ, (f.perm σ).P = f.P := fun _ => rfl
  have eE : ∀ f : Fields d n ℝ, (f.perm σ).E = f.E := fun _ => rfl
  have e0 : ∑ i, (s.perm σ).rhou i * (s.perm σ).rhou i / (s.perm σ).rho = ∑ i, s.rhou i * s.rhou i / s.rho := sum_perm σ fun i => s.rhou i * s.rhou i / s.rho
  have e1 := sum2_perm (σ := σ) (F := divTerm eos r0 rm rp ds dsp dv) (F' := divTerm eos r0' rm' rp' ds' dsp' dv) fun a i => by
    unfold divTerm
    rw [h3, h3, h4, h5, h6, h7]
    simp only [Fields.perm_cons, toPrim_perm, eu]
  have e2 := sum2_perm (σ := σ) (F := divTermE eos s um uPl r0 rm rp ds dsp dv) (F' := divTermE eos (s.perm σ) um' uPl' r0' rm' rp' ds' dsp' dv) fun a i => by
    unfold divTermE
    rw [h1, h2, h3, h3, h4, h5, h6, h7]
    simp only [Fields.perm_cons, toPrim_perm, eu, Cons.perm_ek, eE]
  rw [pressureFixEnergy_terms, pressureFixEnergy_terms, e0, e1, e2]
  simp only [Fields.perm_cons, toPrim_perm, Cons.perm_ek, eE, eP]

theorem fixPure_perm (hd : d ≤ 3) {ext' : Cell} {G G' : PGrid d ℝ} (h : Permuted σ τ ext' G G') (eos : EoS ℝ) (dt eps : ℝ) {U U' : Cell → Fields d n ℝ}
    (hU : ∀ c, inExt ext' c = true → U' c = (U (c ∘ τ)).perm σ) {R R' : Cell → Fin 2 → Fin d → Fields d n ℝ} {c : Cell} (hin : inExt ext' c = true)
    (hc : StencilIn d ext' c) (hR0 : ∀ side a, R' c side (σ a) = (R (c ∘ τ) side a).perm σ)
    (hR : ∀ (b : Fin d) (k : ℤ), -1 ≤ k → k ≤ 1 → ∀ side a, R' (nb c (ax b) k) side (σ a) = (R (nb c (ax b) k ∘ τ) side a).perm σ) (q : Fields d n ℝ) :
    fixPure eos G' dt eps U' R' (q.perm σ) c = fixPure eos G dt eps U R q (c ∘ τ) := by
  have em : ∀ (a : Fin d) c, lindex a.val c = nb c (ax a) (-1) := fun a c => lindex_eq hd a c
  have ep : ∀ (a : Fin d) c, rindex a.val c = nb c (ax a) 1 := fun a c => rindex_eq hd a c
  have en : ∀ (a : Fin d) (s : ℤ), nb c (ax (σ a)) s ∘ τ = nb (c ∘ τ) (ax a) s := fun a s => by rw [← h.ax, nb_perm]
  unfold fixPure
  rw [hU c hin, internal_perm, kinetic_perm]
  split_ifs
  · rw [h.dv c hin]
    refine pressureFixEnergy_perm eos dt eps _ _ _ (fun a => ?_) (fun a => ?_) hR0 (fun b i a => ?_) (fun b i a => ?_) (fun a => ?_) (fun b a => ?_)
    · rw [em, em, hU _ (hc (σ a) (-1) le_rfl (by norm_num)), en]
    · rw [ep, ep, hU _ (hc (σ a) 1 (by norm_num) le_rfl), en]
    · simp only [em]
      rw [hR _ _ le_rfl (by norm_num), en]
    · simp only [ep]
      rw [hR _ _ (by norm_num) le_rfl, en]
    · rw [← h.ax, h.ds c hin]
    · simp only [ep]
      rw [← h.ax a, h.ds _ (hc (σ b) 1 (by norm_num) le_rfl), en]
  · rfl

theorem heatVal_perm (k : UserStepKind) (t dt : ℝ) (q : Fields d n ℝ) : heatVal k t dt (q.perm σ) = (heatVal k t dt q).perm σ := by
  unfold heatVal
  cases k
  case heatNickel =>
    simp only
    split_ifs <;> rfl
  all_goals rfl

variable {p p' : ProgParams d n}

theorem progVal_perm (hd : d ≤ 3) (hp : p.Permuted σ p') {ext' : Cell} {G G' : PGrid d ℝ} (h : Heracles.Permuted σ τ ext' G G') (t dt : ℝ)
    {U U' : Cell → Fields d n ℝ} {up up' : Cell → VelPres d ℝ} (hU : ∀ c, inExt ext' c = true → U' c = (U (c ∘ τ)).perm σ)
    (hv : ∀ c, inExt ext' c = true → up' c = (up (c ∘ τ)).perm σ) {ng : ℤ} (hng : 2 ≤ ng) {c : Cell} (hc : layer d ext' ng c) :
    progVal p' G' t dt U' up' c = (progVal p G t dt U up (c ∘ τ)).perm σ := by
  have hs := stepVal_perm (n := n) hd h p.hydro.lim p.hydro.sol p.hydro.eos p.hydro.tr dt hU hv hng hc
  unfold progVal
  simp only
  rw [hp.cart, hp.cart', hp.lim, hp.sol, hp.eos, hp.tr, hp.fix, hp.step, hs]
  cases p.fix with
  | none => exact heatVal_perm _ _ _ _
  | some eps =>
    simp only
    rw [fixPure_perm hd h _ _ _ hU (layer_inExt hc (by omega)) (layer_stencil hd hc (by omega))
      (fun side a => recVal_perm h _ _ _ (dt / 2) hU hv (layer_stencil hd hc (by omega)) side a)
      (fun _ _ h1 h2 side b => recVal_perm h _ _ _ (dt / 2) hU hv (layer_stencil hd (layer_nb hd hc _ h1 h2) (by omega)) side b),
      ← heatVal_perm]
    rfl

/-- The domain with permuted axes. -/
theorem domainMap_perm {nx nx' : Cell} (hpos : ∀ a, 0 < nx a) (hn : ∀ x, nx' (τ x) = nx x) : DomainMap (fun g => g ∘ τ) nx nx' where
  pos := fun a => by
    obtain ⟨x, rfl⟩ := τ.surjective a
    rw [hn]
    exact hpos x
  box := fun g => by
    constructor
    · intro h x
      have := h (τ x)
      rw [hn] at this
      exact this
    · intro h x
      obtain ⟨y, rfl⟩ := τ.surjective x
      have := h y
      rw [hn]
      exact this
  surj := fun g => ⟨g ∘ τ.symm, by funext x; simp⟩
  wrap := fun C => by
    funext x
    simp only [Heracles.wrap, Function.comp_apply, hn]

theorem withGhosts_perm (hd : d ≤ 3) (hτ : ∀ a : Fin d, τ (ax a) = ax (σ a)) (ng : ℤ) : withGhosts (nghostOf d ng) (fun g => g ∘ τ) = fun C => C ∘ τ := by
  funext C x
  simp only [withGhosts, Function.comp_apply, Pi.sub_apply, Pi.add_apply, nghost_perm hd hτ, sub_add_cancel]

theorem rate_perm (hd : d ≤ 3) (hτ : ∀ a : Fin d, τ (ax a) = ax (σ a)) {nx nx' : Cell} (hn : ∀ x, nx' (τ x) = nx x) {ng : ℤ} {X X' : Fin 3 → ℤ → ℝ}
    (δ : Fin 3 → ℝ) (hx : ∀ x i, 0 ≤ i → i ≤ nx x + 2 * nghostOf d ng x → X' (τ x) i = X x i + δ x) (eos : EoS ℝ) (tr : Trig ℝ) (W : Cell → Fields d n ℝ)
    {C : Cell} (hC : inExt (globExt nx' (nghostOf d ng)) C = true) :
    (globRank eos nx' (nghostOf d ng) X' fun C => (W (C ∘ τ)).perm σ).rate eos tr .cartesian C =
      (globRank eos nx (nghostOf d ng) X W).rate eos tr .cartesian (C ∘ τ) := by
  unfold RankData.rate
  rw [← Equiv.sum_comp σ]
  refine Finset.sum_congr rfl fun a _ => ?_
  have h1 := inExt_iff.1 hC (τ (ax a))
  simp only [globExt, hn, nghost_perm hd hτ] at h1
  simp only [globRank, primGlob_perm, cellLength, reduceCtorEq, if_false, ← hτ, Function.comp_apply]
  rw [hx _ _ h1.1 (by omega), hx _ _ (by omega) (by omega)]
  have e : ∀ q : VelPres d ℝ, (q.perm σ).u (σ a) = q.u a := fun q => by simp [VelPres.perm]
  rw [e, add_sub_add_right_eq_sub]
  rfl

theorem globHydro_perm (hd : d ≤ 3) (hτ : ∀ a : Fin d, τ (ax a) = ax (σ a)) {nx nx' : Cell} (hpos : ∀ a, 0 < nx a) (hn : ∀ x, nx' (τ x) = nx x) {ng : ℤ}
    (hng : 2 ≤ ng) (hsz : ∀ a : Fin d, ng ≤ nx' (ax a)) (hp : p.Permuted σ p') {X X' : Fin 3 → ℤ → ℝ} (δ : Fin 3 → ℝ)
    (hx : ∀ x i, 0 ≤ i → i ≤ nx x + 2 * nghostOf d ng x → X' (τ x) i = X x i + δ x) {Gr Gr' : (Cell → Fields d n ℝ) → Cell → Fin d → ℝ}
    (hg : ∀ W C a, inExt (globExt nx' (nghostOf d ng)) C = true → Gr' (fun C => (W (C ∘ τ)).perm σ) C (σ a) = Gr W (C ∘ τ) a)
    {order order' : List ℕ} (ho : order.Perm (List.range (2 * d))) (ho' : order'.Perm (List.range (2 * d))) :
    (globHydro p nx ng X Gr order).Related 1 (fun W W' => W' = fun C => (W (C ∘ τ)).perm σ) (globHydro p' nx' ng X' Gr' order') := by
  have hm := domainMap_perm hpos hn
  have hk := withGhosts_perm hd hτ ng
  have hrl := relabel_perm (n := n) hd hτ hn ng
  have he : ∀ x, globExt nx' (nghostOf d ng) (τ x) = globExt nx (nghostOf d ng) x := fun x => by
    simp only [globExt, hn, nghost_perm hd hτ]
  refine ⟨?_, ?_, ?_⟩
  · rintro W _ rfl
    obtain ⟨m, hr⟩ := isRate_exists p.hydro.lo p.hydro.eos p.hydro.tr p.hydro.geom nx (nghostOf d ng) X W
    rw [globHydro_timeStep hr, one_mul]
    refine globHydro_timeStep ?_
    rw [hp.lo, hp.eos, hp.tr, hp.cart']
    rw [hp.cart] at hr
    exact isRate_seen hm (fun C => by rw [hk]; exact hrl.mem C) (fun C hC => by rw [hk]; exact rate_perm hd hτ hn δ hx _ _ W hC) hr
  · rintro W _ rfl
    have := bad_seen (p := p) (p' := p') (ng := ng) (X := X) (X' := X') (order := order) (order' := order') (Gr := Gr) (Gr' := Gr') hm (internal_perm (σ := σ)) W
    rw [hk] at this
    exact this
  · rintro W _ rfl t dt
    rw [one_mul, one_mul]
    have := bcGlob_seen (n := n) (order := order) (order' := order') (φ := fun a f => (σ a, f)) hd (by omega) hsz hm (by rw [hk]; exact hrl)
      ⟨fun x y e => by
        simp only [Prod.mk.injEq, EmbeddingLike.apply_eq_iff_eq] at e
        exact Prod.ext e.1 e.2, fun y => ⟨(σ.symm y.1, y.2), by simp⟩⟩ hp.bcs ho ho'
      (G := fun g => progVal p (globGrid p.hydro.tr p.hydro.geom X (Gr W)) t dt W (primGlob p.hydro.eos W) (g + nghostOf d ng))
      (G' := fun g => progVal p' (globGrid p'.hydro.tr p'.hydro.geom X' (Gr' fun C => (W (C ∘ τ)).perm σ)) t dt (fun C => (W (C ∘ τ)).perm σ)
        (primGlob p'.hydro.eos fun C => (W (C ∘ τ)).perm σ) (g + nghostOf d ng)) (fun g hgb => by
        rw [hp.cart, hp.cart', hp.tr, hp.eos]
        have hl : layer d (globExt nx' (nghostOf d ng)) ng (g + nghostOf d ng) := layer_glob.2 (by rw [add_sub_cancel_right]; exact hgb)
        have hP := geoOf_permuted hd hτ he (globGeoOf p.hydro.tr .cartesian (globExt nx (nghostOf d ng)) X (Gr W))
          (globGeoOf p.hydro.tr .cartesian (globExt nx' (nghostOf d ng)) X' (Gr' fun C => (W (C ∘ τ)).perm σ)) δ
          (fun x i h1 h2 => hx x i h1 (by simpa only [globExt] using h2)) (fun c hc a => hg W c a hc)
        have := progVal_perm (t := t) (dt := dt) hd hp hP (U := W) (up := primGlob p.hydro.eos W) (fun _ _ => rfl) (up' := primGlob p.hydro.eos fun C => (W (C ∘ τ)).perm σ)
          (fun c _ => congrFun (primGlob_perm p.hydro.eos (fun C => C ∘ τ) W) c) hng hl
        rw [this]
        congr 2
        exact (congrFun hk (g + nghostOf d ng)).symm.trans (by simp only [withGhosts, add_sub_cancel_right]))
    rw [hk] at this
    exact this

end Perm

/-! ### A reversed axis -/

section Mirror
variable {b : Fin d} {p p' : ProgParams d n}

theorem domainMap_reflect {nx : Cell} (hpos : ∀ a, 0 < nx a) (x : Fin 3) : DomainMap (reflect x (nx x)) nx nx where
  pos := hpos
  box := fun g => by
    constructor <;> intro h y <;> have := h y <;> by_cases e : y = x
    · subst e
      rw [reflect_self]
      simp only [Pi.zero_apply] at this ⊢
      omega
    · rw [reflect_ne e]
      exact this
    · subst e
      rw [reflect_self] at this
      simp only [Pi.zero_apply] at this ⊢
      omega
    · rw [reflect_ne e] at this
      exact this
  surj := fun g => ⟨reflect x (nx x) g, by
    funext y
    by_cases e : y = x
    · subst e
      rw [reflect_self, reflect_self]
      ring
    · rw [reflect_ne e, reflect_ne e]⟩
  wrap := fun C => by
    funext y
    by_cases e : y = x
    · subst e
      rw [reflect_self]
      simp only [Heracles.wrap, reflect_self]
      have h0 := hpos y
      have h1 := Int.emod_add_mul_ediv (C y) (nx y)
      have h2 := Int.emod_nonneg (C y) h0.ne'
      have h3 := Int.emod_lt_of_pos (C y) h0
      rw [show nx y - 1 - C y = (nx y - 1 - C y % nx y) + nx y * (-(C y / nx y)) by linear_combination h1, Int.add_mul_emod_self_left]
      exact Int.emod_eq_of_lt (by omega) (by omega)
    · rw [reflect_ne e]
      simp only [Heracles.wrap, reflect_ne e]

theorem withGhosts_reflect (nx nghost : Cell) (x : Fin 3) : withGhosts nghost (reflect x (nx x)) = reflect x (globExt nx nghost x) := by
  funext C y
  unfold withGhosts
  rw [Pi.add_apply]
  by_cases e : y = x
  · subst e
    rw [reflect_self, reflect_self]
    simp only [Pi.sub_apply, globExt]
    ring
  · rw [reflect_ne e, reflect_ne e]
    simp

theorem Fields.flip_flip_comm (s : Fields d n K) (a b : Fin d) : (s.flip b).flip a = (s.flip a).flip b := by
  refine Fields.ext rfl ?_ rfl rfl
  funext i
  simp only [Fields.flip_rhou]
  split_ifs <;> rfl

theorem inExt_reflect {ext : Cell} (x : Fin 3) (C : Cell) : inExt ext C = true ↔ inExt ext (reflect x (ext x) C) = true := by
  constructor
  · exact reflect_inExt
  · intro h
    have := reflect_inExt (x := x) h
    rwa [show reflect x (ext x) (reflect x (ext x) C) = C by
      funext y
      by_cases e : y = x
      · subst e
        rw [reflect_self, reflect_self]
        ring
      · rw [reflect_ne e, reflect_ne e]] at this

theorem reflect_update_self (x : Fin 3) (m v : ℤ) (C : Cell) : reflect x m (Function.update C x v) = Function.update (reflect x m C) x (m - 1 - v) := by
  funext y
  by_cases e : y = x
  · subst e
    rw [reflect_self, Function.update_self, Function.update_self]
  · rw [reflect_ne e, Function.update_of_ne e, Function.update_of_ne e, reflect_ne e]

theorem reflect_update_ne {x z : Fin 3} (h : z ≠ x) (m v : ℤ) (C : Cell) : reflect x m (Function.update C z v) = Function.update (reflect x m C) z v := by
  funext y
  by_cases e : y = x
  · subst e
    rw [reflect_self, Function.update_of_ne h.symm, Function.update_of_ne h.symm, reflect_self]
  · rw [reflect_ne e]
    by_cases e' : y = z
    · subst e'
      rw [Function.update_self, Function.update_self]
    · rw [Function.update_of_ne e', Function.update_of_ne e', reflect_ne e]

theorem relabel_reflect (hd : d ≤ 3) (b : Fin d) (ext nghost : Cell) :
    Relabel (n := n) (K := K) (reflect (ax b) (ext (ax b))) (Fields.flip b) (fun a f => (a, revSide b a f)) ext ext nghost nghost := by
  have hne : ∀ a : Fin d, a ≠ b → ax a ≠ ax b := fun a h e => h (ax_injective hd e)
  refine ⟨fun C => inExt_reflect _ C, fun a f C => ?_, fun k a f C => ?_, fun k a f s => ?_⟩
  · by_cases e : a = b
    · subst e
      simp only [InGhostLayer, revSide, if_true, reflect_self]
      fin_cases f <;> simp <;> omega
    · simp only [InGhostLayer, revSide, if_neg e, reflect_ne (hne a e)]
  · by_cases e : a = b
    · subst e
      cases k
      · simp only [condSrc, nearest, reflect_update_self, revSide, if_true]
        congr 1
        fin_cases f <;> simp [interiorLayer] <;> ring
      · rfl
      · simp only [condSrc, mirror, reflect_update_self, revSide, if_true]
        congr 1
        fin_cases f <;> simp [interiorLayer, ghostDepth, reflect_self] <;> ring
      · rfl
    · cases k
      · simp only [condSrc, nearest, reflect_update_ne (hne a e), revSide, if_neg e]
      · rfl
      · simp only [condSrc, mirror, reflect_update_ne (hne a e), revSide, if_neg e, ghostDepth, reflect_ne (hne a e)]
      · rfl
  · cases k
    case reflexive => exact Fields.flip_flip_comm s a b
    all_goals rfl

theorem revSide_bij (b : Fin d) : Function.Bijective fun q : Fin d × Fin 2 => ((q.1, revSide b q.1 q.2) : Fin d × Fin 2) := by
  refine ⟨fun x y e => ?_, fun y => ⟨(y.1, revSide b y.1 y.2), ?_⟩⟩
  · obtain ⟨x1, x2⟩ := x
    obtain ⟨y1, y2⟩ := y
    simp only [Prod.mk.injEq] at e
    obtain ⟨rfl, e⟩ := e
    unfold revSide at e
    split_ifs at e
    · rw [Fin.rev_injective e]
    · rw [e]
  · unfold revSide
    dsimp only
    split_ifs <;> simp

theorem ProgParams.Mirrored.bcs' (hp : p.Mirrored b p') (a : Fin d) (f : Fin 2) : p'.hydro.bcs a (revSide b a f) = p.hydro.bcs a f := by
  rw [hp.bcs]
  unfold revSide
  split_ifs <;> simp

theorem kinetic_flip (s : Fields d n ℝ) : kinetic (s.flip b) = kinetic s := by
  unfold kinetic
  congr 1
  refine Finset.sum_congr rfl fun i _ => ?_
  rw [Fields.flip_rhou]
  split_ifs
  · exact neg_sq _
  · rfl

theorem internal_flip (s : Fields d n ℝ) : internal (s.flip b) = internal s := by
  unfold internal
  rw [kinetic_flip]
  rfl

theorem primGlob_mirror (eos : EoS ℝ) (κ : Cell → Cell) (W : Cell → Fields d n ℝ) :
    primGlob eos (fun C => (W (κ C)).flip b) = fun C => (primGlob eos W (κ C)).flip b := by
  funext C
  rw [primGlob_toPrim, primGlob_toPrim, Fields.flip_cons, toPrim_flip]
  rfl

theorem consFields_flip (eos : EoS ℝ) (s : Prim d ℝ) (fx : Fin n → ℝ) : consFields eos (s.flip b) fx = (consFields eos s fx).flip b := by
  have e := toCons_flip b eos s
  have e2 := congrArg Cons.E e
  refine Fields.ext rfl ?_ e2 rfl
  funext i
  rw [Fields.flip_rhou]
  exact congrFun (congrArg Cons.rhou e) i

theorem heatVal_flip (k : UserStepKind) (t dt : ℝ) (q : Fields d n ℝ) : heatVal k t dt (q.flip b) = (heatVal k t dt q).flip b := by
  unfold heatVal
  cases k
  case heatNickel =>
    simp only
    split_ifs <;> rfl
  all_goals rfl

theorem rate_reflect (hd : d ≤ 3) {nx : Cell} {ng : ℤ} {X X' : Fin 3 → ℤ → ℝ} (L : ℝ)
    (hx : ∀ i, 0 ≤ i → i ≤ nx (ax b) + 2 * ng → X' (ax b) i = L - X (ax b) (nx (ax b) + 2 * ng - i))
    (hx' : ∀ y, y ≠ ax b → ∀ i, 0 ≤ i → i ≤ nx y + 2 * nghostOf d ng y → X' y i = X y i) (eos : EoS ℝ) (tr : Trig ℝ) (W : Cell → Fields d n ℝ)
    {C : Cell} (hC : inExt (globExt nx (nghostOf d ng)) C = true) :
    (globRank eos nx (nghostOf d ng) X' fun C => (W (reflect (ax b) (globExt nx (nghostOf d ng) (ax b)) C)).flip b).rate eos tr .cartesian C =
      (globRank eos nx (nghostOf d ng) X W).rate eos tr .cartesian (reflect (ax b) (globExt nx (nghostOf d ng) (ax b)) C) := by
  unfold RankData.rate
  refine Finset.sum_congr rfl fun a _ => ?_
  have h1 := inExt_iff.1 hC (ax a)
  simp only [globExt] at h1
  have hb : nghostOf d ng (ax b) = ng := by unfold nghostOf; rw [ax_val hd, if_pos b.isLt]
  simp only [globRank, primGlob_mirror, cellLength, reduceCtorEq, if_false]
  have eu : ∀ q : VelPres d ℝ, |(q.flip b).u a| = |q.u a| := fun q => by
    unfold VelPres.flip
    dsimp only
    split_ifs
    · exact abs_neg _
    · rfl
  rw [eu]
  have el : X' (ax a) (C (ax a) + 1) - X' (ax a) (C (ax a)) = X (ax a) (reflect (ax b) (globExt nx (nghostOf d ng) (ax b)) C (ax a) + 1) -
      X (ax a) (reflect (ax b) (globExt nx (nghostOf d ng) (ax b)) C (ax a)) := by
    by_cases e : a = b
    · subst e
      rw [hb] at h1
      rw [hx _ (by omega) (by omega), hx _ h1.1 (by omega), reflect_self]
      simp only [globExt, hb]
      rw [show nx (ax a) + 2 * ng - 1 - C (ax a) + 1 = nx (ax a) + 2 * ng - C (ax a) by ring,
        show nx (ax a) + 2 * ng - 1 - C (ax a) = nx (ax a) + 2 * ng - (C (ax a) + 1) by ring]
      ring
    · have e' : ax a ≠ ax b := fun h => e (ax_injective hd h)
      rw [hx' _ e' _ (by omega) (by omega), hx' _ e' _ h1.1 (by omega), reflect_ne e']
  rw [el]
  rfl

theorem globHydro_mirror (hd : d ≤ 3) {nx : Cell} (hpos : ∀ a, 0 < nx a) {ng : ℤ} (hng : 2 ≤ ng) (hsz : ∀ a : Fin d, ng ≤ nx (ax a))
    (hp : p.Mirrored b p') (he : p.hydro.eos.Lawful) {X X' : Fin 3 → ℤ → ℝ} (L : ℝ)
    (hx : ∀ i, 0 ≤ i → i ≤ nx (ax b) + 2 * ng → X' (ax b) i = L - X (ax b) (nx (ax b) + 2 * ng - i))
    (hx' : ∀ y, y ≠ ax b → ∀ i, 0 ≤ i → i ≤ nx y + 2 * nghostOf d ng y → X' y i = X y i) {Gr Gr' : (Cell → Fields d n ℝ) → Cell → Fin d → ℝ}
    (hg : ∀ W C a, inExt (globExt nx (nghostOf d ng)) C = true →
      Gr' (fun C => (W (reflect (ax b) (nx (ax b) + 2 * ng) C)).flip b) C a = (if a = b then -1 else 1) * Gr W (reflect (ax b) (nx (ax b) + 2 * ng) C) a)
    {order order' : List ℕ} (ho : order.Perm (List.range (2 * d))) (ho' : order'.Perm (List.range (2 * d))) {clock : Bool}
    {s : LoopState (Cell → Fields d n ℝ) ℝ} {h' : Cell → Fields d n ℝ}
    (hA : p.hydro.sol = .hllc → ∀ D, decideStep p.loop ((globHydro p nx ng X Gr order).timeStep s.h) clock s = .ok D → ∀ C, layer d (globExt nx (nghostOf d ng)) (ng - 1) C → ∀ side,
      (recVal p.hydro.lim p.hydro.eos p.hydro.tr .cartesian (globGrid p.hydro.tr .cartesian X (Gr s.h)) (D.dt / 2) s.h (primGlob p.hydro.eos s.h) C side b).cons.Adm
        p.hydro.eos) (hR : h' = fun C => (s.h (reflect (ax b) (nx (ax b) + 2 * ng) C)).flip b) :
    (globHydro p nx ng X Gr order).RelatedAt 1 (fun W W' => W' = fun C => (W (reflect (ax b) (nx (ax b) + 2 * ng) C)).flip b)
      (globHydro p' nx ng X' Gr' order') p.loop clock s h' := by
  have hb : nghostOf d ng (ax b) = ng := by unfold nghostOf; rw [ax_val hd, if_pos b.isLt]
  have hm := domainMap_reflect hpos (ax b)
  have hk := withGhosts_reflect nx (nghostOf d ng) (ax b)
  have hE : nx (ax b) + 2 * ng = globExt nx (nghostOf d ng) (ax b) := by simp only [globExt, hb]
  have hrl := relabel_reflect (n := n) (K := ℝ) hd b (globExt nx (nghostOf d ng)) (nghostOf d ng)
  subst hR
  refine ⟨?_, ?_, ?_⟩
  · obtain ⟨m, hr⟩ := isRate_exists p.hydro.lo p.hydro.eos p.hydro.tr p.hydro.geom nx (nghostOf d ng) X s.h
    rw [globHydro_timeStep hr, one_mul]
    refine globHydro_timeStep ?_
    rw [hp.lo, hp.eos, hp.tr, hp.cart', hE]
    rw [hp.cart] at hr
    exact isRate_seen hm (fun C => by rw [hk]; exact hrl.mem C) (fun C hC => by rw [hk]; exact rate_reflect hd L hx hx' _ _ s.h hC) hr
  · have := bad_seen (p := p) (p' := p') (ng := ng) (X := X) (X' := X') (order := order) (order' := order') (Gr := Gr) (Gr' := Gr') hm (internal_flip (b := b)) s.h
    rw [hk, ← hE] at this
    exact this
  · intro D hD
    rw [one_mul, one_mul]
    have := bcGlob_seen (n := n) (order := order) (order' := order') (φ := fun a f => (a, revSide b a f)) hd (by omega) hsz hm (by rw [hk]; exact hrl)
      (revSide_bij b) (bcs := p.hydro.bcs) (bcs' := p'.hydro.bcs) hp.bcs' ho ho'
      (G := fun g => progVal p (globGrid p.hydro.tr p.hydro.geom X (Gr s.h)) s.t D.dt s.h (primGlob p.hydro.eos s.h) (g + nghostOf d ng))
      (G' := fun g => progVal p' (globGrid p'.hydro.tr p'.hydro.geom X' (Gr' fun C => (s.h (reflect (ax b) (nx (ax b) + 2 * ng) C)).flip b)) s.t D.dt
        (fun C => (s.h (reflect (ax b) (nx (ax b) + 2 * ng) C)).flip b)
        (primGlob p'.hydro.eos fun C => (s.h (reflect (ax b) (nx (ax b) + 2 * ng) C)).flip b) (g + nghostOf d ng)) (fun g hgb => by
        have hl : layer d (globExt nx (nghostOf d ng)) ng (g + nghostOf d ng) := layer_glob.2 (by rw [add_sub_cancel_right]; exact hgb)
        have hP := geoOf_reflected hd (globGeoOf p.hydro.tr .cartesian (globExt nx (nghostOf d ng)) X (Gr s.h))
          (globGeoOf p.hydro.tr .cartesian (globExt nx (nghostOf d ng)) X' (Gr' fun C => (s.h (reflect (ax b) (nx (ax b) + 2 * ng) C)).flip b)) L
          (fun i h1 h2 => by rw [← hE] at h2 ⊢; exact hx i h1 h2) (fun y hy i h1 h2 => hx' y hy i h1 (by simpa only [globExt] using h2))
          (fun c hc a => by rw [← hE]; exact hg s.h c a hc)
        have hs := stepVal_reflect hd hP p.hydro.lim p.hydro.sol he p.hydro.tr D.dt (U := s.h) (up := primGlob p.hydro.eos s.h)
          (U' := fun C => (s.h (reflect (ax b) (nx (ax b) + 2 * ng) C)).flip b)
          (up' := primGlob p.hydro.eos fun C => (s.h (reflect (ax b) (nx (ax b) + 2 * ng) C)).flip b) (fun c _ => by rw [hE])
          (fun c _ => by rw [hE]; exact congrFun (primGlob_mirror p.hydro.eos _ s.h) c) hng (fun hs => hA hs D hD) hl
        have ek : reflect (ax b) (globExt nx (nghostOf d ng) (ax b)) (g + nghostOf d ng) = reflect (ax b) (nx (ax b)) g + nghostOf d ng := by
          rw [← hk]
          simp only [withGhosts, add_sub_cancel_right]
        unfold progVal
        simp only
        rw [hp.cart, hp.cart', hp.tr, hp.eos, hp.lim, hp.sol, hp.fix, hp.fix', hp.step, hs, ek]
        exact heatVal_flip _ _ _ _)
    rw [hk, ← hE] at this
    exact this

end Mirror

end Heracles
