import Verif.Spec.Ramp
import Verif.Props.Transport
import Verif.Lemmas.KernelRun

/-!
# Linear profiles and the step of the scheme
-/

namespace Heracles

variable {d n : ℕ} {K : Type} [Field K] [LinearOrder K]

section Pure
variable {lim : Limiter} {sol : Solver} {eos : EoS K} {tr : Trig K}

theorem kLen_exact (hd : d ≤ 3) {geom : Geom} {fix : Option K} (p : PGrid d K) (a : Fin d) (c : Cell) :
    kLen (exactKernels (n := n) lim sol eos tr geom fix) p a c = p.dx (ax a) (c (ax a)) := by
  have h : ax a = ⟨a.val, by omega⟩ := Fin.ext (ax_val hd)
  rw [h]
  obtain ⟨i, hi⟩ := a
  simp only [kLen, exactKernels]
  have : i = 0 ∨ i = 1 ∨ i = 2 := by omega
  rcases this with rfl | rfl | rfl <;> simp [kron]

theorem kReconVal_exact (hd : d ≤ 3) {geom : Geom} {fix : Option K} (p : PGrid d K) (v : Cell → K) (c : Cell) (side : Fin 2) (a : Fin d) :
    kReconVal (exactKernels (n := n) lim sol eos tr geom fix) p v c side a = reconVal lim p.dx v c side a := by
  unfold kReconVal reconVal
  simp only [kLen_exact hd, nb, Function.update_self]
  rfl

theorem kFaceUP_exact (hd : d ≤ 3) {geom : Geom} {fix : Option K} (p : PGrid d K) (up : Cell → VelPres d K) (c : Cell) :
    kFaceUP (exactKernels (n := n) lim sol eos tr geom fix) p up c = faceUP lim p up c := by
  funext side a
  unfold kFaceUP faceUP
  simp only [kReconVal_exact hd]

theorem kFaceFields_exact (hd : d ≤ 3) {geom : Geom} {fix : Option K} (p : PGrid d K) (U : Cell → Fields d n K) (up : Cell → VelPres d K) (c : Cell) :
    kFaceFields (exactKernels lim sol eos tr geom fix) p U up c = faceFields lim eos p U up c := by
  funext side a
  unfold kFaceFields faceFields
  simp only [kReconVal_exact hd, kFaceUP_exact hd]
  rfl

omit [LinearOrder K] in
theorem dirGeo_exact (p : PGrid d K) (geom : Geom) (a : Fin d) (c : Cell) : p.kDirGeo geom a c = p.dirGeo geom a c := by
  cases geom <;> rfl

theorem kRecVal_exact (hd : d ≤ 3) {geom : Geom} {fix : Option K} (p : PGrid d K) (dt : K) (U : Cell → Fields d n K) (up : Cell → VelPres d K) (c : Cell)
    (side : Fin 2) (a : Fin d) :
    kRecVal (exactKernels lim sol eos tr geom fix) geom p dt U up c side a = recVal lim eos tr geom p dt U up c side a := by
  unfold kRecVal recVal hanVal
  simp only [kFaceUP_exact hd, kFaceFields_exact hd, dirGeo_exact]
  simp only [exactKernels, hancockPure, PGrid.dirGeo_dv]

theorem kStepVal_exact (hd : d ≤ 3) {geom : Geom} (p : PGrid d K) (dt : K) (U : Cell → Fields d n K) (up : Cell → VelPres d K) (c : Cell) :
    kStepVal (exactKernels lim sol eos tr geom none) geom p dt U up c = stepVal lim sol eos tr geom p dt U up c := by
  have h : kRecVal (exactKernels lim sol eos tr geom none) geom p (dt / 2) U up = recVal lim eos tr geom p (dt / 2) U up := by
    funext c side a
    exact kRecVal_exact hd p _ U up c side a
  have hh : (exactKernels (d := d) (n := n) lim sol eos tr geom none).half dt = dt / 2 := rfl
  unfold kStepVal kFixVal
  rw [if_neg (by simp [exactKernels]), hh, h]
  unfold kGodVal stepVal godVal
  simp only [dirGeo_exact]
  simp only [exactKernels, godunovPure, PGrid.dirGeo_dv]

/-- The grid of the exact kernels. -/
theorem kGrid_geo (geom : Geom) (fix : Option K) (X : Fin 3 → ℤ → K) (Gr : Cell → Fin d → K) (ext : Cell) :
    GeoOf tr geom ext (kGrid (exactKernels (n := n) lim sol eos tr geom fix) geom X Gr) := by
  refine ⟨fun _ _ _ _ => rfl, fun c _ => ?_, fun c _ => ?_⟩
  · cases geom <;> rfl
  · cases geom <;> rfl

end Pure

variable [IsStrictOrderedRing K]

omit [LinearOrder K] [IsStrictOrderedRing K] in
theorem linearProfile_add (v : K) (s u : Fin d → K) (t t' : K) (y z : Fin d → K) :
    linearProfile v s u (t + t') (fun a => y a + z a) = linearProfile v s u t y + ∑ a, s a * (z a - u a * t') := by
  unfold linearProfile
  rw [add_assoc, ← Finset.sum_add_distrib]
  congr 1
  exact Finset.sum_congr rfl fun a _ => by ring

section Step
variable {lim : Limiter} {sol : Solver} {eos : EoS K} {tr : Trig K} {X : Fin 3 → ℤ → K} {p : PGrid d K} {v t : K} {s u : Fin d → K} {rho : Cell → K} {c : Cell}

/-- The slopes of a linear profile are those of the profile, on any mesh. -/
theorem profSlope_linear (hl : lim ≠ .constant) (hp : ∀ a i, p.dx a i = X a (i + 1) - X a i) (b : Fin d)
    (hX : ∀ t : ℤ, -1 ≤ t → t ≤ 1 → X (ax b) (c (ax b) + t) < X (ax b) (c (ax b) + t + 1))
    (hax : ∀ a : Fin d, ax a = ax b → a = b)
    (h : rho c = linearProfile v s u t (cellCentre X c))
    (hr : ∀ t' : ℤ, -1 ≤ t' → t' ≤ 1 → rho (nb c (ax b) t') = linearProfile v s u t (cellCentre X (nb c (ax b) t'))) :
    profSlope lim p rho c b = s b := by
  have hm := hX (-1) (by norm_num) (by norm_num)
  have h0 := hX 0 (by norm_num) (by norm_num)
  have h1 := hX 1 (by norm_num) (by norm_num)
  rw [show c (ax b) + (-1) = c (ax b) - 1 by ring, show c (ax b) - 1 + 1 = c (ax b) by ring] at hm
  rw [add_zero] at h0
  have hc : ∀ t' : ℤ, cellCentre X (nb c (ax b) t') = fun a => cellCentre (d := d) X c a +
      (if a = b then (X (ax b) (c (ax b) + t') + X (ax b) (c (ax b) + t' + 1)) / 2 - (X (ax b) (c (ax b)) + X (ax b) (c (ax b) + 1)) / 2 else 0) := by
    intro t'
    funext a
    by_cases hab : a = b
    · subst hab
      simp [cellCentre, nb]
    · have : ax a ≠ ax b := fun e => hab (hax a e)
      simp [cellCentre, nb, this, hab]
  have hd : ∀ t' : ℤ, -1 ≤ t' → t' ≤ 1 → rho (nb c (ax b) t') = rho c + s b *
      ((X (ax b) (c (ax b) + t') + X (ax b) (c (ax b) + t' + 1)) / 2 - (X (ax b) (c (ax b)) + X (ax b) (c (ax b) + 1)) / 2) := by
    intro t' h1 h2
    have := linearProfile_add v s u t 0 (cellCentre X c) (fun a => if a = b then
      (X (ax b) (c (ax b) + t') + X (ax b) (c (ax b) + t' + 1)) / 2 - (X (ax b) (c (ax b)) + X (ax b) (c (ax b) + 1)) / 2 else 0)
    rw [hr t' h1 h2, hc, h]
    rw [add_zero] at this
    rw [this]
    simp
  have e1 := hd 1 (by norm_num) (by norm_num)
  have e2 := hd (-1) (by norm_num) (by norm_num)
  simp only [nb] at e1 e2
  rw [show c (ax b) + (-1) = c (ax b) - 1 by ring, show c (ax b) - 1 + 1 = c (ax b) by ring] at e2
  have := C22_exact_on_linear_data hl (rho (Function.update c (ax b) (c (ax b) - 1))) (rho c) (rho (Function.update c (ax b) (c (ax b) + 1)))
    (s b) (dlm := p.dx (ax b) (c (ax b) - 1)) (dl := p.dx (ax b) (c (ax b))) (dlp := p.dx (ax b) (c (ax b) + 1))
    (by rw [hp, sub_add_cancel]; linarith) (by rw [hp]; linarith) (by rw [hp]; linarith) (by rw [e1, hp, hp]; ring) (by rw [e2, hp, hp, sub_add_cancel]; ring)
  have hx : X (ax b) (c (ax b) + 1) - X (ax b) (c (ax b)) ≠ 0 := by linarith [h0] |> fun (h : 0 < X (ax b) (c (ax b) + 1) - X (ax b) (c (ax b))) => h.ne'
  unfold profSlope reconVal
  rw [this.1, this.2, hp]
  field_simp
  ring

/-- Point in the middle of a face of the cell `c`. -/
def faceCentre (X : Fin 3 → ℤ → K) (c : Cell) (side : Fin 2) (a : Fin d) : Fin d → K := fun b =>
  if b = a then (if side = 0 then X (ax a) (c (ax a)) else X (ax a) (c (ax a) + 1)) else cellCentre X c b

/-- What arrives in the middle of a face after a time `t'` is the profile of that time. -/
theorem profile_linear (hp : ∀ a i, p.dx a i = X a (i + 1) - X a i) (hs : ∀ b, profSlope lim p rho c b = s b)
    (h : rho c = linearProfile v s u t (cellCentre X c)) (t' : K) (side : Fin 2) (a : Fin d) :
    profile lim p rho c (footPoint p c t' u side a) = linearProfile v s u (t + t') (faceCentre X c side a) := by
  have e : faceCentre (d := d) X c side a = fun b => cellCentre X c b + (footPoint p c t' u side a b + t' * u b) := by
    funext b
    unfold faceCentre footPoint
    by_cases hb : b = a
    · subst hb
      simp only [if_true, hp, cellCentre]
      split_ifs <;> ring
    · simp only [if_neg hb]
      ring
  rw [e, linearProfile_add, profile, h]
  congr 1
  refine Finset.sum_congr rfl fun b _ => ?_
  rw [hs]
  ring

omit [LinearOrder K] [IsStrictOrderedRing K] in
theorem faceCentre_below (hd : d ≤ 3) (X : Fin 3 → ℤ → K) (C : Cell) (a : Fin d) : faceCentre (d := d) X (nb C (ax a) (-1)) 1 a = faceCentre X C 0 a := by
  funext b
  unfold faceCentre cellCentre
  by_cases hba : b = a
  · subst hba
    simp [nb]
  · have : ax b ≠ ax a := fun e => hba (Fin.ext (by rw [← ax_val hd (a := b), e, ax_val hd]))
    simp [nb, hba, this]

omit [LinearOrder K] [IsStrictOrderedRing K] in
theorem faceCentre_above (hd : d ≤ 3) (X : Fin 3 → ℤ → K) (C : Cell) (a : Fin d) : faceCentre (d := d) X (nb C (ax a) 1) 0 a = faceCentre X C 1 a := by
  funext b
  unfold faceCentre cellCentre
  by_cases hba : b = a
  · subst hba
    simp [nb]
  · have : ax b ≠ ax a := fun e => hba (Fin.ext (by rw [← ax_val hd (a := b), e, ax_val hd]))
    simp [nb, hba, this]

omit [LinearOrder K] [IsStrictOrderedRing K] in
theorem linearProfile_faces (hp : ∀ a i, p.dx a i = X a (i + 1) - X a i) (t : K) (a : Fin d) :
    linearProfile v s u t (faceCentre X c 0 a) - linearProfile v s u t (faceCentre X c 1 a) = - (s a * p.dx (ax a) (c (ax a))) := by
  have e0 : faceCentre (d := d) X c 1 a = fun b => faceCentre X c 0 a b + if b = a then p.dx (ax a) (c (ax a)) else 0 := by
    funext b
    unfold faceCentre
    by_cases hba : b = a
    · subst hba
      simp [hp]
    · simp [hba]
  have := linearProfile_add v s u t 0 (faceCentre X c 0 a) (fun b => if b = a then p.dx (ax a) (c (ax a)) else 0)
  rw [add_zero] at this
  rw [e0, this]
  simp

/-- One step of the scheme on a cell whose neighbours up to distance 2 hold a linear density in a uniform wind. -/
theorem linear_step {n : ℕ} (hd : d ≤ 3) (hl : lim ≠ .constant) {ext : Cell} (hG : GeoOf tr .cartesian ext p)
    (hp : ∀ a i, p.dx a i = X a (i + 1) - X a i) (h0 : ∀ c a, p.grav c a = 0) (he : eos.Lawful) {w : VelPres d K} {e : K}
    (hev : ∀ r, 0 < r → eos.evolFromPres r w.P = e) (hP : 0 < w.P) {dt : K} {B : Cell → Prop} {W : Cell → Fields d n K}
    {up : Cell → VelPres d K} (hB : ∀ c, B c → inExt ext c = true)
    (hX : ∀ c, inExt ext c = true → ∀ b, X b (c b) < X b (c b + 1))
    (hW : ∀ c, B c → (W c).cons = toCons eos ⟨linearProfile v s w.u t (cellCentre X c), w.u, w.P⟩) (hup : ∀ c, B c → up c = w)
    (hpos : ∀ c, B c → ∀ y, InCell X c y → ∀ t', t' = 0 ∨ t' = dt / 2 ∨ t' = dt → 0 < linearProfile v s w.u (t + t') y)
    {C : Cell} (h1 : ∀ (a : Fin d) (i : ℤ), -1 ≤ i → i ≤ 1 → B (nb C (ax a) i)) (hC : B C)
    (h2 : ∀ (a b : Fin d) (i j : ℤ), -1 ≤ i → i ≤ 1 → -1 ≤ j → j ≤ 1 → B (nb (nb C (ax a) i) (ax b) j)) :
    (stepVal lim sol eos tr .cartesian p dt W up C).cons = toCons eos ⟨linearProfile v s w.u (t + dt) (cellCentre X C), w.u, w.P⟩ := by
  have hax : ∀ a b : Fin d, ax a = ax b → a = b := fun a b h => Fin.ext (by rw [← ax_val hd (a := a), h, ax_val hd])
  have hx : ∀ c, inExt ext c = true → ∀ b, p.dx b (c b) ≠ 0 := fun c hc b => by
    rw [hp]; exact (sub_pos.2 (hX c hc b)).ne'
  have hrho : ∀ c, B c → (W c).rho = linearProfile v s w.u t (cellCentre X c) := fun c hc => congrArg Cons.rho (hW c hc)
  have hin : ∀ c, B c → ∀ side a, InCell X c (faceCentre (d := d) X c side a) := by
    intro c hc side a b
    have hb := hX c (hB c hc) (ax b)
    unfold faceCentre cellCentre
    by_cases hba : b = a
    · subst hba
      simp only [if_true]
      split_ifs
      · exact ⟨le_rfl, hb.le⟩
      · exact ⟨hb.le, le_rfl⟩
    · simp only [if_neg hba]
      constructor <;> linarith
  have hcin : ∀ c, B c → InCell X c (cellCentre (d := d) X c) := by
    intro c hc b
    have hb := hX c (hB c hc) (ax b)
    unfold cellCentre
    constructor <;> linarith
  -- the face states of a cell whose neighbours are in the region
  have hrec : ∀ c, B c → (∀ (a : Fin d) (i : ℤ), -1 ≤ i → i ≤ 1 → B (nb c (ax a) i)) → ∀ side a,
      (recVal lim eos tr .cartesian p (dt / 2) W up c side a).cons =
        toCons eos ⟨linearProfile v s w.u (t + dt / 2) (faceCentre X c side a), w.u, w.P⟩ := by
    intro c hc hn side a
    have hs : ∀ b, profSlope lim p (fun c => (W c).rho) c b = s b := fun b =>
      profSlope_linear hl hp b (fun i hi hi' => by
        have := hX _ (hB _ (hn b i hi hi')) (ax b)
        simpa [nb] using this) (fun a h => hax a b h) (hrho c hc) (fun i hi hi' => hrho _ (hn b i hi hi'))
    rw [← profile_linear hp hs (hrho c hc)]
    refine carried_rec hG hd (hB c hc) (fun a => hB _ (hn a 1 (by norm_num) (by norm_num))) (hx c (hB c hc)) (h0 c) hev
      ⟨rfl, fun _ _ _ _ => rfl, fun a i hi hi' => hup _ (hn a i hi hi')⟩ (dt / 2) (fun t' ht' side a => ?_) side a
    rw [profile_linear hp hs (hrho c hc)]
    exact hpos c hc _ (hin c hc side a) t' (ht'.imp id Or.inl)
  have hrC := hrec C hC h1
  have hrm := fun a : Fin d => hrec _ (h1 a (-1) (by norm_num) (by norm_num)) (fun b j hj hj' => h2 a b (-1) j (by norm_num) (by norm_num) hj hj')
  have hrp := fun a : Fin d => hrec _ (h1 a 1 (by norm_num) (by norm_num)) (fun b j hj hj' => h2 a b 1 j (by norm_num) (by norm_num) hj hj')
  -- the two states of a face are the same
  have hfm : ∀ a : Fin d, faceCentre (d := d) X (nb C (ax a) (-1)) 1 a = faceCentre X C 0 a := fun a => faceCentre_below hd X C a
  have hfp : ∀ a : Fin d, faceCentre (d := d) X (nb C (ax a) 1) 0 a = faceCentre X C 1 a := fun a => faceCentre_above hd X C a
  have hq : ∀ side a, 0 < linearProfile v s w.u (t + dt / 2) (faceCentre X C side a) := fun side a =>
    hpos C hC _ (hin C hC side a) _ (Or.inr (Or.inl rfl))
  have hflux : ∀ (q : K) (a : Fin d), 0 < q → sol.flux eos (toCons eos ⟨q, w.u, w.P⟩) (toCons eos ⟨q, w.u, w.P⟩) a = fluxPrim eos ⟨q, w.u, w.P⟩ a := by
    intro q a hq
    obtain ⟨a1, -, -⟩ := adm_carried (d := d) he (q := ⟨q, w.u, w.P⟩) hq hP
    rw [C24_consistency sol he a1 a, ← fluxPrim_toPrim he a1.1, toPrim_toCons he hq]
  have hfL : ∀ a, sol.flux eos (recVal lim eos tr .cartesian p (dt / 2) W up (nb C (ax a) (-1)) 1 a).cons
      (recVal lim eos tr .cartesian p (dt / 2) W up C 0 a).cons a =
        fluxPrim eos ⟨linearProfile v s w.u (t + dt / 2) (faceCentre X C 0 a), w.u, w.P⟩ a := by
    intro a
    rw [hrm a, hrC, hfm a, hflux _ _ (hq 0 a)]
  have hfR : ∀ a, sol.flux eos (recVal lim eos tr .cartesian p (dt / 2) W up C 1 a).cons
      (recVal lim eos tr .cartesian p (dt / 2) W up (nb C (ax a) 1) 0 a).cons a =
        fluxPrim eos ⟨linearProfile v s w.u (t + dt / 2) (faceCentre X C 1 a), w.u, w.P⟩ a := by
    intro a
    rw [hrp a, hrC, hfp a, hflux _ _ (hq 1 a)]
  have hdiff : ∀ a : Fin d, linearProfile v s w.u (t + dt / 2) (faceCentre X C 0 a) - linearProfile v s w.u (t + dt / 2) (faceCentre X C 1 a) =
      - (s a * p.dx (ax a) (C (ax a))) := fun a => linearProfile_faces hp _ a
  have hnew : linearProfile v s w.u (t + dt) (cellCentre X C) = linearProfile v s w.u t (cellCentre X C) + ∑ a, dt / p.dx (ax a) (C (ax a)) *
      (linearProfile v s w.u (t + dt / 2) (faceCentre X C 0 a) * w.u a - linearProfile v s w.u (t + dt / 2) (faceCentre X C 1 a) * w.u a) := by
    have := linearProfile_add v s w.u t dt (cellCentre X C) (fun _ => 0)
    simp only [add_zero] at this
    rw [this]
    congr 1
    refine Finset.sum_congr rfl fun a _ => ?_
    rw [← sub_mul, hdiff a]
    have := hx C (hB C hC) (ax a)
    field_simp
    ring
  have hWC := hW C hC
  have hWr : (W C).rho = _ := congrArg Cons.rho hWC
  have hWm : (W C).rhou = _ := congrArg Cons.rhou hWC
  have hWE : (W C).E = _ := congrArg Cons.E hWC
  have hold := hev _ (by simpa using hpos C hC _ (hcin C hC) 0 (Or.inl rfl) : 0 < linearProfile v s w.u t (cellCentre X C))
  have hnewe := hev _ (hpos C hC _ (hcin C hC) dt (Or.inr (Or.inr rfl)))
  rw [hnew] at hnewe ⊢
  unfold stepVal godVal
  simp only [hfL, hfR]
  simp only [hWr, hWm, hWE]
  simp only [fluxDiff_cart hG hd _ (hB C hC) (hB _ (h1 _ 1 (by norm_num) (by norm_num))) (hx C (hB C hC)), h0, Fields.cons, toCons, momDiff, fluxPrim, Prim.ek,
    hev _ (hq 0 _), hev _ (hq 1 _), hold, hnewe, mul_zero, zero_mul, ite_self, add_zero, if_neg (show ¬ (Geom.cartesian = Geom.spherical) by decide)]
  have e2 : ∀ (A B : Fin d → K) i, ∑ b, (dt / p.dx (ax b) (C (ax b)) * ((Function.update (fun i => A b * w.u b * w.u i) b (A b * w.u b * w.u b + w.P)) i
        - (Function.update (fun i => B b * w.u b * w.u i) b (B b * w.u b * w.u b + w.P)) i)) =
      (∑ a, dt / p.dx (ax a) (C (ax a)) * (A a * w.u a - B a * w.u a)) * w.u i := by
    intro A B i
    rw [Finset.sum_mul]
    refine Finset.sum_congr rfl fun b _ => ?_
    by_cases hib : i = b
    · subst hib; simp only [Function.update_self]; ring
    · simp only [Function.update_of_ne hib]; ring
  have e3 : ∀ (A B : Fin d → K) (k : K), ∑ b, dt / p.dx (ax b) (C (ax b)) * (w.u b * (A b * k / 2 + e + w.P) - w.u b * (B b * k / 2 + e + w.P)) =
      (∑ a, dt / p.dx (ax a) (C (ax a)) * (A a * w.u a - B a * w.u a)) * k / 2 := by
    intro A B k
    rw [Finset.sum_mul, Finset.sum_div]
    exact Finset.sum_congr rfl fun b _ => by ring
  apply Cons.ext
  · rfl
  · funext i
    have := e2 (fun a => linearProfile v s w.u (t + dt / 2) (faceCentre X C 0 a)) (fun a => linearProfile v s w.u (t + dt / 2) (faceCentre X C 1 a)) i
    dsimp only at this ⊢
    rw [this]
    ring
  · have := e3 (fun a => linearProfile v s w.u (t + dt / 2) (faceCentre X C 0 a)) (fun a => linearProfile v s w.u (t + dt / 2) (faceCentre X C 1 a)) (∑ i, w.u i * w.u i)
    dsimp only at this ⊢
    rw [this]
    ring

/-- The same for a linear mass fraction in a fluid of uniform density. -/
theorem linear_fx_step {n : ℕ} (hd : d ≤ 3) (hl : lim ≠ .constant) {ext : Cell} (hG : GeoOf tr .cartesian ext p)
    (hp : ∀ a i, p.dx a i = X a (i + 1) - X a i) (h0 : ∀ c a, p.grav c a = 0) (he : eos.Lawful) {w : VelPres d K} (hP : 0 < w.P) {r : K} (hr : 0 < r)
    {dt : K} {B : Cell → Prop} {W : Cell → Fields d n K} {f : Fin n}
    {up : Cell → VelPres d K} (hB : ∀ c, B c → inExt ext c = true) (hX : ∀ c, inExt ext c = true → ∀ b, X b (c b) < X b (c b + 1))
    (hW : ∀ c, B c → (W c).rho = r ∧ up c = w ∧ (W c).fx f = linearProfile v s w.u t (cellCentre X c))
    {C : Cell} (h1 : ∀ (a : Fin d) (i : ℤ), -1 ≤ i → i ≤ 1 → B (nb C (ax a) i)) (hC : B C)
    (h2 : ∀ (a b : Fin d) (i j : ℤ), -1 ≤ i → i ≤ 1 → -1 ≤ j → j ≤ 1 → B (nb (nb C (ax a) i) (ax b) j)) :
    (stepVal lim sol eos tr .cartesian p dt W up C).cons = (W C).cons ∧
    (stepVal lim sol eos tr .cartesian p dt W up C).fx f = clamp (linearProfile v s w.u (t + dt) (cellCentre X C)) 0 1 := by
  have hax : ∀ a b : Fin d, ax a = ax b → a = b := fun a b h => Fin.ext (by rw [← ax_val hd (a := a), h, ax_val hd])
  have hx : ∀ c, inExt ext c = true → ∀ b, p.dx b (c b) ≠ 0 := fun c hc b => by
    rw [hp]; exact (sub_pos.2 (hX c hc b)).ne'
  have hrec : ∀ c, B c → (∀ (a : Fin d) (i : ℤ), -1 ≤ i → i ≤ 1 → B (nb c (ax a) i)) → ∀ side a,
      (recVal lim eos tr .cartesian p (dt / 2) W up c side a).cons = toCons eos ⟨r, w.u, w.P⟩ ∧
      (recVal lim eos tr .cartesian p (dt / 2) W up c side a).fx f = linearProfile v s w.u (t + dt / 2) (faceCentre X c side a) := by
    intro c hc hn side a
    have hs : ∀ b, profSlope lim p (fun c => (W c).fx f) c b = s b := fun b =>
      profSlope_linear hl hp b (fun i hi hi' => by
        have := hX _ (hB _ (hn b i hi hi')) (ax b)
        simpa [nb] using this) (fun a h => hax a b h) (hW c hc).2.2 (fun i hi hi' => (hW _ (hn b i hi hi')).2.2)
    rw [← profile_linear hp hs (hW c hc).2.2]
    have hdx := hx c (hB c hc)
    have hrho : ∀ s b, reconVal lim p.dx (fun c => (W c).rho) c s b = r := fun s b =>
      reconVal_const lim p.dx b (v := fun c => (W c).rho) (fun t h1 h2 => (hW _ (hn b t h1 h2)).1) s
    have hup' : ∀ (a : Fin d) (t : ℤ), -1 ≤ t → t ≤ 1 → up (nb c (ax a) t) = w := fun a t h1 h2 => (hW _ (hn a t h1 h2)).2.1
    unfold recVal
    rw [faceUP_const hup']
    unfold hanVal facePrim faceFields
    rw [faceUP_const hup']
    simp only [fluxDiff_cart hG hd _ (hB c hc) (hB _ (hn _ 1 (by norm_num) (by norm_num))) hdx, h0, hrho, momDiff, sub_self, mul_zero, zero_mul, ite_self, add_zero,
      Finset.sum_const_zero, Fields.cons, toCons, if_neg (show ¬ (Geom.cartesian = Geom.spherical) by decide), true_and]
    rw [profile_footPoint a side (hdx _), div_eq_iff hr.ne', sub_mul, Finset.mul_sum, Finset.sum_mul, sub_eq_add_neg, ← Finset.sum_neg_distrib]
    congr 1
    refine Finset.sum_congr rfl fun b _ => ?_
    simp only [fluxPrim, profSlope]
    ring
  have hrC := hrec C hC h1
  have hrm := fun a : Fin d => hrec _ (h1 a (-1) (by norm_num) (by norm_num)) (fun b j hj hj' => h2 a b (-1) j (by norm_num) (by norm_num) hj hj')
  have hrp := fun a : Fin d => hrec _ (h1 a 1 (by norm_num) (by norm_num)) (fun b j hj hj' => h2 a b 1 j (by norm_num) (by norm_num) hj hj')
  obtain ⟨a1, -, -⟩ := adm_carried (d := d) he (q := ⟨r, w.u, w.P⟩) hr hP
  have hflux : ∀ a : Fin d, (sol.flux eos (toCons eos ⟨r, w.u, w.P⟩) (toCons eos ⟨r, w.u, w.P⟩) a).rho = r * w.u a := fun a => by
    rw [C24_consistency sol he a1 a]
    rfl
  have hfL : ∀ a, sol.flux eos (recVal lim eos tr .cartesian p (dt / 2) W up (nb C (ax a) (-1)) 1 a).cons
      (recVal lim eos tr .cartesian p (dt / 2) W up C 0 a).cons a = sol.flux eos (toCons eos ⟨r, w.u, w.P⟩) (toCons eos ⟨r, w.u, w.P⟩) a := by
    intro a
    rw [(hrm a _ _).1, (hrC _ _).1]
  have hfR : ∀ a, sol.flux eos (recVal lim eos tr .cartesian p (dt / 2) W up C 1 a).cons
      (recVal lim eos tr .cartesian p (dt / 2) W up (nb C (ax a) 1) 0 a).cons a = sol.flux eos (toCons eos ⟨r, w.u, w.P⟩) (toCons eos ⟨r, w.u, w.P⟩) a := by
    intro a
    rw [(hrp a _ _).1, (hrC _ _).1]
  unfold stepVal godVal
  simp only [hfL, hfR]
  simp only [fluxDiff_cart hG hd _ (hB C hC) (hB _ (h1 _ 1 (by norm_num) (by norm_num))) (hx C (hB C hC)), momDiff, sub_self, mul_zero, zero_mul,
    Finset.sum_const_zero, add_zero, h0, ite_self, if_neg (show ¬ (Geom.cartesian = Geom.spherical) by decide), hflux, Fields.cons, true_and]
  congr 1
  rw [(hW C hC).1, (hW C hC).2.2]
  have := linearProfile_add v s w.u t dt (cellCentre X C) (fun _ => 0)
  simp only [add_zero] at this
  rw [this, div_eq_iff hr.ne', add_mul, Finset.sum_mul]
  congr 1
  refine Finset.sum_congr rfl fun a _ => ?_
  rw [(hrm a _ _).2, (hrC _ _).2, (hrC _ _).2, (hrp a _ _).2, faceCentre_below hd, faceCentre_above hd, ite_self, ite_self, ← sub_mul, linearProfile_faces hp]
  have := hx C (hB C hC) (ax a)
  field_simp
  ring

/-- One first order HLLC step on a cell whose neighbours hold a density `rho` in a uniform wind: transport of the values upstream. -/
theorem upwind_step {n : ℕ} (hd : d ≤ 3) {ext : Cell} (hG : GeoOf tr .cartesian ext p) (hX : ∀ c, inExt ext c = true → ∀ b, 0 < p.dx b (c b))
    (h0 : ∀ c a, p.grav c a = 0) (he : eos.Lawful) {w : VelPres d K} {e : K}
    (hev : ∀ r, 0 < r → eos.evolFromPres r w.P = e) (hP : 0 < w.P) {dt : K} {W : Cell → Fields d n K}
    {up : Cell → VelPres d K} {B : Cell → Prop} (hB : ∀ c, B c → inExt ext c = true) (hW : ∀ c, B c → (W c).rho = rho c ∧ up c = w ∧ 0 < rho c)
    {C : Cell} (h1 : ∀ (a : Fin d) (i : ℤ), -1 ≤ i → i ≤ 1 → B (nb C (ax a) i)) (hC : B C)
    (h2 : ∀ (a b : Fin d) (i j : ℤ), -1 ≤ i → i ≤ 1 → -1 ≤ j → j ≤ 1 → B (nb (nb C (ax a) i) (ax b) j)) :
    (stepVal .constant .hllc eos tr .cartesian p dt W up C).rho = rho C + ∑ a, dt / p.dx (ax a) (C (ax a)) *
      (w.u a * ((if 0 < w.u a then rho (nb C (ax a) (-1)) else rho C) - if 0 < w.u a then rho C else rho (nb C (ax a) 1))) := by
  have hslope : ∀ c b, profSlope .constant p (fun c => (W c).rho) c b = 0 := fun c b => by
    unfold profSlope reconVal reconFace
    simp [Limiter.slope]
  have hprof : ∀ c y, profile .constant p (fun c => (W c).rho) c y = (W c).rho := fun c y => by
    unfold profile
    simp [hslope]
  have hrec : ∀ c, B c → (∀ (a : Fin d) (i : ℤ), -1 ≤ i → i ≤ 1 → B (nb c (ax a) i)) → ∀ side a,
      (recVal .constant eos tr .cartesian p (dt / 2) W up c side a).cons = toCons eos ⟨rho c, w.u, w.P⟩ := by
    intro c hc hn side a
    have := carried_rec (lim := .constant) (rho := fun c => (W c).rho) hG hd (hB c hc) (fun a => hB _ (hn a 1 (by norm_num) (by norm_num)))
      (fun b => (hX c (hB c hc) b).ne') (h0 c) hev ⟨rfl, fun _ _ _ _ => rfl, fun a t h1 h2 => (hW _ (hn a t h1 h2)).2.1⟩ (dt / 2)
      (fun s _ side a => by rw [hprof, (hW c hc).1]; exact (hW c hc).2.2) side a
    rw [this, hprof, (hW c hc).1]
  have hflux : ∀ (a : Fin d) (q q' : K), 0 < q → 0 < q' → (Solver.hllc.flux eos (toCons eos ⟨q, w.u, w.P⟩) (toCons eos ⟨q', w.u, w.P⟩) a).rho =
      (if 0 < w.u a then q else q') * w.u a := by
    intro a q q' hq hq'
    obtain ⟨a1, v1, p1⟩ := adm_carried (d := d) he (q := ⟨q, w.u, w.P⟩) hq hP
    obtain ⟨a2, v2, p2⟩ := adm_carried (d := d) he (q := ⟨q', w.u, w.P⟩) hq' hP
    rw [(C27_contacts he a1 a2 a (by rw [v1, v2]) (by rw [p1, p2])).1, v1]
    split
    · rw [← fluxPrim_toPrim he a1.1, toPrim_toCons he hq]; rfl
    · rw [← fluxPrim_toPrim he a2.1, toPrim_toCons he hq']; rfl
  have hq : ∀ a : Fin d, ∀ t : ℤ, -1 ≤ t → t ≤ 1 → 0 < rho (nb C (ax a) t) := fun a t k1 k2 => (hW _ (h1 a t k1 k2)).2.2
  have hrm := fun a : Fin d => hrec _ (h1 a (-1) (by norm_num) (by norm_num)) (fun b j hj hj' => h2 a b (-1) j (by norm_num) (by norm_num) hj hj')
  have hrp := fun a : Fin d => hrec _ (h1 a 1 (by norm_num) (by norm_num)) (fun b j hj hj' => h2 a b 1 j (by norm_num) (by norm_num) hj hj')
  unfold stepVal godVal
  dsimp only
  rw [(hW C hC).1]
  congr 1
  refine Finset.sum_congr rfl fun a _ => ?_
  rw [fluxDiff_cart hG hd _ (hB C hC) (hB _ (h1 _ 1 (by norm_num) (by norm_num))) (fun b => (hX C (hB C hC) b).ne'), hrm a, hrec C hC h1,
    hrec C hC h1, hrp a, hflux a _ _ (hq a (-1) (by norm_num) (by norm_num)) (hW C hC).2.2,
    hflux a _ _ (hW C hC).2.2 (hq a 1 (by norm_num) (by norm_num))]
  ring

end Step

end Heracles
