import Verif.Lemmas.Messages
import Verif.Lemmas.Distributed
import Verif.Spec.RankFiles

/-!
# The ranks in step are the program on all ranks
-/

namespace Heracles

variable {d n : ℕ}

section Steps
variable {R M X S : Type} {P : R → S → Act R M X S}

theorem LockSteps.trans {s s' s'' : R → S} {k l : ℕ} (h : LockSteps P s k s') (h' : LockSteps P s' l s'') : LockSteps P s (k + l) s'' := by
  induction h' with
  | zero => exact h
  | succ _ hs ih => exact .succ ih hs

theorem LockSteps.one {s s' : R → S} (h : LockStep P s s') : LockSteps P s 1 s' := .succ .zero h

/-- Some number of calls leads from `s` to `s'`. -/
def Leads (P : R → S → Act R M X S) (s s' : R → S) : Prop := ∃ k, LockSteps P s k s'

theorem Leads.refl (s : R → S) : Leads P s s := ⟨0, .zero⟩

theorem Leads.trans {s s' s'' : R → S} (h : Leads P s s') (h' : Leads P s' s'') : Leads P s s'' := by
  obtain ⟨k, h⟩ := h
  obtain ⟨l, h'⟩ := h'
  exact ⟨k + l, h.trans h'⟩

theorem Leads.exch {s s' : R → S} (dst src : R → R) (tag : R → ℕ) (msg : R → M) (k : R → M → S)
    (h : ∀ r, P r (s r) = .exch (dst r) (src r) (tag r) (msg r) (k r)) (hd : ∀ r, src (dst r) = r) (hs : ∀ r, dst (src r) = r)
    (ht : ∀ r, tag (src r) = tag r) (hk : ∀ r, k r (msg (src r)) = s' r) : Leads P s s' := by
  obtain rfl : (fun r => k r (msg (src r))) = s' := funext hk
  exact ⟨1, .one (.exch dst src tag msg k h hd hs ht)⟩

theorem Leads.coll {s s' : R → S} (kind : ℕ) (x : R → X) (needs : R → R → Bool) (k : R → (R → X) → S)
    (h : ∀ r, P r (s r) = .coll kind (x r) (needs r) (k r)) (hk : ∀ r, k r (fun q => if needs r q then x q else x r) = s' r) :
    Leads P s s' := by
  obtain rfl : (fun r => k r fun q => if needs r q then x q else x r) = s' := funext hk
  exact ⟨1, .one (.coll kind x needs k h)⟩

end Steps

section Ranks
variable {dims : Cell}

theorem Rank.inBox (r : Rank dims) : inBox 0 dims r.1 := ((boxList_isSchedule 0 dims).2 r.1).1 r.2

theorem neighbour_val (r : Rank dims) (a : Fin 3) (k : ℤ) : (neighbour r a k).1 = Function.update r.1 a ((r.1 a + k) % dims a) := by
  have hpos : 0 < dims a := lt_of_le_of_lt (r.inBox a).1 (r.inBox a).2
  have h : Function.update r.1 a ((r.1 a + k) % dims a) ∈ boxList 0 dims := by
    refine ((boxList_isSchedule 0 dims).2 _).2 fun b => ?_
    by_cases hb : b = a
    · subst hb
      rw [Function.update_self]
      exact ⟨Int.emod_nonneg _ hpos.ne', Int.emod_lt_of_pos _ hpos⟩
    · rw [Function.update_of_ne hb]
      exact r.inBox b
  unfold neighbour
  simp only [dif_pos h]

theorem neighbour_neighbour (r : Rank dims) (a : Fin 3) (k l : ℤ) (h : k + l = 0) : neighbour (neighbour r a k) a l = r := by
  apply Subtype.ext
  rw [neighbour_val, neighbour_val, Function.update_self, Function.update_idem, Int.emod_add_emod,
    show r.1 a + k + l = r.1 a by omega, Int.emod_eq_of_lt (r.inBox a).1 (r.inBox a).2, Function.update_eq_self]

theorem neighbour_source (r : Rank dims) (a : Fin 3) (k : ℤ) : (neighbour r a (-k)).1 = cartSource dims r.1 a k := neighbour_val _ _ _

theorem allRanks_get {V : Type} {f : Cell → Option V} {dflt v : Cell → V} (h : allRanks dims f dflt = some v) (r : Rank dims) :
    f r.1 = some (v r.1) := by
  unfold allRanks at h
  split at h
  · rename_i hs
    obtain ⟨x, hx⟩ := Option.isSome_iff_exists.1 (hs r.1 r.2)
    cases h
    show f r.1 = some ((f r.1).getD _)
    rw [hx]; rfl
  · cases h

theorem mapM_get {α β : Type} {l : List α} {f : α → Option β} {v : List β} (h : l.mapM f = some v) (dflt : β) :
    (∀ x ∈ l, f x = some ((f x).getD dflt)) ∧ v = l.map fun x => (f x).getD dflt := by
  induction l generalizing v with
  | nil => cases h; exact ⟨by simp, rfl⟩
  | cons x l ih =>
    rw [List.mapM_cons] at h
    cases hx : f x with
    | none => rw [hx] at h; cases h
    | some y =>
      cases hl : l.mapM f with
      | none => rw [hx, hl] at h; cases h
      | some w =>
        rw [hx, hl] at h
        cases h
        obtain ⟨h1, h2⟩ := ih hl
        refine ⟨fun z hz => ?_, ?_⟩
        · rcases List.mem_cons.1 hz with rfl | hz
          · rw [hx]; rfl
          · exact h1 z hz
        · rw [List.map_cons, hx, ← h2]; rfl

/-- Numbers of all ranks are combined like in the program on all ranks. -/
theorem reduceNum_eq (e : RankEnv d n) (op : ℝ → ℝ → ℝ) {f : Cell → Option ℝ} {v : List ℝ} (h : (boxList 0 e.A.dims).mapM f = some v) :
    ∃ g : Cell → ℝ, (∀ r : Rank e.A.dims, f r.1 = some (g r.1)) ∧ e.reduceNum op (fun r => .num (g r.1)) = allReduce op v := by
  obtain ⟨h1, h2⟩ := mapM_get h 0
  refine ⟨fun r => (f r).getD 0, fun r => h1 _ r.2, ?_⟩
  show ((boxList 0 e.A.dims).attach.mapM fun r => some ((f r.1).getD 0)).bind (allReduce op) = _
  rw [mapM_some (f := fun r => some ((f r.1).getD 0)) (g := fun r : Rank e.A.dims => (f r.1).getD 0) _ (fun _ _ => rfl), h2, Option.bind_some]
  congr 1
  exact List.attach_map_val (l := boxList 0 e.A.dims) (f := fun r => (f r).getD 0)

theorem decideStep_error {H K : Type} [Field K] [LinearOrder K] {p : LoopParams K} {dt : K} {b : Bool} (b' : Bool) {s : LoopState H K}
    {m : String} (h : decideStep p dt b s = .error m) : decideStep p dt b' s = .error m := by
  unfold decideStep at h ⊢
  by_cases hc : timeTrigger p s (p.cfl * dt) = true ∧
      (if timeTrigger p s (p.cfl * dt) = true then nextTimed p s - s.t else p.cfl * dt) ≤ 0
  · simp only [if_pos hc] at h ⊢
    exact h
  · simp only [if_neg hc] at h
    cases h

theorem decideStep_withFluid {H H' K : Type} [Field K] [LinearOrder K] (p : LoopParams K) (dt : K) (b : Bool) (s : LoopState H K) (h : H') :
    decideStep p dt b (s.withFluid h) = decideStep p dt b s := rfl

end Ranks

section Sync
variable {e : RankEnv d n}

theorem ghostSyncAll_faces {V : Type} (nghost dims : Cell) (D : DistView V) :
    ghostSyncAll d nghost dims D = (RankEnv.faces d).foldlM (fun D p => ghostSync nghost dims p.1 p.2 D) D := by
  unfold ghostSyncAll RankEnv.faces
  generalize (List.finRange 3).filter (fun a => a.val < d) = l
  induction l generalizing D with
  | nil => rfl
  | cons a l ih =>
    rw [List.foldlM_cons, List.flatMap_cons, List.foldlM_append]
    simp only [List.foldlM_cons, List.foldlM_nil, bind_pure, bind_assoc]
    refine bind_congr fun D' => bind_congr fun D'' => ?_
    exact ih D''

/-- The variables of a rank with other fields. -/
def RankVars.with (v : RankVars d n) (U : View Cell (Fields d n ℝ)) : RankVars d n := { v with s := { v.s with h := U } }

theorem sync_leads {D D' : DistView (Fields d n ℝ)} (todo : List (Fin 3 × Fin 2)) (after : Option (Decision ℝ)) (v : Rank e.A.dims → RankVars d n)
    (hext : ∀ r, D.ext r = (e.A.topo r).nxLocalWg) (h : todo.foldlM (fun D p => ghostSync e.nghost e.A.dims p.1 p.2 D) D = some D') :
    Leads e.next (fun r => e.enterSync r todo after ((v r).with (D.local r.1)))
      (fun r => e.afterSync r after ((v r).with (D'.local r.1))) ∧ ∀ r, D'.ext r = (e.A.topo r).nxLocalWg := by
  induction todo generalizing D with
  | nil => cases h; exact ⟨.refl _, hext⟩
  | cons p todo ih =>
    obtain ⟨a, face⟩ := p
    rw [List.foldlM_cons] at h
    cases hs : ghostSync e.nghost e.A.dims a face D with
    | none => rw [hs] at h; cases h
    | some D1 =>
      rw [hs] at h
      unfold ghostSync at hs
      split at hs
      swap
      · cases hs
      rename_i hsafe
      cases hs
      simp only [Option.bind_eq_bind, Option.bind_some] at h
      obtain ⟨hl, hx⟩ := ih (by exact hext) h
      refine ⟨.trans (.exch (fun r => neighbour r a (shiftDisp face)) (fun r => neighbour r a (-shiftDisp face)) (fun _ => a.val)
        (fun r => ((e.A.topo r.1).nxLocalWg, sendBuf e.nghost a face D r.1))
        (fun r m => if ∀ b, b ≠ a → m.1 b = (e.A.topo r.1).nxLocalWg b then
            e.enterSync r todo after ((v r).with (RankEnv.unpack e.nghost (e.A.topo r.1).nxLocalWg a face m.2 (D.local r.1)))
          else none) (fun r => ?_)
        (fun r => neighbour_neighbour _ _ _ _ (by omega)) (fun r => neighbour_neighbour _ _ _ _ (by omega)) (fun _ => rfl)
        (fun r => ?_)) hl, hx⟩
      · have hr := (hsafe r.1 r.2).1
        rw [hext] at hr
        show e.next r (some (.sync ((a, face) :: todo) after, _)) = _
        unfold RankEnv.next
        have hr' : RankEnv.slabsInside e.nghost (e.A.topo r.1).nxLocalWg a face := hr
        simp only [if_pos hr']
        refine congrArg₂ (fun m k => Act.exch _ _ _ m k) ?_ rfl
        refine congrArg (Prod.mk _) ?_
        funext b
        unfold sendBuf
        rw [hext]; rfl
      · have hr := (hsafe r.1 r.2).2
        rw [← neighbour_source] at hr
        simp only [hext] at hr
        simp only [if_pos hr]
        congr 2
        unfold RankEnv.unpack DistView.local
        simp only [hext, neighbour_source]

/-- src/main.cpp 479-528 or 307-309 by the ranks in step. -/
theorem bcs_leads {D D' : DistView (Fields d n ℝ)} (after : Option (Decision ℝ)) (v : Rank e.A.dims → RankVars d n)
    (hgrav : ∀ D r, e.A.grav D r.1 = e.gravOf r fun q => D.local (if e.massGrav then q.1 else r.1))
    (hext : ∀ r, D.ext r = (e.A.topo r).nxLocalWg)
    (h : distBcs e.p.hydro.user e.A.sched e.p.hydro.bcs e.isBorder e.nghost e.A.dims e.p.hydro.order D = some D') :
    Leads e.next (fun r => e.enterSync r (RankEnv.faces d) after ((v r).with (D.local r.1)))
      (fun r => e.afterGrav r after { (v r).with (D'.local r.1) with grav := e.A.grav D' r.1 }) ∧
    ∀ r, D'.ext r = (e.A.topo r).nxLocalWg := by
  unfold distBcs at h
  obtain ⟨w, hw, hD⟩ := Option.bind_eq_some_iff.1 h
  cases hD
  have hne : e.A.dims ≠ 0 ∨ True := Or.inr trivial
  have hr := allRanks_get hw e.root
  unfold bcUpdate at hr
  obtain ⟨D1, h1, -⟩ := Option.bind_eq_some_iff.1 hr
  have h2 := h1
  rw [ghostSyncAll_faces] at h2
  obtain ⟨hl, hx⟩ := sync_leads (e := e) _ after v hext h2
  have hb : ∀ r : Rank e.A.dims, bcLoop e.p.hydro.user e.A.sched e.p.hydro.bcs (e.isBorder r) (e.A.topo r).nxLocalWg e.nghost
      e.p.hydro.order (D1.local r.1) = some (w r.1) := by
    intro r
    have h3 := allRanks_get hw r
    unfold bcUpdate at h3
    rw [h1] at h3
    rw [← hx]
    exact h3
  refine ⟨hl.trans ?_, hext⟩
  have hafter : ∀ r : Rank e.A.dims, e.afterSync r after ((v r).with (D1.local r.1)) =
      if e.massGrav then some (.mass after, (v r).with (DistView.local ⟨D.ext, fun r => (w r).val⟩ r.1))
      else e.afterGrav r after { (v r).with (DistView.local ⟨D.ext, fun r => (w r).val⟩ r.1) with
        grav := e.gravOf r fun _ => DistView.local ⟨D.ext, fun r => (w r).val⟩ r.1 } := by
    intro r
    unfold RankEnv.afterSync
    rw [show ((v r).with (D1.local r.1)).s.h = D1.local r.1 from rfl, hb r]
    have hdom : (D1.local r.1).dom = inExt (D.ext r.1) := by rw [hext, ← hx]; rfl
    simp only [Option.bind_eq_bind, Option.bind_some, hdom]
    rfl
  cases hm : e.massGrav with
  | false =>
    simp only [hafter, hm, hgrav, if_false]
    exact .refl _
  | true =>
    simp only [hafter, hm, hgrav, if_true]
    refine .coll 0 (fun r => .arr (DistView.local ⟨D.ext, fun r => (w r).val⟩ r.1)) (fun _ _ => true) _ (fun r => rfl) fun r => ?_
    rfl

end Sync

section Step
variable {e : RankEnv d n} {nx : Cell}

/-- The variables of the ranks belong to the state `z` after `k` turns. -/
structure InTurn (e : RankEnv d n) (nx : Cell) (k : ℕ) (v : Rank e.A.dims → RankVars d n) (z : ProgState d n) : Prop where
  hold : RanksHold e.A nx v z
  ext : ∀ r, z.s.h.ext r = (e.A.topo r).nxLocalWg
  grav : ∀ r, (v r).grav = e.A.grav z.s.h r.1
  turn : ∀ r, (v r).turn = k

theorem RanksHold.congr {A : Machine d n} {v v' : Rank A.dims → RankVars d n} {z : ProgState d n} (h : RanksHold A nx v z)
    (h' : ∀ r, (v' r).grid = (v r).grid ∧ (v' r).s = (v r).s ∧ (v' r).status = (v r).status ∧ (v' r).written = (v r).written) :
    RanksHold A nx v' z := by
  obtain ⟨h1, W, h2, h3⟩ := h
  refine ⟨fun r => ?_, W, fun r => by rw [(h' r).2.2.2, h2], h3⟩
  rw [(h' r).1, (h' r).2.1, (h' r).2.2.1]
  exact h1 r

/-- An output by the ranks in step. -/
theorem output_leads {mem : ℕ} {up : Cell → View Cell (VelPres d ℝ)} {nAxis : Fin 3 → ℤ} {x : Fin 3 → ℤ → ℝ}
    {s : LoopState (DistView (Fields d n ℝ)) ℝ} {f : LoopState (FluidFile d n) ℝ} (crash first : Bool) (v : Rank e.A.dims → RankVars d n)
    (hup : progPrims e.p e.A (e.A.mem mem) s.h = some up) (h : progOutput e.p nx e.A (e.A.mem mem) nAxis x up s = some f) :
    ∃ g : Rank e.A.dims → LoopState (RankFile d n) ℝ, IsFileOf e.A nx nAxis x g f ∧
      Leads e.next (fun r => e.output r mem crash first (s.withFluid (s.h.local r.1)) (v r)) fun r =>
        if crash then some (.ended, { v r with written := (v r).written ++ [g r], status := .failed })
        else e.afterWrite r first { v r with written := (v r).written ++ [g r] } := by
  unfold progOutput at h
  obtain ⟨T, hT, h⟩ := Option.bind_eq_some_iff.1 h
  obtain ⟨F, hF, h⟩ := Option.bind_eq_some_iff.1 h
  cases h
  refine ⟨fun r => s.withFluid { U := s.h.local r.1, up := up r.1, T := T r.1 }, ⟨s.h, up, T, fun r => rfl, hF⟩, ?_⟩
  refine .coll 1 (fun r => .file (s.withFluid { U := s.h.local r.1, up := up r.1, T := T r.1 })) (fun _ _ => true)
    (fun r _ => if crash then
        some (.ended, { v r with written := (v r).written ++ [s.withFluid { U := s.h.local r.1, up := up r.1, T := T r.1 }], status := .failed })
      else e.afterWrite r first { v r with written := (v r).written ++ [s.withFluid { U := s.h.local r.1, up := up r.1, T := T r.1 }] })
    (fun r => ?_) fun r => rfl
  have h1 := allRanks_get hup r
  have h2 := allRanks_get hT r
  show e.next r (e.output r mem crash first _ _) = _
  unfold RankEnv.output
  rw [show (s.withFluid (s.h.local r.1)).h = s.h.local r.1 from rfl]
  simp only [h1, h2, Option.bind_eq_bind, Option.bind_some, Option.pure_def]
  rfl

/-- What follows the last call of a turn: a new turn, or the end. -/
theorem afterWrite_false (r : Rank e.A.dims) (v : RankVars d n) : e.afterWrite r false v =
    match v.status with
    | .running => e.turnTop r v
    | .finished => some (.barrier true, v)
    | .failed => some (.ended, v) := rfl

/-- One turn by the ranks in step. -/
theorem turn_leads {k : ℕ} {v : Rank e.A.dims → RankVars d n} {z z' : ProgState d n} (hg : GravLink e) (h : InTurn e nx k v z)
    (hrun : z.status = .running)
    (hz : progStep e.p nx e.nghost e.isBorder e.A (e.A.mem k) (e.clock k e.root) z = some z') :
    ∃ v', RanksHold e.A nx v' z' ∧ (z'.status ≠ .failed → InTurn e nx (k + 1) v' z') ∧
      Leads e.next (fun r => e.turnTop r (v r)) fun r => e.afterWrite r false (v' r) := by
  have hs : ∀ r, (v r).s = z.s.withFluid (z.s.h.local r.1) := fun r => (h.hold.1 r).2.1
  have hgr : ∀ r, (v r).grid = z.grid r.1 := fun r => (h.hold.1 r).1
  have hst : ∀ r, (v r).status = z.status := fun r => (h.hold.1 r).2.2
  unfold progStep at hz
  rw [hrun] at hz
  simp only [Option.bind_eq_bind, Option.pure_def] at hz
  obtain ⟨up, hup, hz⟩ := Option.bind_eq_some_iff.1 hz
  obtain ⟨dt0, hdt, hz⟩ := Option.bind_eq_some_iff.1 hz
  unfold timeStep at hdt
  simp only [Option.bind_eq_bind, Option.pure_def] at hdt
  obtain ⟨w, hw, hdt⟩ := Option.bind_eq_some_iff.1 hdt
  obtain ⟨m, hm, hdt⟩ := Option.bind_eq_some_iff.1 hdt
  cases hdt
  obtain ⟨X, hw1, hw2⟩ := reduceNum_eq e kmax hw
  rw [hm] at hw2
  have htop : ∀ r, e.turnTop r (v r) = some (.rate (up r.1) (X r.1), v r) := by
    intro r
    unfold RankEnv.turnTop
    rw [h.turn r, hs r, hgr r]
    have h1 := allRanks_get hup r
    have h2 := hw1 r
    simp only [LoopState.withFluid, h1, h2, Option.bind_eq_bind, Option.bind_some, Option.pure_def]
  have hstep : ∀ b r, decideStep e.p.loop (1 / m) b (v r).s = decideStep e.p.loop (1 / m) b z.s := by
    intro b r
    rw [hs r]; rfl
  cases hd : decideStep e.p.loop (1 / m) (e.clock k e.root) z.s with
  | error msg =>
    rw [hd] at hz
    cases hz
    refine ⟨fun r => { v r with status := .failed }, ⟨fun r => ⟨hgr r, hs r, rfl⟩, h.hold.2⟩, fun hf => absurd rfl hf, ?_⟩
    refine .coll 4 _ (fun _ _ => true) _ (fun r => by rw [htop r]; rfl) fun r => ?_
    simp only [if_true, hw2, Option.bind_eq_bind, Option.bind_some, hstep, decideStep_error false hd]
    rfl
  | ok c =>
    rw [hd] at hz
    simp only at hz
    obtain ⟨E, hE, hz⟩ := Option.bind_eq_some_iff.1 hz
    unfold minInternalEnergy at hE
    simp only [Option.bind_eq_bind, Option.pure_def] at hE
    obtain ⟨y, hy, hE⟩ := Option.bind_eq_some_iff.1 hE
    obtain ⟨Y, hy1, hy2⟩ := reduceNum_eq e kmin hy
    rw [hE] at hy2
    have hd' : ∃ c', decideStep e.p.loop (1 / m) false z.s = .ok c' := by
      cases hd' : decideStep e.p.loop (1 / m) false z.s with
      | error msg => rw [decideStep_error _ hd'] at hd; cases hd
      | ok c' => exact ⟨c', rfl⟩
    obtain ⟨c', hd'⟩ := hd'
    have hlead1 : Leads e.next (fun r => e.turnTop r (v r)) fun r => some (.clock (up r.1) (1 / m), v r) := by
      refine .coll 4 _ (fun _ _ => true) _ (fun r => by rw [htop r]; rfl) fun r => ?_
      simp only [if_true, hw2, Option.bind_eq_bind, Option.bind_some, hstep, hd']
    have hlead2 : Leads e.next (fun r => some (.clock (up r.1) (1 / m), v r)) fun r => some (.energy (up r.1) c (Y r.1), v r) := by
      refine .coll 5 (fun r => .flag (e.clock k r)) (fun _ q => q = e.root) _ (fun r => by rw [← h.turn r]; rfl) fun r => ?_
      simp only [decide_true, if_true, hstep, hd]
      rw [h.turn r, hs r]
      simp only [LoopState.withFluid, hy1 r, Option.bind_eq_bind, Option.bind_some, Option.pure_def]
    refine (fun h' => ?_ : (∃ v', RanksHold e.A nx v' z' ∧ (z'.status ≠ .failed → InTurn e nx (k + 1) v' z') ∧
      Leads e.next (fun r => some (.energy (up r.1) c (Y r.1), v r)) fun r => e.afterWrite r false (v' r)) → _) ?_
    · obtain ⟨v', h1, h2, h3⟩ := h'
      exact ⟨v', h1, h2, (hlead1.trans hlead2).trans h3⟩
    split at hz
    · rename_i hneg
      obtain ⟨f, hf, hz⟩ := Option.bind_eq_some_iff.1 hz
      cases hz
      obtain ⟨g, hgf, hl⟩ := output_leads (e := e) (s := { z.s with outputId := z.s.outputId + 1, iterId := c.iterId, timeId := c.timeId })
        true false v hup hf
      refine ⟨fun r => { v r with written := (v r).written ++ [g r], status := .failed }, ⟨fun r => ⟨hgr r, hs r, rfl⟩, ?_⟩,
        fun hf => absurd rfl hf, .trans (.coll 6 (fun r => .num (Y r.1)) (fun _ _ => true) _ (fun r => rfl) fun r => ?_) hl⟩
      · obtain ⟨W, hW1, hW2⟩ := h.hold.2
        exact ⟨W ++ [g], fun r => by simp [hW1], List.rel_append hW2 (.cons hgf .nil)⟩
      · simp only [if_true, hy2, Option.bind_eq_bind, Option.bind_some, if_pos hneg]
        rw [h.turn r, hs r]
        rfl
    · rename_i hneg
      obtain ⟨new, hnew, hz⟩ := Option.bind_eq_some_iff.1 hz
      obtain ⟨D', hD', hz⟩ := Option.bind_eq_some_iff.1 hz
      obtain ⟨hl, hext⟩ := bcs_leads (e := e) (some c) v hg (by exact h.ext) hD'
      have hlead3 : Leads e.next (fun r => some (.energy (up r.1) c (Y r.1), v r)) fun r => e.afterGrav r (some c)
          { (v r).with (D'.local r.1) with grav := e.A.grav D' r.1 } := by
        refine .trans (.coll 6 (fun r => .num (Y r.1)) (fun _ _ => true) _ (fun r => rfl) fun r => ?_) hl
        simp only [if_true, hy2, Option.bind_eq_bind, Option.bind_some, if_neg hneg]
        have h1 : rankAdvance e.p (v r).grid (e.A.mem (v r).turn r.1) (v r).grav (v r).s.t c.dt (v r).s.h (up r.1) = some (new r.1) := by
          rw [h.turn r, h.grav r, hgr r, hs r]
          exact allRanks_get hnew r
        simp only [h1, Option.bind_some]
        show e.enterSync r (RankEnv.faces d) (some c) ((v r).with ⟨(v r).s.h.dom, (new r.1).val⟩) = _
        rw [show (v r).s.h = z.s.h.local r.1 by rw [hs r]; rfl]
        rfl
      generalize hs1 : ({ h := D', t := z.s.t + c.dt, iter := z.s.iter + 1, outputId := if c.makeOutput then z.s.outputId + 1 else z.s.outputId,
                          iterId := c.iterId, timeId := c.timeId } : LoopState (DistView (Fields d n ℝ)) ℝ) = s1 at hz
      have hD1 : D' = s1.h := by rw [← hs1]
      obtain ⟨v1, hv1⟩ : ∃ v1 : Rank e.A.dims → RankVars d n, v1 = fun r =>
        { grid := (v r).grid, s := s1.withFluid (D'.local r.1), grav := e.A.grav D' r.1, written := (v r).written, turn := (v r).turn + 1
          status := if c.exit then .finished else .running } := ⟨_, rfl⟩
      have hgrav : ∀ r, e.afterGrav r (some c) { (v r).with (D'.local r.1) with grav := e.A.grav D' r.1 } =
          if c.makeOutput then e.output r k false false (s1.withFluid (s1.h.local r.1)) (v1 r) else e.afterWrite r false (v1 r) := by
        intro r
        have h1 : ({ h := D'.local r.1, t := (v r).s.t + c.dt, iter := (v r).s.iter + 1, 
                     outputId := if c.makeOutput then (v r).s.outputId + 1 else (v r).s.outputId,
                     iterId := c.iterId, timeId := c.timeId } : LoopState (View Cell (Fields d n ℝ)) ℝ) = s1.withFluid (D'.local r.1) := by
          rw [hs r, ← hs1]; rfl
        subst hD1 hv1
        unfold RankEnv.afterGrav
        simp only [← h.turn r, ← h1]
        rfl
      simp only [hgrav] at hlead3
      split at hz <;> rename_i hout
      · obtain ⟨up', hup', hz⟩ := Option.bind_eq_some_iff.1 hz
        obtain ⟨f, hf, hz⟩ := Option.bind_eq_some_iff.1 hz
        cases hz
        subst hD1
        obtain ⟨g, hgf, hl'⟩ := output_leads (e := e) (s := s1) false false v1 hup' hf
        simp only [if_pos hout] at hlead3
        have hW : RanksHold e.A nx (fun r => { v1 r with written := (v1 r).written ++ [g r] })
            { z with s := s1, files := z.files ++ [f], status := if c.exit then .finished else .running } := by
          subst hv1
          refine ⟨fun r => ⟨hgr r, rfl, rfl⟩, ?_⟩
          obtain ⟨W, hW1, hW2⟩ := h.hold.2
          exact ⟨W ++ [g], fun r => by simp [hW1], List.rel_append hW2 (.cons hgf .nil)⟩
        refine ⟨fun r => { v1 r with written := (v1 r).written ++ [g r] }, hW, fun _ => ⟨hW, hext, fun r => ?_, fun r => ?_⟩, hlead3.trans hl'⟩
        · subst hv1; rfl
        · subst hv1; exact congrArg (· + 1) (h.turn r)
      · cases hz
        subst hD1
        simp only [if_neg hout] at hlead3
        have hW : RanksHold e.A nx v1 { z with s := s1, status := if c.exit then .finished else .running } := by
          subst hv1
          exact ⟨fun r => ⟨hgr r, rfl, rfl⟩, h.hold.2⟩
        refine ⟨v1, hW, fun _ => ⟨hW, hext, fun r => ?_, fun r => ?_⟩, hlead3⟩
        · subst hv1; rfl
        · subst hv1; exact congrArg (· + 1) (h.turn r)

/-- src/main.cpp 305-353 by the ranks in step, up to the first gravity. -/
theorem start_leads {x : Fin 3 → View ℤ ℝ} {U : Cell → View Cell (Fields d n ℝ)} {up : Cell → View Cell (VelPres d ℝ)} {s : LoopState Unit ℝ}
    {grid : Cell → GridData ℝ} {D : DistView (Fields d n ℝ)} (hg : GravLink e) (h1 : progGrids e.p e.A x = some grid)
    (h2 : progConserved e.p e.nghost e.isBorder e.A U up = some D) :
    (∀ r, D.ext r = (e.A.topo r).nxLocalWg) ∧ Leads e.next (e.start x U up s) fun r => e.afterGrav r none
      { grid := grid r.1, s := s.withFluid (D.local r.1), grav := e.A.grav D r.1, written := [], turn := 0, status := .running } := by
  unfold progConserved at h2
  obtain ⟨me, hme, h2⟩ := Option.bind_eq_some_iff.1 h2
  obtain ⟨hl, hext⟩ := bcs_leads (e := e) none (fun r =>
    { grid := grid r.1, s := s.withFluid (D.local r.1), grav := fun _ _ => none, written := [], turn := 0, status := .running }) hg (fun _ => rfl) h2
  refine ⟨hext, .trans (s' := _) ?_ hl⟩
  have : e.start x U up s = fun r => e.enterSync r (RankEnv.faces d) none (RankVars.with
      { grid := grid r.1, s := s.withFluid (D.local r.1), grav := fun _ _ => none, written := [], turn := 0, status := .running }
      (DistView.local ⟨fun r => (e.A.topo r).nxLocalWg, fun r c =>
        { (U r).val c with rhou := ((me r).val c).rhou, E := ((me r).val c).E }⟩ r.1)) := by
    funext r
    unfold RankEnv.start
    have h3 := allRanks_get h1 r
    have h4 := allRanks_get hme r
    simp only [h3, h4, Option.bind_eq_bind, Option.bind_some]
    rfl
  rw [this]
  exact .refl _

/-- src/main.cpp 346-349 by the ranks in step. -/
theorem first_leads (v : Rank e.A.dims → RankVars d n) (h : ∀ r, (v r).status = .running) :
    Leads e.next (fun r => e.afterWrite r true (v r)) fun r => e.afterWrite r false (v r) := by
  refine .trans (s' := fun r => some (.barrier false, v r)) (.coll 2 (fun _ => .nothing) (fun _ _ => true) _ (fun r => rfl) fun r => rfl)
    (.coll 3 (fun _ => .nothing) (fun _ _ => true) _ (fun r => rfl) fun r => ?_)
  rw [afterWrite_false, h r]
  rfl

theorem fresh_leads {X : Fin 3 → ℤ → ℝ} {U : Cell → View Cell (Fields d n ℝ)} {up : Cell → View Cell (VelPres d ℝ)} {z : ProgState d n}
    (hg : GravLink e) (hr : e.restart = false) (h : progFresh e.p nx e.nghost e.isBorder e.A X U up = some z) :
    ∃ v, InTurn e nx 0 v z ∧ z.status = .running ∧ Leads e.next (e.startFresh nx X U up) fun r => e.afterWrite r false (v r) := by
  unfold progFresh at h
  simp only [Option.bind_eq_bind, Option.pure_def] at h
  obtain ⟨grid, h1, h⟩ := Option.bind_eq_some_iff.1 h
  obtain ⟨D, h2, h⟩ := Option.bind_eq_some_iff.1 h
  obtain ⟨hext, hl⟩ := start_leads (e := e) (s := { h := (), t := e.p.tIni, iter := 0, outputId := -1, iterId := -1, timeId := -1 }) hg h1 h2
  split at h <;> rename_i hf
  · obtain ⟨up', h3, h⟩ := Option.bind_eq_some_iff.1 h
    obtain ⟨f, h4, h⟩ := Option.bind_eq_some_iff.1 h
    cases h
    obtain ⟨v, hv⟩ : ∃ v : Rank e.A.dims → RankVars d n, v = fun r =>
      { grid := grid r.1, s := { h := D.local r.1, t := e.p.tIni, iter := 0, outputId := 0, iterId := 0, timeId := -1 }
        grav := e.A.grav D r.1, written := [], turn := 0, status := .running } := ⟨_, rfl⟩
    obtain ⟨g, hgf, hl'⟩ := output_leads (e := e) (s := { h := D, t := e.p.tIni, iter := 0, outputId := 0, iterId := 0, timeId := -1 })
      false true v h3 h4
    refine ⟨fun r => { v r with written := (v r).written ++ [g r] }, ⟨⟨fun r => ?_, [g], fun r => ?_, .cons hgf .nil⟩, hext, fun r => ?_, fun r => ?_⟩,
      rfl, (hl.trans ?_).trans (hl'.trans (first_leads _ fun r => ?_))⟩
    · subst hv; exact ⟨rfl, rfl, rfl⟩
    · subst hv; rfl
    · subst hv; rfl
    · subst hv; rfl
    · subst hv
      unfold RankEnv.afterGrav
      simp only [hr, true_and, if_pos hf]
      exact .refl _
    · subst hv; rfl
  · cases h
    refine ⟨fun r => { grid := grid r.1, s := { h := D.local r.1, t := e.p.tIni, iter := 0, outputId := -1, iterId := -1, timeId := -1 }
                       grav := e.A.grav D r.1, written := [], turn := 0, status := .running },
      ⟨⟨fun r => ⟨rfl, rfl, rfl⟩, [], fun r => rfl, .nil⟩, hext, fun r => rfl, fun r => rfl⟩, rfl, (hl.trans ?_).trans (first_leads _ fun r => rfl)⟩
    unfold RankEnv.afterGrav
    simp only [hr, true_and, if_neg hf]
    exact .refl _

theorem restart_leads {f : LoopState (FluidFile d n) ℝ} {z : ProgState d n} (hg : GravLink e) (hr : e.restart = true)
    (h : progRestart e.p nx e.nghost e.isBorder e.A f = some z) :
    ∃ v, InTurn e nx 0 v z ∧ z.status = .running ∧ Leads e.next (e.startRestart nx f) fun r => e.afterWrite r false (v r) := by
  unfold progRestart at h
  simp only [Option.bind_eq_bind, Option.pure_def] at h
  obtain ⟨x, h0, h⟩ := Option.bind_eq_some_iff.1 h
  obtain ⟨read, hread, h⟩ := Option.bind_eq_some_iff.1 h
  obtain ⟨grid, h1, h⟩ := Option.bind_eq_some_iff.1 h
  obtain ⟨D, h2, h⟩ := Option.bind_eq_some_iff.1 h
  cases h
  obtain ⟨hext, hl⟩ := start_leads (e := e) (s := f.withFluid ()) hg h1 h2
  refine ⟨fun r => { grid := grid r.1, s := f.withFluid (D.local r.1), grav := e.A.grav D r.1, written := [], turn := 0, status := .running },
    ⟨⟨fun r => ⟨rfl, rfl, rfl⟩, [], fun r => rfl, .nil⟩, hext, fun r => rfl, fun r => rfl⟩, rfl, ?_⟩
  have hs : e.startRestart nx f = e.start x (fun r => (read r).1) (fun r => (read r).2) (f.withFluid ()) := by
    funext r
    unfold RankEnv.startRestart
    have h3 := allRanks_get hread r
    simp only [h0, h3, Option.bind_eq_bind, Option.bind_some]
    rfl
  rw [hs]
  refine (hl.trans ?_).trans (first_leads _ fun r => rfl)
  unfold RankEnv.afterGrav
  simp only [hr, Bool.true_eq_false, false_and, if_false]
  exact .refl _

/-- A run by the ranks in step. -/
theorem run_leads {s0 : Rank e.A.dims → RankState d n} {z0 : Option (ProgState d n)} {v0 : Rank e.A.dims → RankVars d n} {z0' : ProgState d n}
    (hg : GravLink e) (hz0 : z0 = some z0') (h0 : InTurn e nx 0 v0 z0') (h1 : z0'.status = .running)
    (hl : Leads e.next s0 fun r => e.afterWrite r false (v0 r)) (k : ℕ) {z : ProgState d n}
    (hz : progRun e.p nx e.nghost e.isBorder e.A (fun k => e.clock k e.root) z0 k = some z) :
    ∃ v, RanksHold e.A nx v z ∧ (z.status = .running → InTurn e nx k v z) ∧ Leads e.next s0 fun r => e.afterWrite r false (v r) := by
  induction k generalizing z with
  | zero =>
    rw [progRun, hz0] at hz
    cases hz
    exact ⟨v0, h0.hold, fun _ => h0, hl⟩
  | succ k ih =>
    rw [progRun] at hz
    obtain ⟨z1, hz1, hz⟩ := Option.bind_eq_some_iff.1 hz
    obtain ⟨v, hv1, hv2, hv3⟩ := ih hz1
    by_cases hr : z1.status = .running
    · obtain ⟨v', h1, h2, h3⟩ := turn_leads hg (hv2 hr) hr hz
      refine ⟨v', h1, fun h => h2 (by rw [h]; simp), hv3.trans ?_⟩
      have : (fun r => e.afterWrite r false (v r)) = fun r => e.turnTop r (v r) := by
        funext r
        rw [afterWrite_false, (hv1.1 r).2.2, hr]
      rw [this]
      exact h3
    · have : z = z1 := by
        unfold progStep at hz
        cases hs : z1.status with
        | running => exact absurd hs hr
        | finished => rw [hs] at hz; exact (Option.some.inj hz).symm
        | failed => rw [hs] at hz; exact (Option.some.inj hz).symm
      subst this
      exact ⟨v, hv1, fun h => absurd h hr, hv3⟩

theorem end_leads (v : Rank e.A.dims → RankVars d n) {z : ProgState d n} (h : RanksHold e.A nx v z) (hz : z.status ≠ .running) :
    Leads e.next (fun r => e.afterWrite r false (v r)) fun r => some (.ended, v r) := by
  have hs : ∀ r, (v r).status = z.status := fun r => (h.1 r).2.2
  cases hst : z.status with
  | running => exact absurd hst hz
  | finished =>
    simp only [afterWrite_false, hs, hst]
    exact .trans (s' := fun r => some (.total true, v r)) (.coll 3 (fun _ => .nothing) (fun _ _ => true) _ (fun r => rfl) fun r => rfl)
      (.coll 2 (fun _ => .nothing) (fun _ _ => true) _ (fun r => rfl) fun r => rfl)
  | failed =>
    simp only [afterWrite_false, hs, hst]
    exact .refl _

/-- Every execution of a run that ends. -/
theorem executions {s0 : Rank e.A.dims → RankState d n} {z0 : Option (ProgState d n)} {v0 : Rank e.A.dims → RankVars d n} {z0' : ProgState d n}
    (hg : GravLink e) (hz0 : z0 = some z0') (h0 : InTurn e nx 0 v0 z0') (h1 : z0'.status = .running)
    (hl : Leads e.next s0 fun r => e.afterWrite r false (v0 r)) (k : ℕ) {z : ProgState d n}
    (hz : progRun e.p nx e.nghost e.isBorder e.A (fun k => e.clock k e.root) z0 k = some z) (hend : z.status ≠ .running) :
    EveryExecution e nx s0 z := by
  obtain ⟨v, h2, -, h3⟩ := run_leads hg hz0 h0 h1 hl k hz
  obtain ⟨l, h4⟩ := h3.trans (end_leads v h2 hend)
  refine ⟨3 * l * Fintype.card (Rank e.A.dims), v, h2, fun eager m N hN => ?_⟩
  obtain ⟨h5, h6⟩ := network_run h4 (fun r => rfl) hN
  refine ⟨h5, h6.imp id fun h => ⟨fun r => by rw [h.1], h.2⟩⟩

end Step

end Heracles
