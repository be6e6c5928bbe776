import Verif.Spec.Lockstep
import Mathlib.Algebra.BigOperators.Group.Finset.Basic
import Mathlib.Algebra.Order.BigOperators.Group.Finset
import Mathlib.Data.Fintype.Card
import Mathlib.Data.Fintype.BigOperators
import Mathlib.Data.Fintype.Lattice
import Mathlib.Tactic.Ring

/-!
# Every execution of the network follows the run in step

`Follow`: each rank is somewhere along the run in step, and the messages under way are those between the positions of the sender and
of the receiver.
-/

namespace Heracles

variable {R M X S : Type} [DecidableEq R]

/-- The message of a call for `q` with tag `t`. -/
def Act.msgFor (q : R) (t : ℕ) : Act R M X S → Option M
  | .exch dst _ tag msg _ => if dst = q ∧ tag = t then some msg else none
  | _ => none

omit [DecidableEq R] in
/-- The contribution to a collective operation. -/
def Act.contrib : Act R M X S → Option (ℕ × X)
  | .coll kind x _ _ => some (kind, x)
  | _ => none

section
variable (P : R → S → Act R M X S) (tr : ℕ → R → S) (n : ℕ)

/-- A run in step of `n` calls. -/
structure InStep : Prop where
  lock : ∀ i, i < n → LockStep P (tr i) (tr (i + 1))
  last : ∀ r, P r (tr n r) = .stop

/-- Calls entered. -/
def Net.entered (N : Net R M X S) (c : R → ℕ) (r : R) : ℕ := c r + if N.posted r then 1 else 0

/-- Calls whose buffer has arrived (or that are past). -/
def Net.received (N : Net R M X S) (c : R → ℕ) (r : R) : ℕ := c r + if (N.got r).isSome then 1 else 0

/-- Each rank `r` has left `c r` calls. -/
structure Follow (N : Net R M X S) (c : R → ℕ) : Prop where
  le : ∀ r, c r ≤ n
  st : ∀ r, N.st r = tr (c r) r
  posted : ∀ r, N.posted r = true → c r < n
  got : ∀ r m, N.got r = some m → N.posted r = true ∧ ∃ dst src tag msg k, P r (tr (c r) r) = .exch dst src tag msg k ∧
    (P src (tr (c r) src)).msgFor r tag = some m
  chan : ∀ r q t, N.chan r q t = ((List.range (N.entered c r)).drop (N.received c q)).filterMap fun i => (P r (tr i r)).msgFor q t
  early : ∀ q i, i < N.received c q → ∀ dst src tag msg k, P q (tr i q) = .exch dst src tag msg k → i < N.entered c src
  log : ∀ r, N.log r = (List.range (N.entered c r)).filterMap fun i => (P r (tr i r)).contrib

end

variable {P : R → S → Act R M X S} {tr : ℕ → R → S} {n : ℕ}

theorem follow_start : Follow P tr n (Net.start (tr 0)) fun _ => 0 where
  le _ := Nat.zero_le _
  st _ := rfl
  posted _ h := by simp [Net.start] at h
  got _ _ h := by simp [Net.start] at h
  chan _ _ _ := by simp [Net.start, Net.entered]
  early _ _ h := by simp [Net.start, Net.received] at h
  log _ := by simp [Net.start, Net.entered]

omit [DecidableEq R] in
/-- An exchange in a run in step: the partner on the other side. -/
theorem LockStep.partner {s s' : R → S} (h : LockStep P s s') {r dst src : R} {tag : ℕ} {msg : M} {k : M → S}
    (hr : P r (s r) = .exch dst src tag msg k) :
    (∃ src' msg' k', P src (s src) = .exch r src' tag msg' k' ∧ s' r = k msg') ∧
      (∃ dst' msg' k', P dst (s dst) = .exch dst' r tag msg' k') ∧
      ∀ q, ∃ dst' src' tag' msg' k', P q (s q) = .exch dst' src' tag' msg' k' ∧ (dst' = r → q = src ∧ tag' = tag) := by
  cases h with
  | exch d0 s0 t0 m0 k0 h hd hs ht =>
    have e := (h r).symm.trans hr
    injection e with e1 e2 e3 e4 e5
    subst e1 e2 e3 e4 e5
    refine ⟨⟨s0 (s0 r), m0 (s0 r), k0 (s0 r), ?_, rfl⟩, ⟨d0 (d0 r), m0 (d0 r), k0 (d0 r), ?_⟩, fun q => ?_⟩
    · rw [h (s0 r), hs r, ht r]
    · have := ht (d0 r)
      rw [hd r] at this
      rw [h (d0 r), hd r, this]
    · refine ⟨_, _, _, _, _, h q, fun e => ?_⟩
      have hq : q = s0 r := by rw [← e, hd q]
      exact ⟨hq, by rw [hq, ht r]⟩
  | coll kd x nd k0 h =>
    have e := (h r).symm.trans hr
    cases e

omit [DecidableEq R] in
/-- A collective operation in a run in step. -/
theorem LockStep.together {s s' : R → S} (h : LockStep P s s') {r : R} {kind : ℕ} {x : X} {needs : R → Bool} {k : (R → X) → S}
    (hr : P r (s r) = .coll kind x needs k) :
    ∃ y : R → X, y r = x ∧ (∀ q, ∃ needs' k', P q (s q) = .coll kind (y q) needs' k') ∧ s' r = k fun q => if needs q then y q else x := by
  cases h with
  | exch d0 s0 t0 m0 k0 h hd hs ht =>
    have e := (h r).symm.trans hr
    cases e
  | coll kd y nd k0 h =>
    have e := (h r).symm.trans hr
    injection e with e1 e2 e3 e4
    subst e1 e2 e3 e4
    exact ⟨y, rfl, fun q => ⟨_, _, h q⟩, rfl⟩

/-- No other rank sends to the same rank in one exchange, nor with another tag. -/
theorem msgFor_other {s s' : R → S} (h : LockStep P s s') {r dst src : R} {tag : ℕ} {msg : M} {k : M → S}
    (hr : P r (s r) = .exch dst src tag msg k) {q : R} {t : ℕ} (hq : ¬ (q = src ∧ t = tag)) : (P q (s q)).msgFor r t = none := by
  obtain ⟨d, s0, t0, m0, k0, e, h1⟩ := (h.partner hr).2.2 q
  rw [e]
  show (if d = r ∧ t0 = t then some m0 else none) = none
  rw [if_neg]
  rintro ⟨rfl, rfl⟩
  obtain ⟨a, b⟩ := h1 rfl
  exact hq ⟨a, b⟩

theorem drop_range_succ {g p : ℕ} (h : g ≤ p) : (List.range (p + 1)).drop g = (List.range p).drop g ++ [p] := by
  rw [List.range_succ, List.drop_append, List.length_range, Nat.sub_eq_zero_of_le h, List.drop_zero]

theorem drop_range_cons {g p : ℕ} (h : g < p) : (List.range p).drop g = g :: (List.range p).drop (g + 1) := by
  rw [List.drop_eq_getElem_cons (by simpa using h), List.getElem_range]

/-- Removing or adding an index without a message. -/
theorem filterMap_drop_skip {f : ℕ → Option M} {g p : ℕ} (h : f g = none) :
    ((List.range p).drop (g + 1)).filterMap f = ((List.range p).drop g).filterMap f := by
  by_cases hg : g < p
  · rw [drop_range_cons hg, List.filterMap_cons, h]
  · rw [List.drop_eq_nil_of_le (by simp; omega), List.drop_eq_nil_of_le (by simp; omega)]

theorem filterMap_range_skip {f : ℕ → Option M} {g p : ℕ} (h : f p = none) :
    ((List.range (p + 1)).drop g).filterMap f = ((List.range p).drop g).filterMap f := by
  by_cases hg : g ≤ p
  · rw [drop_range_succ hg, List.filterMap_append]
    simp [h]
  · rw [List.drop_eq_nil_of_le (by simp; omega), List.drop_eq_nil_of_le (by simp; omega)]

/-- How far the network is. -/
def Net.progress [Fintype R] (N : Net R M X S) (c : R → ℕ) : ℕ :=
  ∑ r, (3 * c r + (if N.posted r then 1 else 0) + if (N.got r).isSome then 1 else 0)

omit [DecidableEq R] in
theorem progress_lt [Fintype R] {f g : R → ℕ} {r : R} (h : f r < g r) (h' : ∀ q, q ≠ r → f q = g q) : ∑ q, f q < ∑ q, g q := by
  refine Finset.sum_lt_sum (fun q _ => ?_) ⟨r, Finset.mem_univ _, h⟩
  by_cases e : q = r
  · rw [e]; exact h.le
  · exact (h' q e).le

theorem follow_progress [Fintype R] {N : Net R M X S} {c : R → ℕ} (h : Follow P tr n N c) : N.progress c ≤ 3 * n * Fintype.card R := by
  refine (Finset.sum_le_card_nsmul Finset.univ _ (3 * n) fun r _ => ?_).trans (by simp [Finset.card_univ, mul_comm])
  have h1 := h.le r
  by_cases hp : N.posted r = true
  · have := h.posted r hp
    split_ifs <;> omega
  · have hg : N.got r = none := by
      cases e : N.got r with
      | none => rfl
      | some m => exact absurd (h.got r m e).1 hp
    simp [hp, hg]
    omega

omit [DecidableEq R] in
/-- All ranks have taken part in the same number of collective operations. -/
theorem contrib_length (hI : InStep P tr n) {i : ℕ} (hi : i ≤ n) (r q : R) :
    ((List.range i).filterMap fun j => (P r (tr j r)).contrib).length =
      ((List.range i).filterMap fun j => (P q (tr j q)).contrib).length := by
  induction i with
  | zero => rfl
  | succ i ih =>
    rw [List.range_succ, List.filterMap_append, List.filterMap_append, List.length_append, List.length_append, ih (by omega)]
    congr 1
    have hl := hI.lock i (by omega)
    generalize tr (i + 1) = s' at hl
    cases hl with
    | exch d0 s0 t0 m0 k0 h hd hs ht => simp [h r, h q, Act.contrib]
    | coll kd y nd k0 h => simp [h r, h q, Act.contrib]

omit [DecidableEq R] in
theorem contrib_get {q : R} {i p : ℕ} {z : ℕ × X}
    (h : (((List.range p).filterMap fun j => (P q (tr j q)).contrib)[((List.range i).filterMap fun j => (P q (tr j q)).contrib).length]?) =
      some z) {w : ℕ × X} (hw : (P q (tr i q)).contrib = some w) : some w = some z := by
  by_cases hp : i < p
  · obtain ⟨m, rfl⟩ : ∃ m, p = i + (m + 1) := ⟨p - i - 1, by omega⟩
    rw [List.range_add, List.filterMap_append, List.getElem?_append_right le_rfl, Nat.sub_self, List.range_succ_eq_map, List.map_cons,
      List.filterMap_cons, Nat.add_zero, hw] at h
    exact h
  · exfalso
    obtain ⟨m, rfl⟩ : ∃ m, i = p + m := ⟨i - p, by omega⟩
    rw [List.range_add, List.filterMap_append, List.length_append, List.getElem?_eq_none (by omega)] at h
    cases h

theorem follow_got_none {N : Net R M X S} {c : R → ℕ} (h : Follow P tr n N c) {r : R} (hp : N.posted r = false) : N.got r = none := by
  cases e : N.got r with
  | none => rfl
  | some m => rw [(h.got r m e).1] at hp; cases hp

/-- One step of one rank. -/
theorem follow_step [Fintype R] (hI : InStep P tr n) {N N' : Net R M X S} {c : R → ℕ} (h : Follow P tr n N c) {eager : Bool}
    (hs : NetStep P eager N N') : ∃ c', Follow P tr n N' c' ∧ N.progress c < N'.progress c' := by
  have hlt : ∀ r, P r (N.st r) ≠ .stop → c r < n := fun r hr => lt_of_le_of_ne (h.le r) fun e => hr (by rw [h.st r, e, hI.last r])
  cases hs with
  | @post r dst src tag msg k hp ha =>
    have hr := hlt r (by rw [ha]; exact fun e => by cases e)
    have hg := follow_got_none h hp
    have hL := hI.lock _ hr
    rw [h.st r] at ha
    have e0 : N.entered c r = c r := by simp [Net.entered, hp]
    refine ⟨c, ⟨h.le, h.st, ?_, ?_, ?_, ?_, ?_⟩, ?_⟩
    · intro q hq
      by_cases e : q = r
      · rw [e]; exact hr
      · exact h.posted q (by simpa [Function.update_of_ne e] using hq)
    · intro q m hm
      obtain ⟨a, b⟩ := h.got q m hm
      refine ⟨?_, b⟩
      by_cases e : q = r
      · rw [e]; exact Function.update_self ..
      · exact (Function.update_of_ne e ..).trans a
    · intro r' q t
      show setChan N.chan r dst tag (N.chan r dst tag ++ [msg]) r' q t = ((List.range (Net.entered { N with
        posted := Function.update N.posted r true, chan := setChan N.chan r dst tag (N.chan r dst tag ++ [msg]) } c r')).drop
          (N.received c q)).filterMap _
      by_cases e : r' = r
      · subst e
        have e1 : Net.entered { N with posted := Function.update N.posted r' true
                                       chan := setChan N.chan r' dst tag (N.chan r' dst tag ++ [msg]) } c r' = c r' + 1 := by
          simp [Net.entered]
        rw [e1]
        by_cases e2 : q = dst ∧ t = tag
        · obtain ⟨rfl, rfl⟩ := e2
          have hle : N.received c q ≤ c r' := by
            by_contra hcon
            obtain ⟨d', m', k', hq⟩ := (hL.partner ha).2.1
            have := h.early q (c r') (by omega) _ _ _ _ _ hq
            omega
          rw [drop_range_succ hle, List.filterMap_append]
          show (if r' = r' ∧ q = q ∧ t = t then N.chan r' q t ++ [msg] else _) = _
          rw [if_pos ⟨rfl, rfl, rfl⟩, h.chan, e0]
          congr 1
          rw [List.filterMap_cons, ha]
          simp [Act.msgFor]
        · rw [filterMap_range_skip]
          · show (if r' = r' ∧ q = dst ∧ t = tag then _ else N.chan r' q t) = _
            rw [if_neg (fun h => e2 h.2), h.chan, e0]
          · rw [ha]
            show (if dst = q ∧ tag = t then some msg else none) = none
            rw [if_neg (fun h => e2 ⟨h.1.symm, h.2.symm⟩)]
      · have e1 : Net.entered { N with posted := Function.update N.posted r true
                                       chan := setChan N.chan r dst tag (N.chan r dst tag ++ [msg]) } c r' = N.entered c r' := by
          simp [Net.entered, Function.update_of_ne e]
        rw [e1]
        show (if r' = r ∧ q = dst ∧ t = tag then _ else N.chan r' q t) = _
        rw [if_neg (fun h => e h.1), h.chan]
    · intro q i hi d' s' t' m' k' hq
      refine (h.early q i hi _ _ _ _ _ hq).trans_le ?_
      unfold Net.entered
      by_cases e : s' = r
      · rw [e, hp]; simp
      · simp [Function.update_of_ne e]
    · intro q
      by_cases e : q = r
      · subst e
        have e1 : Net.entered { N with posted := Function.update N.posted q true
                                       chan := setChan N.chan q dst tag (N.chan q dst tag ++ [msg]) } c q = c q + 1 := by
          simp [Net.entered]
        rw [e1, List.range_succ, List.filterMap_append, h.log, e0]
        simp [ha, Act.contrib]
      · have e1 : Net.entered { N with posted := Function.update N.posted r true
                                       chan := setChan N.chan r dst tag (N.chan r dst tag ++ [msg]) } c q = N.entered c q := by
          simp [Net.entered, Function.update_of_ne e]
        rw [e1, h.log]
    · refine progress_lt (r := r) ?_ fun q e => ?_
      · simp [hp]
      · simp [Function.update_of_ne e]
  | @recv r dst src tag msg m q k hp ha hg hc =>
    have hr := h.posted r hp
    have hL := hI.lock _ hr
    rw [h.st r] at ha
    have e0 : N.received c r = c r := by simp [Net.received, hg]
    -- the first message under way is the one of this call
    have hent : c r < N.entered c src := by
      by_contra hcon
      have := h.chan src r tag
      rw [hc, e0, List.drop_eq_nil_of_le (by simpa using hcon)] at this
      cases this
    obtain ⟨s1, m1, k1, hsrc, hnext⟩ := (hL.partner ha).1
    have hm1 : (P src (tr (c r) src)).msgFor r tag = some m1 := by rw [hsrc]; simp [Act.msgFor]
    have hch := h.chan src r tag
    rw [hc, e0, drop_range_cons hent, List.filterMap_cons, hm1] at hch
    injection hch with hm hq
    subst hm
    have e1 : ∀ q', Net.received { N with got := Function.update N.got r (some m), chan := setChan N.chan src r tag q } c q' =
        if q' = r then c r + 1 else N.received c q' := by
      intro q'
      by_cases e : q' = r
      · subst e; simp [Net.received]
      · simp [Net.received, e]
    refine ⟨c, ⟨h.le, h.st, h.posted, ?_, ?_, ?_, h.log⟩, ?_⟩
    · intro q' m' hm'
      by_cases e : q' = r
      · subst e
        have : m' = m := by simpa using hm'.symm
        subst this
        exact ⟨hp, _, _, _, _, _, ha, hm1⟩
      · exact h.got q' m' (by simpa [Function.update_of_ne e] using hm')
    · intro r' q' t
      rw [e1]
      show (if r' = src ∧ q' = r ∧ t = tag then q else N.chan r' q' t) =
        ((List.range (N.entered c r')).drop (if q' = r then c r + 1 else N.received c q')).filterMap _
      by_cases e : q' = r
      · subst e
        rw [if_pos rfl]
        by_cases e2 : r' = src ∧ t = tag
        · rw [if_pos ⟨e2.1, rfl, e2.2⟩, hq, e2.1, e2.2]
        · rw [if_neg (fun hh => e2 ⟨hh.1, hh.2.2⟩), filterMap_drop_skip (msgFor_other hL ha e2), h.chan, e0]
      · rw [if_neg (fun hh => e hh.2.1), if_neg e, h.chan]
    · intro q' i hi d' s' t' m' k' hq'
      rw [e1] at hi
      show i < N.entered c s'
      by_cases e : q' = r
      · subst e
        rw [if_pos rfl] at hi
        rcases Nat.lt_succ_iff_lt_or_eq.1 hi with h1 | h1
        · exact h.early q' i (by rw [e0]; exact h1) _ _ _ _ _ hq'
        · subst h1
          rw [ha] at hq'
          injection hq' with _ e2
          rw [← e2]; exact hent
      · rw [if_neg e] at hi
        exact h.early q' i hi _ _ _ _ _ hq'
    · refine progress_lt (r := r) ?_ fun q e => ?_
      · simp [hg]
      · simp [Function.update_of_ne e]
  | @done r dst src tag msg m k hp ha hg he =>
    have hr := h.posted r hp
    have hL := hI.lock _ hr
    rw [h.st r] at ha
    obtain ⟨_, d2, s2, t2, m2, k2, ha', hm⟩ := h.got r m hg
    rw [ha] at ha'
    injection ha' with f1 f2 f3 f4 f5
    subst f1 f2 f3 f4 f5
    obtain ⟨s1, m1, k1, hsrc, hnext⟩ := (hL.partner ha).1
    have hm1 : (P src (tr (c r) src)).msgFor r tag = some m1 := by rw [hsrc]; simp [Act.msgFor]
    have hmm : m = m1 := Option.some.inj (hm.symm.trans hm1)
    subst hmm
    set N' : Net R M X S := { N with st := Function.update N.st r (k m), posted := Function.update N.posted r false
                                     got := Function.update N.got r none }
    set c' := Function.update c r (c r + 1)
    have e1 : ∀ q, N'.entered c' q = N.entered c q := by
      intro q
      by_cases e : q = r
      · subst e; simp [Net.entered, N', c', hp]
      · simp [Net.entered, N', c', Function.update_of_ne e]
    have e2 : ∀ q, N'.received c' q = N.received c q := by
      intro q
      by_cases e : q = r
      · subst e; simp [Net.received, N', c', hg]
      · simp [Net.received, N', c', Function.update_of_ne e]
    refine ⟨c', ⟨?_, ?_, ?_, ?_, ?_, ?_, ?_⟩, ?_⟩
    · intro q
      by_cases e : q = r
      · subst e; simp only [c', Function.update_self]; omega
      · simpa [c', Function.update_of_ne e] using h.le q
    · intro q
      by_cases e : q = r
      · subst e; simp only [N', c', Function.update_self]; exact hnext.symm
      · simp only [N', c', Function.update_of_ne e]; exact h.st q
    · intro q hq
      by_cases e : q = r
      · subst e; simp [N'] at hq
      · simp only [N', c', Function.update_of_ne e] at hq ⊢; exact h.posted q hq
    · intro q m' hm'
      by_cases e : q = r
      · subst e; simp [N'] at hm'
      · simp only [N', c', Function.update_of_ne e] at hm' ⊢; exact h.got q m' hm'
    · intro r' q t
      rw [e1, e2]
      exact h.chan r' q t
    · intro q i hi d' s' t' m' k' hq
      rw [e1]
      rw [e2] at hi
      exact h.early q i hi _ _ _ _ _ hq
    · intro q
      rw [e1]
      exact h.log q
    · refine progress_lt (r := r) ?_ fun q e => ?_
      · simp [N', c', hp, hg]; omega
      · simp [N', c', Function.update_of_ne e]
  | @enter r kind x needs k hp ha =>
    have hr := hlt r (by rw [ha]; exact fun e => by cases e)
    have hg := follow_got_none h hp
    rw [h.st r] at ha
    have e0 : N.entered c r = c r := by simp [Net.entered, hp]
    set N' : Net R M X S := { N with posted := Function.update N.posted r true, log := Function.update N.log r (N.log r ++ [(kind, x)]) }
    have e1 : ∀ q, N'.entered c q = if q = r then c r + 1 else N.entered c q := by
      intro q
      by_cases e : q = r
      · subst e; simp [Net.entered, N']
      · simp [Net.entered, N', e]
    refine ⟨c, ⟨h.le, h.st, ?_, ?_, ?_, ?_, ?_⟩, ?_⟩
    · intro q hq
      by_cases e : q = r
      · rw [e]; exact hr
      · exact h.posted q (by simpa [N', Function.update_of_ne e] using hq)
    · intro q m hm
      obtain ⟨a, b⟩ := h.got q m hm
      refine ⟨?_, b⟩
      by_cases e : q = r
      · rw [e]; exact Function.update_self ..
      · exact (Function.update_of_ne e ..).trans a
    · intro r' q t
      rw [e1]
      show N.chan r' q t = ((List.range (if r' = r then c r + 1 else N.entered c r')).drop (N.received c q)).filterMap _
      by_cases e : r' = r
      · subst e
        rw [if_pos rfl, filterMap_range_skip (by rw [ha]; rfl), h.chan, e0]
      · rw [if_neg e, h.chan]
    · intro q i hi d' s' t' m' k' hq
      refine (h.early q i hi _ _ _ _ _ hq).trans_le ?_
      rw [e1]
      split_ifs with e
      · rw [e, e0]; omega
      · exact le_rfl
    · intro q
      rw [e1]
      by_cases e : q = r
      · subst e
        rw [if_pos rfl, List.range_succ, List.filterMap_append]
        show Function.update N.log q (N.log q ++ [(kind, x)]) q = _
        rw [Function.update_self, h.log, e0]
        simp [ha, Act.contrib]
      · rw [if_neg e, ← h.log]
        exact Function.update_of_ne e ..
    · refine progress_lt (r := r) ?_ fun q e => ?_
      · simp [N', hp]
      · simp [N', Function.update_of_ne e]
  | @leave r kind x needs k f hp ha hf hn he =>
    have hr := h.posted r hp
    have hL := hI.lock _ hr
    rw [h.st r] at ha
    have hg : N.got r = none := by
      cases e : N.got r with
      | none => rfl
      | some m =>
        obtain ⟨_, d2, s2, t2, m2, k2, ha', hm⟩ := h.got r m e
        rw [ha] at ha'; cases ha'
    obtain ⟨y, hyr, hall, hnext⟩ := hL.together ha
    -- the contributions read are those to this call
    have hfy : ∀ q, needs q = true → f q = y q := by
      intro q hq
      obtain ⟨nd', k', hq'⟩ := hall q
      have e0 : N.entered c r = c r + 1 := by simp [Net.entered, hp]
      have h1 := hf q hq
      rw [h.log r, e0, List.range_succ, List.filterMap_append, List.length_append] at h1
      have h2 : (List.filterMap (fun i => (P r (tr i r)).contrib) [c r]).length = 1 := by simp [ha, Act.contrib]
      rw [h2, Nat.add_sub_cancel, contrib_length hI hr.le r q, h.log q] at h1
      have h3 := contrib_get (i := c r) h1 (by rw [hq']; rfl)
      injection Option.some.inj h3 with _ h4
      exact h4.symm
    have hff : f = fun q => if needs q then y q else x := by
      funext q
      cases hq : needs q with
      | true => simp [hfy q hq]
      | false => simp [hn q hq]
    set N' : Net R M X S := { N with st := Function.update N.st r (k f), posted := Function.update N.posted r false }
    set c' := Function.update c r (c r + 1)
    have e1 : ∀ q, N'.entered c' q = N.entered c q := by
      intro q
      by_cases e : q = r
      · subst e; simp [Net.entered, N', c', hp]
      · simp [Net.entered, N', c', Function.update_of_ne e]
    have e2 : ∀ q, N'.received c' q = if q = r then c r + 1 else N.received c q := by
      intro q
      by_cases e : q = r
      · subst e; simp [Net.received, N', c', hg]
      · simp [Net.received, N', c', e]
    have e3 : N.received c r = c r := by simp [Net.received, hg]
    refine ⟨c', ⟨?_, ?_, ?_, ?_, ?_, ?_, ?_⟩, ?_⟩
    · intro q
      by_cases e : q = r
      · subst e; simp only [c', Function.update_self]; omega
      · simpa [c', Function.update_of_ne e] using h.le q
    · intro q
      by_cases e : q = r
      · subst e; simp only [N', c', Function.update_self]; rw [hnext, hff]
      · simp only [N', c', Function.update_of_ne e]; exact h.st q
    · intro q hq
      by_cases e : q = r
      · subst e; simp [N'] at hq
      · simp only [N', c', Function.update_of_ne e] at hq ⊢; exact h.posted q hq
    · intro q m' hm'
      by_cases e : q = r
      · subst e
        have : N.got q = some m' := hm'
        rw [hg] at this; cases this
      · simp only [N', c', Function.update_of_ne e] at hm' ⊢; exact h.got q m' hm'
    · intro r' q t
      rw [e1, e2]
      show N.chan r' q t = _
      by_cases e : q = r
      · subst e
        obtain ⟨nd', k', hq'⟩ := hall r'
        rw [if_pos rfl, filterMap_drop_skip (by rw [hq']; rfl), h.chan, e3]
      · rw [if_neg e, h.chan]
    · intro q i hi d' s' t' m' k' hq
      rw [e1]
      rw [e2] at hi
      by_cases e : q = r
      · subst e
        rw [if_pos rfl] at hi
        rcases Nat.lt_succ_iff_lt_or_eq.1 hi with h1 | h1
        · exact h.early q i (by rw [e3]; exact h1) _ _ _ _ _ hq
        · subst h1
          rw [ha] at hq; cases hq
      · rw [if_neg e] at hi
        exact h.early q i hi _ _ _ _ _ hq
    · intro q
      rw [e1]
      exact h.log q
    · refine progress_lt (r := r) ?_ fun q e => ?_
      · simp [N', c', hp, hg]; omega
      · simp [N', c', Function.update_of_ne e]

/-- While not all ranks have ended some rank can go on, even if the library buffers nothing. -/
theorem follow_go [Finite R] (hI : InStep P tr n) {N : Net R M X S} {c : R → ℕ} (h : Follow P tr n N c) (hne : ∃ r, c r < n) :
    ∃ N', NetStep P false N N' := by
  haveI : Nonempty R := ⟨hne.choose⟩
  obtain ⟨r, hmin⟩ := Finite.exists_min c
  have hr : c r < n := (hmin hne.choose).trans_lt hne.choose_spec
  have hL := hI.lock _ hr
  have ent : ∀ q, c r < N.entered c q ∨ (c q = c r ∧ N.posted q = false) := by
    intro q
    have := hmin q
    cases e : N.posted q with
    | true => left; simp only [Net.entered, e, if_true]; omega
    | false =>
      rcases Nat.lt_or_ge (c r) (c q) with h1 | h1
      · left; simp only [Net.entered, e]; omega
      · right; exact ⟨by omega, rfl⟩
  have post : ∀ {q : R} {dst src : R} {tag : ℕ} {msg : M} {k : M → S}, P q (tr (c r) q) = .exch dst src tag msg k → c q = c r →
      N.posted q = false → ∃ N', NetStep P false N N' := by
    intro q dst src tag msg k hq e hp
    exact ⟨_, NetStep.post hp (by rw [h.st q, e]; exact hq)⟩
  cases hL' : P r (tr (c r) r) with
  | stop =>
    generalize tr (c r + 1) = s' at hL
    cases hL with
    | exch d0 s0 t0 m0 k0 h0 hd hs ht => rw [h0 r] at hL'; cases hL'
    | coll kd y nd k0 h0 => rw [h0 r] at hL'; cases hL'
  | fail =>
    generalize tr (c r + 1) = s' at hL
    cases hL with
    | exch d0 s0 t0 m0 k0 h0 hd hs ht => rw [h0 r] at hL'; cases hL'
    | coll kd y nd k0 h0 => rw [h0 r] at hL'; cases hL'
  | exch dst src tag msg k =>
    cases hp : N.posted r with
    | false => exact post hL' rfl hp
    | true =>
      cases hg : N.got r with
      | none =>
        obtain ⟨⟨s1, m1, k1, hsrc, -⟩, -, -⟩ := hL.partner hL'
        rcases ent src with h1 | ⟨h1, h2⟩
        · have e0 : N.received c r = c r := by simp [Net.received, hg]
          have hm1 : (P src (tr (c r) src)).msgFor r tag = some m1 := by rw [hsrc]; simp [Act.msgFor]
          have hch := h.chan src r tag
          rw [e0, drop_range_cons h1, List.filterMap_cons, hm1] at hch
          exact ⟨_, NetStep.recv hp (by rw [h.st r]; exact hL') hg hch⟩
        · exact post hsrc h1 h2
      | some m =>
        obtain ⟨-, ⟨d1, m1, k1, hdst⟩, -⟩ := hL.partner hL'
        cases hch : N.chan r dst tag with
        | nil => exact ⟨_, NetStep.done hp (by rw [h.st r]; exact hL') hg (Or.inr hch)⟩
        | cons m2 q2 =>
          -- the receiver is still in this call
          have hent : N.received c dst < N.entered c r := by
            by_contra hcon
            have := h.chan r dst tag
            rw [hch, List.drop_eq_nil_of_le (by simpa using hcon)] at this
            cases this
          have e1 : N.entered c r = c r + 1 := by simp [Net.entered, hp]
          have hmd := hmin dst
          have e2 : c dst = c r ∧ N.got dst = none := by
            unfold Net.received at hent
            cases hgd : N.got dst with
            | none => simp [hgd] at hent; exact ⟨by omega, rfl⟩
            | some m3 => simp [hgd] at hent; omega
          cases hpd : N.posted dst with
          | false => exact post hdst e2.1 hpd
          | true => exact ⟨_, NetStep.recv hpd (by rw [h.st dst, e2.1]; exact hdst) e2.2 hch⟩
  | coll kind x needs k =>
    obtain ⟨y, hyr, hall, -⟩ := hL.together hL'
    by_cases hq : ∃ q, c q = c r ∧ N.posted q = false
    · obtain ⟨q, e, hp⟩ := hq
      obtain ⟨nd', k', hq'⟩ := hall q
      exact ⟨_, NetStep.enter hp (by rw [h.st q, e]; exact hq')⟩
    · have hent : ∀ q, c r < N.entered c q := fun q => (ent q).resolve_right fun hcon => hq ⟨q, hcon⟩
      have hp : N.posted r = true := by
        cases hp : N.posted r with
        | true => rfl
        | false => exact absurd ⟨r, rfl, hp⟩ hq
      have e1 : N.entered c r = c r + 1 := by simp [Net.entered, hp]
      have hlen : (N.log r).length = ((List.range (c r)).filterMap fun j => (P r (tr j r)).contrib).length + 1 := by
        rw [h.log r, e1, List.range_succ, List.filterMap_append, List.length_append]
        simp [hL', Act.contrib]
      have hget : ∀ q, (N.log q)[(N.log r).length - 1]? = some (kind, y q) := by
        intro q
        obtain ⟨nd', k', hq'⟩ := hall q
        have h1 := hent q
        obtain ⟨m, hm⟩ : ∃ m, N.entered c q = c r + (m + 1) := ⟨N.entered c q - c r - 1, by omega⟩
        rw [hlen, Nat.add_sub_cancel, contrib_length hI hr.le r q, h.log q, hm, List.range_add, List.filterMap_append,
          List.getElem?_append_right le_rfl, Nat.sub_self, List.range_succ_eq_map, List.map_cons, List.filterMap_cons, Nat.add_zero, hq']
        rfl
      refine ⟨_, NetStep.leave (f := fun q => if needs q then y q else x) hp (by rw [h.st r]; exact hL') (fun q hq => ?_) (fun q hq => ?_)
        (Or.inr fun q => ?_)⟩
      · rw [hget q, hq]; rfl
      · rw [hq]; rfl
      · have := (List.getElem?_eq_some_iff.1 (hget q)).1
        omega

/-- A run in step as a function of the number of calls. -/
theorem LockSteps.trace {s s' : R → S} (h : LockSteps P s n s') :
    ∃ tr : ℕ → R → S, tr 0 = s ∧ tr n = s' ∧ ∀ i, i < n → LockStep P (tr i) (tr (i + 1)) := by
  induction h with
  | zero => exact ⟨fun _ => s, rfl, rfl, fun i hi => by omega⟩
  | @succ n s1 s2 h h' ih =>
    obtain ⟨tr, h0, h1, h2⟩ := ih
    refine ⟨fun i => if i = n + 1 then s2 else tr i, ?_, if_pos rfl, fun i hi => ?_⟩
    · show (if 0 = n + 1 then s2 else tr 0) = s
      rw [if_neg (by omega), h0]
    · show LockStep P (if i = n + 1 then s2 else tr i) (if i + 1 = n + 1 then s2 else tr (i + 1))
      rw [if_neg (by omega)]
      by_cases e : i = n
      · subst e
        rw [if_pos rfl, h1]
        exact h'
      · rw [if_neg (by omega)]
        exact h2 i (by omega)

/-- **Every execution.** If the ranks in step end after `n` calls in the state `s'`, then every execution of the network from the same start, with any
buffering, has at most `3 n` steps per rank; in every state it reaches some rank can go on, even without buffering, unless all have
ended in `s'` and no message is left. -/
theorem network_run [Fintype R] {s s' : R → S} (h : LockSteps P s n s') (hstop : ∀ r, P r (s' r) = .stop) {eager : Bool} {m : ℕ}
    {N : Net R M X S} (hN : NetSteps P eager (Net.start s) m N) :
    m ≤ 3 * n * Fintype.card R ∧
      ((∃ N', NetStep P false N N') ∨ (N.st = s' ∧ (∀ r q t, N.chan r q t = []))) := by
  obtain ⟨tr, h0, h1, h2⟩ := h.trace
  have hI : InStep P tr n := ⟨h2, fun r => by rw [h1]; exact hstop r⟩
  have key : ∃ c, Follow P tr n N c ∧ m ≤ N.progress c := by
    induction hN with
    | zero => exact ⟨fun _ => 0, by rw [← h0]; exact follow_start, Nat.zero_le _⟩
    | succ hN hs ih =>
      obtain ⟨c, hc, hm⟩ := ih
      obtain ⟨c', hc', hm'⟩ := follow_step hI hc hs
      exact ⟨c', hc', by omega⟩
  obtain ⟨c, hc, hm⟩ := key
  refine ⟨hm.trans (follow_progress hc), ?_⟩
  by_cases hne : ∃ r, c r < n
  · exact Or.inl (follow_go hI hc hne)
  · right
    have hall : ∀ r, c r = n := fun r => le_antisymm (hc.le r) (not_lt.1 fun h => hne ⟨r, h⟩)
    have hp : ∀ r, N.posted r = false := fun r => by
      cases e : N.posted r with
      | false => rfl
      | true => exact absurd (hc.posted r e) (by rw [hall r]; exact lt_irrefl _)
    refine ⟨funext fun r => by rw [hc.st r, hall r, h1], fun r q t => ?_⟩
    rw [hc.chan, List.drop_eq_nil_of_le, List.filterMap_nil]
    have e1 : N.entered c r = n := by simp [Net.entered, hall r, hp r]
    have e2 : n ≤ N.received c q := by simp [Net.received, hall q]
    rw [List.length_range, e1]
    exact e2

end Heracles
