import Verif.Props.Config
import Verif.Props.Order
import Verif.Props.Boundary
import Verif.Props.Setup
import Verif.Spec.Param
import Mathlib.Tactic.FieldSimp
import Mathlib.Data.Rat.Cast.CharZero

/-!
# C76: the run is the one the configuration file asks for
-/

namespace Heracles

/-! ### Real numbers -/

theorem Apart.notDigit {s : Str} (h : Apart s) : ∀ c, s.head? = some c → c.isDigit = false := by
  intro c hc
  by_contra hd
  rw [Bool.not_eq_false] at hd
  have hs := h c hc
  have : ∀ k : Fin 10, iniSpace (Char.ofNat (48 + k)) = false := by decide
  have hd' : 48 ≤ c.toNat ∧ c.toNat ≤ 57 := by
    unfold Char.isDigit at hd
    simp only [Bool.and_eq_true, decide_eq_true_eq] at hd
    exact ⟨hd.1, hd.2⟩
  have h2 := this ⟨c.toNat - 48, by omega⟩
  simp only at h2
  rw [show 48 + (c.toNat - 48) = c.toNat by omega, Char.ofNat_toNat] at h2
  rw [h2] at hs
  cases hs

theorem Apart.ne {s : Str} (h : Apart s) {c : Char} (hc : iniSpace c = false) : s.head? ≠ some c := fun e => by
  rw [h c e] at hc; cases hc

theorem decimalValue_append (a b : List ℕ) : decimalValue (a ++ b) = decimalValue a * 10 ^ b.length + decimalValue b := by
  induction a with
  | nil => simp [decimalValue]
  | cons x a ih => simp only [List.cons_append, decimalValue, List.length_append, ih]; ring

theorem digits_drop (ds : List ℕ) (rest : Str) : (ds.map digitText ++ rest).drop ds.length = rest := by
  rw [List.drop_left' (by simp)]

/-- The text after the integer part. -/
def fracText : Option (List ℕ) → Str
  | none => []
  | some f => '.' :: f.map digitText

/-- The value of an exponent. -/
def expValue : Option (Bool × Sign × List ℕ) → ℤ
  | none => 0
  | some (_, sg, ds) => sg.apply (decimalValue ds)

/-- The text of an exponent. -/
def expText : Option (Bool × Sign × List ℕ) → Str
  | none => []
  | some (upper, sg, ds) => (if upper then 'E' else 'e') :: (sg.text ++ ds.map digitText)

theorem expText_head {rest : Str} (hr : Apart rest) (e : Option (Bool × Sign × List ℕ)) :
    (∀ c, (expText e ++ rest).head? = some c → c.isDigit = false) ∧ (expText e ++ rest).head? ≠ some '.' := by
  cases e with
  | none => exact ⟨hr.notDigit, hr.ne (by decide)⟩
  | some e =>
    obtain ⟨up, sg, ds⟩ := e
    simp only [expText, List.cons_append, List.head?_cons, Option.some.injEq]
    cases up <;> refine ⟨fun c hc => ?_, by decide⟩ <;> subst hc <;> decide

theorem stodExponent_text {rest : Str} (hr : Apart rest) {e : Option (Bool × Sign × List ℕ)} (he : ∀ x, e = some x → x.2.2 ≠ [] ∧ ∀ k ∈ x.2.2, k < 10) :
    stodExponent (expText e ++ rest) = expValue e := by
  cases e with
  | none =>
    unfold stodExponent
    rw [if_neg (by rintro (h | h) <;> exact hr.ne (by decide) h)]
    rfl
  | some e =>
    obtain ⟨up, sg, ds⟩ := e
    obtain ⟨h1, h2⟩ := he _ rfl
    simp only at h1 h2
    obtain ⟨k, ds', rfl⟩ := List.exists_cons_of_ne_nil h1
    obtain ⟨-, -, -, h4, h5⟩ := digitText_spec (h2 k List.mem_cons_self)
    have hp := digitsPrefix_spec hr.notDigit (k :: ds') 0 h2
    rw [zero_mul, zero_add] at hp
    have hh : (List.map digitText (k :: ds') ++ rest).head? = some (digitText k) := rfl
    have hc : (expText (some (up, sg, k :: ds')) ++ rest).head? = some 'e' ∨ (expText (some (up, sg, k :: ds')) ++ rest).head? = some 'E' := by
      cases up
      · exact Or.inl rfl
      · exact Or.inr rfl
    unfold stodExponent
    rw [if_pos hc]
    simp only [expText, List.cons_append, List.tail_cons]
    cases sg with
    | none => simp only [Sign.text, List.nil_append, Sign.apply, hh, Option.some.injEq, h4, h5, or_self, if_false, hp, expValue]
    | plus =>
      simp only [expValue, Sign.text, Sign.apply, List.cons_append, List.nil_append, List.head?_cons, List.tail_cons, or_true, if_true, hp,
        show ¬ (some '+' = some '-') by decide, if_false]
    | minus => simp only [expValue, Sign.text, Sign.apply, List.cons_append, List.nil_append, List.head?_cons, List.tail_cons, true_or, if_true, hp]

theorem stodMagnitude_text {rest : Str} (hr : Apart rest) {i : List ℕ} {f : Option (List ℕ)} {e : Option (Bool × Sign × List ℕ)}
    (hi : ∀ k ∈ i ++ f.getD [], k < 10) (hne : i ++ f.getD [] ≠ []) :
    stodMagnitude (i.map digitText ++ (fracText f ++ (expText e ++ rest))) =
      .ok ((decimalValue (i ++ f.getD []) : ℚ) * 10 ^ (stodExponent (expText e ++ rest) - ((f.getD []).length : ℤ))) := by
  obtain ⟨hd, hpt⟩ := expText_head hr e
  cases f with
  | none =>
    simp only [Option.getD_none, List.append_nil, List.nil_append, fracText] at hi hne ⊢
    have hp := digitsPrefix_spec hd i 0 hi
    rw [zero_mul, zero_add] at hp
    unfold stodMagnitude
    simp only [hp, digits_drop, hpt, if_false]
    rw [if_neg (by simpa using hne)]
    simp
  | some f =>
    simp only [Option.getD_some, fracText] at hi hne ⊢
    have hp : digitsPrefix (i.map digitText ++ '.' :: (f.map digitText ++ (expText e ++ rest))) 0 = (decimalValue i, i.length) := by
      rw [digitsPrefix_spec (fun c hc => ?_) i 0 fun k hk => hi k (List.mem_append_left _ hk), zero_mul, zero_add]
      simp only [List.head?_cons, Option.some.injEq] at hc
      subst hc
      decide
    have hp' := digitsPrefix_spec hd f (decimalValue i) fun k hk => hi k (List.mem_append_right _ hk)
    unfold stodMagnitude
    simp only [hp, digits_drop, List.cons_append, List.head?_cons, List.tail_cons, if_true, hp']
    rw [if_neg (by
      intro h
      apply hne
      have h1 : i.length = 0 := by omega
      have h2 : f.length = 0 := by omega
      rw [List.length_eq_zero_iff.1 h1, List.length_eq_zero_iff.1 h2]; rfl), decimalValue_append]

theorem Decimal.text_eq (x : Decimal) (rest : Str) : x.text ++ rest =
    x.sg.text ++ (x.int.map digitText ++ (fracText x.frac ++ (expText x.exp ++ rest))) := by
  obtain ⟨sg, i, f, e⟩ := x
  cases f <;> cases e <;> simp [Decimal.text, expText, fracText, List.append_assoc]

theorem body_head {i : List ℕ} {f : Option (List ℕ)} (hi : ∀ k ∈ i ++ f.getD [], k < 10) (hne : i ++ f.getD [] ≠ []) (rest : Str) :
    ∃ c, (i.map digitText ++ (fracText f ++ rest)).head? = some c ∧
      iniSpace c = false ∧ c ≠ '-' ∧ c ≠ '+' := by
  cases i with
  | cons k i =>
    obtain ⟨-, -, h3, h4, h5⟩ := digitText_spec (hi k (by simp))
    exact ⟨_, rfl, h3, h4, h5⟩
  | nil =>
    cases f with
    | none => exact absurd rfl hne
    | some f => exact ⟨'.', rfl, by decide, by decide, by decide⟩

/-- C76: the reading of real numbers understands every decimal numeral. -/
theorem C76_real : ReadsDecimals stodDecimal := by
  intro x ⟨hd, hne, he⟩ rest hr
  obtain ⟨c, hc, h1, h2, h3⟩ := body_head hd hne (expText x.exp ++ rest)
  rw [Decimal.text_eq]
  have hm := stodMagnitude_text hr (e := x.exp) hd hne
  rw [stodExponent_text hr he] at hm
  rw [show expValue x.exp = x.power by unfold Decimal.power; cases x.exp <;> rfl] at hm
  change _ = Except.ok ((decimalValue (x.int ++ x.fracDigits) : ℚ) * 10 ^ (x.power - (x.fracDigits.length : ℤ))) at hm
  generalize hB : x.int.map digitText ++ (fracText x.frac ++ (expText x.exp ++ rest)) = B at *
  have hsk : lskip (x.sg.text ++ B) = x.sg.text ++ B := by
    apply lskip_trimmed
    intro c' hc'
    cases hs : x.sg <;> rw [hs] at hc' <;> simp only [Sign.text, List.nil_append, List.cons_append, List.head?_cons, Option.some.injEq] at hc'
    · rw [hc, Option.some.injEq] at hc'; rw [← hc']; exact h1
    · rw [← hc']; decide
    · rw [← hc']; decide
  unfold stodDecimal Decimal.value
  rw [hsk]
  cases x.sg with
  | none => simp [Sign.text, Sign.apply, hc, h2, h3, hm, Except.map]
  | plus => simp [Sign.text, Sign.apply, hm, Except.map]
  | minus => simp [Sign.text, Sign.apply, hm, Except.map]

/-- C76: the same over the reals, or any field that contains the rationals. -/
theorem C76_real_cast {K : Type} [Field K] [CharZero K] : ReadsDecimals fun s => (stodDecimal s).map (Rat.cast : ℚ → K) := by
  intro x hx rest hr
  simp only [C76_real x hx rest hr, Except.map]
  simp

/-! ### The getters -/

/-- The stored values of a file. -/
theorem values_eq {items : List IniItem} (h : FileOk items) {values : Str → Option Str} (hv : iniReader (fileText items) = .ok values) {sec name : String}
    (hn : '=' ∉ name.toList) : values (makeKey sec.toList name.toList) =
      if valuesOf sec.toList name.toList [] none items = [] then none else some (joined (valuesOf sec.toList name.toList [] none items)) := by
  obtain ⟨values', hv', hl⟩ := C57_entries h
  rw [hv] at hv'
  cases hv'
  have h1 := hl sec.toList name.toList [] hn
  have h2 := hl sec.toList name.toList ['x'] hn
  unfold iniLookup at h1 h2
  by_cases he : valuesOf sec.toList name.toList [] none items = []
  · rw [if_pos he] at h1 h2 ⊢
    cases hx : values (makeKey sec.toList name.toList) with
    | none => rfl
    | some v => rw [hx] at h1 h2; simp only [Option.getD_some] at h1 h2; rw [h1] at h2; cases h2
  · rw [if_neg he] at h1 h2 ⊢
    cases hx : values (makeKey sec.toList name.toList) with
    | none => rw [hx] at h1 h2; simp only [Option.getD_none] at h1 h2; rw [← h1] at h2; cases h2
    | some v => rw [hx] at h1; rw [← h1]; rfl

/-- The file has been read into `values`. -/
structure Stored (items : List IniItem) (values : Str → Option Str) : Prop where
  file : FileOk items
  read : iniReader (fileText items) = .ok values

section
variable {items : List IniItem} {values : Str → Option Str} {sec name : String}

theorem Stored.lookup (h : Stored items values) (hn : '=' ∉ name.toList) (dflt : Str) : iniLookup values sec.toList name.toList dflt =
    if valuesOf sec.toList name.toList [] none items = [] then dflt else written items sec name := by
  unfold iniLookup
  rw [values_eq h.file h.read hn]
  by_cases he : valuesOf sec.toList name.toList [] none items = []
  · rw [if_pos he, if_pos he]; rfl
  · rw [if_neg he, if_neg he]; rfl

theorem Stored.written (h : Stored items values) (hn : '=' ∉ name.toList) : iniLookup values sec.toList name.toList [] = written items sec name := by
  rw [h.lookup hn]
  by_cases he : valuesOf sec.toList name.toList [] none items = []
  · rw [if_pos he]; unfold Heracles.written; rw [he]; rfl
  · rw [if_neg he]

theorem Stored.text (h : Stored items values) (hn : '=' ∉ name.toList) {dflt : String} {v : Str} (hs : SaysText items sec name dflt v) :
    iniLookup values sec.toList name.toList dflt.toList = v := by rw [h.lookup hn]; exact hs.symm

theorem Stored.int (h : Stored items values) (hn : '=' ∉ name.toList) {dflt v : ℤ} (hs : SaysInt items sec name dflt v) :
    iniGetInteger values sec.toList name.toList dflt = .ok v := by
  unfold iniGetInteger
  simp only [h.written hn]
  rcases hs with ⟨h1, rfl⟩ | ⟨sg, ds, rest, h1, h2, h3, h4, rfl, h5, h6⟩
  · rw [h1]; rfl
  · rw [h4, if_neg, C57_integer h1 h2 h3.notDigit, if_pos ⟨h5, h6⟩]
    obtain ⟨k, ds, rfl⟩ := List.exists_cons_of_ne_nil h1
    simp

theorem Stored.bool (h : Stored items values) (hn : '=' ∉ name.toList) {dflt v : Bool} (hs : SaysBool items sec name dflt v) :
    iniGetBoolean values sec.toList name.toList dflt = .ok v := by
  unfold iniGetBoolean
  simp only [h.written hn]
  rcases hs with ⟨h1, rfl⟩ | h1
  · rw [h1]; rfl
  · rw [if_neg]
    · cases v
      · exact (C57_boolean _).2.2 (by simpa using h1)
      · exact (C57_boolean _).1.2 (by simpa using h1)
    · intro he
      rw [List.isEmpty_iff.1 he] at h1
      cases v <;> revert h1 <;> decide

variable {K : Type} [Field K] {stod : Str → Except String K}

theorem Stored.real (h : Stored items values) (hr : ReadsDecimals stod) (hn : '=' ∉ name.toList) {dflt v : K} (hs : SaysReal items sec name dflt v) :
    iniGetReal stod values sec.toList name.toList dflt = .ok v := by
  unfold iniGetReal
  simp only [h.written hn]
  rcases hs with ⟨h1, rfl⟩ | ⟨x, rest, h1, h2, h3, rfl⟩
  · rw [h1]; rfl
  · rw [h3, if_neg, hr x h1 rest h2]
    intro he
    obtain ⟨c, hc, -⟩ := body_head h1.1 h1.2.1 (expText x.exp ++ rest)
    have e := List.isEmpty_iff.1 he
    rw [Decimal.text_eq] at e
    rw [(List.append_eq_nil_iff.1 e).2] at hc
    cases hc

/-- C76: every parameter of the run is what the file gives for its key, or its default. -/
theorem C76_param (h : Stored items values) (hr : ReadsDecimals stod) {p : Param K} (hp : ParamSays items p) : paramOf stod values = .ok p := by
  have nx0 : iniGetInteger values "Grid".toList "Nx0_glob".toList 0 = .ok (p.nx 0) := h.int (by decide) (hp.nx 0)
  have nx1 : iniGetInteger values "Grid".toList "Nx1_glob".toList 0 = .ok (p.nx 1) := h.int (by decide) (hp.nx 1)
  have nx2 : iniGetInteger values "Grid".toList "Nx2_glob".toList 0 = .ok (p.nx 2) := h.int (by decide) (hp.nx 2)
  have dims0 : iniGetInteger values "Parallelization".toList "mpi_dims_cart_x0".toList 0 = .ok (p.dims 0) := h.int (by decide) (hp.dims 0)
  have dims1 : iniGetInteger values "Parallelization".toList "mpi_dims_cart_x1".toList 0 = .ok (p.dims 1) := h.int (by decide) (hp.dims 1)
  have dims2 : iniGetInteger values "Parallelization".toList "mpi_dims_cart_x2".toList 0 = .ok (p.dims 2) := h.int (by decide) (hp.dims 2)
  have xmin0 : iniGetReal stod values "Grid".toList "x0min".toList 0 = .ok (p.xmin 0) := h.real hr (by decide) (hp.xmin 0)
  have xmin1 : iniGetReal stod values "Grid".toList "x1min".toList 0 = .ok (p.xmin 1) := h.real hr (by decide) (hp.xmin 1)
  have xmin2 : iniGetReal stod values "Grid".toList "x2min".toList 0 = .ok (p.xmin 2) := h.real hr (by decide) (hp.xmin 2)
  have xmax0 : iniGetReal stod values "Grid".toList "x0max".toList 1 = .ok (p.xmax 0) := h.real hr (by decide) (hp.xmax 0)
  have xmax1 : iniGetReal stod values "Grid".toList "x1max".toList 1 = .ok (p.xmax 1) := h.real hr (by decide) (hp.xmax 1)
  have xmax2 : iniGetReal stod values "Grid".toList "x2max".toList 1 = .ok (p.xmax 2) := h.real hr (by decide) (hp.xmax 2)
  have gx0 : iniGetReal stod values "Gravity".toList "gx0".toList 0 = .ok (p.gx 0) := h.real hr (by decide) (hp.gx 0)
  have gx1 : iniGetReal stod values "Gravity".toList "gx1".toList 0 = .ok (p.gx 1) := h.real hr (by decide) (hp.gx 1)
  have gx2 : iniGetReal stod values "Gravity".toList "gx2".toList 0 = .ok (p.gx 2) := h.real hr (by decide) (hp.gx 2)
  have ok : ∀ {α β : Type} (a : α) (f : α → Except String β), ((Except.ok a : Except String α) >>= f) = f a := fun _ _ => rfl
  have v3 : ∀ {α : Type} (f : Fin 3 → α), ![f 0, f 1, f 2] = f := fun f => by funext a; fin_cases a <;> rfl
  unfold paramOf
  simp only [h.bool (by decide) hp.restart, ok, h.real hr (by decide) hp.rmaxShift, ok, nx0, ok, nx1, ok, nx2, ok, h.int (by decide) hp.ng, ok, xmin0, ok, xmax0, ok, xmin1, ok, xmax1, ok, xmin2, ok, xmax2, ok, h.bool (by decide) hp.deviceAware, ok, dims0, ok, dims1, ok, dims2, ok, h.real hr (by decide) hp.tIni, ok, h.real hr (by decide) hp.tEnd, ok, h.real hr (by decide) hp.cfl, ok, h.int (by decide) hp.maxIter, ok, h.int (by decide) hp.iterFreq, ok, h.real hr (by decide) hp.timeFreq, ok, h.real hr (by decide) hp.timeFirst, ok, h.int (by decide) hp.timeJob, ok, gx0, ok, gx1, ok, gx2, ok, h.real hr (by decide) hp.mass, ok, h.real hr (by decide) hp.gamma, ok, h.real hr (by decide) hp.mu, ok, h.int (by decide) hp.nfx, ok, h.real hr (by decide) hp.epsPf, ok]
  simp only [h.text (by decide) hp.problem, h.text (by decide) hp.restartFile, h.text (by decide) hp.gridType, h.text (by decide) hp.shiftGrid, h.text (by decide) hp.directory, h.text (by decide) hp.pfx, h.text (by decide) hp.reconstruction, h.text (by decide) hp.riemann, h.text (by decide) hp.bc, h.text (by decide) hp.priority, h.text (by decide) hp.userStep, h.text (by decide) hp.pressureFix, v3]
  rfl

/-! ### The choices -/

theorem ofList_eq {s : Str} {t : String} : String.ofList s = t ↔ s = t.toList :=
  ⟨fun h => by rw [← h, String.toList_ofList], fun h => by rw [h, String.ofList_toList]⟩

theorem Selects.str {V : Type} {f : String → Except String V} {list : List (String × V)} (h : Selects f list) {s : Str} {v : V} :
    f (String.ofList s) = .ok v ↔ (s, v) ∈ list.map fun x => (x.1.toList, x.2) := by
  constructor
  · intro hf
    by_cases hm : String.ofList s ∈ list.map Prod.fst
    · obtain ⟨⟨t, v'⟩, h1, h2⟩ := List.mem_map.1 hm
      simp only at h2
      have h3 := h.1 t v' h1
      rw [h2, hf] at h3
      cases h3
      exact List.mem_map.2 ⟨_, h1, by simp only [h2, String.toList_ofList]⟩
    · obtain ⟨m, hm⟩ := h.2 _ hm
      rw [hm] at hf; cases hf
  · intro hm
    obtain ⟨⟨t, v'⟩, h1, h2⟩ := List.mem_map.1 hm
    simp only [Prod.mk.injEq] at h2
    rw [← h2.1, ← h2.2, String.ofList_toList]
    exact h.1 _ _ h1

theorem Stored.face (h : Stored items values) (a : Fin 3) (f : Fin 2) :
    resolvedChoice (bcEntry values) (dirKey a) (faceKey a f) = String.ofList (saysFace items a f) := by
  have h1 := values_eq h.file h.read (sec := "Boundary Condition") (name := faceKey a f) (by fin_cases a <;> fin_cases f <;> decide)
  have h2 := values_eq h.file h.read (sec := "Boundary Condition") (name := dirKey a) (by fin_cases a <;> decide)
  have h3 := values_eq h.file h.read (sec := "Boundary Condition") (name := "BC") (by decide)
  unfold resolvedChoice bcEntry saysFace
  rw [h1, h2, h3]
  simp only [← show dirKey a = ["BC_X0", "BC_X1", "BC_X2"].getD a.val "" from rfl,
    ← show faceKey a f = dirKey a ++ ["_left", "_right"].getD f.val "" from rfl]
  generalize valuesOf "Boundary Condition".toList (faceKey a f).toList [] none items = A
  generalize valuesOf "Boundary Condition".toList (dirKey a).toList [] none items = B
  generalize valuesOf "Boundary Condition".toList "BC".toList [] none items = C
  cases A <;> cases B <;> cases C <;> rfl

theorem kindOfName_iff (s : Str) (k : BcKind) : kindOfName (String.ofList s) = some k ↔
    (s, k) ∈ [("NullGradient".toList, BcKind.nullGradient), ("Periodic".toList, .periodic), ("Reflexive".toList, .reflexive),
      ("UserDefined".toList, .userDefined)] := by
  rw [← bcConstruct_ok_iff, C53_boundaries.str]
  rfl

theorem bindOk {α β : Type} {x : Except String α} {f : α → Except String β} {b : β} : (x >>= f) = .ok b ↔ ∃ a, x = .ok a ∧ f a = .ok b := by
  cases x with
  | error e => exact ⟨fun h => (by cases h), fun ⟨_, h, _⟩ => (by cases h)⟩
  | ok a => exact ⟨fun h => ⟨a, rfl, h⟩, fun ⟨_, h, h'⟩ => (by cases h; exact h')⟩

theorem bcSelect_split (d : ℕ) (get : String → Option String) (r : List BcKind) : bcSelect d get = .ok r ↔
    ∃ ch, ((faceList d).mapM fun af => bcChoice get af.1 af.2) = .ok ch ∧ ch.mapM bcConstruct = .ok r := by
  rw [← bindOk]; rfl

variable {G : Type} {gas : K → K → Except String G} {d : ℕ}

/-- C76: if the file gives the parameters and the choices of `c`, then the run is `c`; a complete priority list, or none, gives an order in which
every face occurs once (which one: C08). -/
theorem C76_config (h1 : 1 ≤ d) (hd : d ≤ 3) (h : Stored items values) (hr : ReadsDecimals stod) {c : RunConfig d G K} (hp : ParamSays items c.param)
    (hc : ChoicesSay gas items c)
    (hq : c.param.priority = [] ∨ ∃ q : List ℕ, q.Perm (List.range (2 * d)) ∧ c.param.priority = priorityText q) :
    ∃ o : List ℕ, o.Perm (List.range (2 * d)) ∧ configure d stod gas values = .ok { c with order := o.map some } := by
  obtain ⟨o, ho, hgen⟩ : ∃ o : List ℕ, o.Perm (List.range (2 * d)) ∧ generateOrder d c.param.priority = .ok (o.map some) := by
    rcases hq with hq | ⟨q, hq, e⟩
    · exact ⟨List.range (2 * d), List.Perm.refl _, by rw [hq]; exact (C08_default_violated d h1).1⟩
    · obtain ⟨o, ho, ho'⟩ := C09_complete_list_initialised d h1 hd q hq
      exact ⟨o, ho', by rw [e, ho]⟩
  refine ⟨o, ho, ?_⟩
  have hk : ∀ a : Fin 3, (ha : a.val < d) → ∀ f, kindOfName (resolvedChoice (bcEntry values) (dirKey a) (faceKey a f)) = some (c.bcs ⟨a, ha⟩ f) := by
    intro a ha f
    rw [h.face, kindOfName_iff]
    exact hc.bcs ⟨a, ha⟩ a f rfl
  obtain ⟨hs1, hs2⟩ := C10_select d hd (bcEntry values)
  obtain ⟨r, hrr⟩ := hs1.2 fun a ha f => by rw [hk a ha f]; rfl
  obtain ⟨-, hr2⟩ := hs2 r hrr
  obtain ⟨ch, hch, hch'⟩ := (bcSelect_split d _ r).1 hrr
  have hbcs : (fun (a : Fin d) (f : Fin 2) => r.getD (2 * a.val + f.val) .nullGradient) = c.bcs := by
    funext a f
    rw [List.getD_eq_getElem?_getD, hr2 ⟨a, by omega⟩ a.2 f, hk ⟨a, by omega⟩ a.2 f]
    rfl
  have hgrid : gridChoice c.param = .ok c.grid := by
    have hg := hc.grid
    unfold gridChoice
    by_cases hre : c.param.restart = true
    · rw [if_pos hre] at hg ⊢; rw [hg]
    · rw [if_neg hre] at hg ⊢
      rcases hg with ⟨e1, e2⟩ | ⟨e1, e2⟩
      · rw [e1, String.ofList_toList, e2]; rfl
      · rw [e1, String.ofList_toList, e2]; rfl
  have hsh : decide (c.param.shiftGrid = "UserDefined".toList) = c.shift := by
    rw [Bool.eq_iff_iff, decide_eq_true_eq]; exact hc.shift.symm
  have ok : ∀ {α β : Type} (a : α) (f : α → Except String β), ((Except.ok a : Except String α) >>= f) = f a := fun _ _ => rfl
  unfold configure
  simp only [C76_param h hr hp, ok, hc.gas, hch, hgrid, hch', hgen, C53_limiters.str.2 hc.lim, C53_solvers.str.2 hc.sol, C53_user_steps.str.2 hc.step,
    hbcs, hsh]
  rfl

theorem ok_bind {α β : Type} {P : β → Prop} {x : Except String α} {f : α → Except String β} (h : ∀ a {b}, f a = .ok b → P b) {b : β}
    (hb : (x >>= f) = .ok b) : P b := by
  obtain ⟨a, -, ha⟩ := bindOk.1 hb
  exact h a ha

/-- C76: texts are never altered. -/
theorem C76_texts (h : Stored items values) {p : Param K} (hp : paramOf stod values = .ok p) : TextsSay items p := by
  have lk : ∀ {sec name : String} (dflt : String), '=' ∉ name.toList → SaysText items sec name dflt (iniLookup values sec.toList name.toList dflt.toList) :=
    fun dflt hn => by unfold SaysText; rw [h.lookup hn]
  revert hp
  revert p
  unfold paramOf
  simp only
  repeat refine ok_bind fun _ => ?_
  intro p hp
  cases hp
  constructor <;> exact lk _ (by decide)

/-- C76: whatever the reading of real numbers, a configuration that is accepted has only known names, and its choices are those of the file. -/
theorem C76_only_known (hd : d ≤ 3) (h : Stored items values) {c : RunConfig d G K} (hc : configure d stod gas values = .ok c) :
    TextsSay items c.param ∧ ChoicesSay gas items c := by
  unfold configure at hc
  simp only [bindOk] at hc
  obtain ⟨p, e1, g, e2, ch, e3, gr, e4, r, e5, o, e6, l, e7, s, e8, u, e9, hc⟩ := hc
  cases hc
  refine ⟨C76_texts h e1, ⟨e2, ?_, ?_, C53_limiters.str.1 e7, C53_solvers.str.1 e8, C53_user_steps.str.1 e9, decide_eq_true_iff⟩⟩
  · unfold gridChoice at e4
    by_cases hre : p.restart = true
    · rw [if_pos hre] at e4 ⊢; cases e4; rfl
    · rw [if_neg hre] at e4 ⊢
      cases hg : gridConstruct (String.ofList p.gridType) with
      | error m => rw [hg] at e4; cases e4
      | ok k =>
        rw [hg] at e4
        cases e4
        have := C53_grids.str.1 hg
        simp only [List.map_cons, List.map_nil, List.mem_cons, Prod.mk.injEq, List.not_mem_nil, or_false] at this
        rcases this with ⟨e, rfl⟩ | ⟨e, rfl⟩
        · exact Or.inl ⟨e, rfl⟩
        · exact Or.inr ⟨e, rfl⟩
  · intro a a' f haa
    obtain ⟨hs1, hs2⟩ := C10_select d hd (bcEntry values)
    have hsel := (bcSelect_split d (bcEntry values) r).2 ⟨ch, e3, e5⟩
    have h2 := (hs2 r hsel).2 a' (by omega) f
    have h3 := hs1.1 ⟨r, hsel⟩ a' (by omega) f
    obtain ⟨k, hk⟩ := Option.isSome_iff_exists.1 h3
    simp only [List.getD_eq_getElem?_getD, ← haa, h2, hk, Option.getD_some]
    rw [h.face, kindOfName_iff] at hk
    exact hk

/-- Two tables that agree on the known keys give the same configuration. -/
theorem configure_congr {values' : Str → Option Str}
    (e : ∀ x ∈ knownKeys, values (makeKey x.1.toList x.2.toList) = values' (makeKey x.1.toList x.2.toList)) :
    configure d stod gas values = configure d stod gas values' := by
  have gs : ∀ sec name : String, (sec, name) ∈ knownKeys → ∀ dflt, iniLookup values sec.toList name.toList dflt = iniLookup values' sec.toList name.toList dflt :=
    fun sec name hx dflt => by unfold iniLookup; rw [e _ hx]
  have gi : ∀ sec name : String, (sec, name) ∈ knownKeys →
      ∀ dflt, iniGetInteger values sec.toList name.toList dflt = iniGetInteger values' sec.toList name.toList dflt :=
    fun sec name hx dflt => by unfold iniGetInteger; rw [gs _ _ hx]
  have gb : ∀ sec name : String, (sec, name) ∈ knownKeys →
      ∀ dflt, iniGetBoolean values sec.toList name.toList dflt = iniGetBoolean values' sec.toList name.toList dflt :=
    fun sec name hx dflt => by unfold iniGetBoolean; rw [gs _ _ hx]
  have gr : ∀ sec name : String, (sec, name) ∈ knownKeys →
      ∀ dflt, iniGetReal stod values sec.toList name.toList dflt = iniGetReal stod values' sec.toList name.toList dflt :=
    fun sec name hx dflt => by unfold iniGetReal; rw [gs _ _ hx]
  have hp : paramOf stod values = paramOf stod values' := by
    unfold paramOf
    simp only [gb "Problem" "restart" (by decide +kernel), gr "Problem" "rmax_shift" (by decide +kernel), gi "Grid" "Nx0_glob" (by decide +kernel), gi "Grid" "Nx1_glob" (by decide +kernel), gi "Grid" "Nx2_glob" (by decide +kernel), gi "Grid" "Nghost" (by decide +kernel), gr "Grid" "x0min" (by decide +kernel), gr "Grid" "x0max" (by decide +kernel), gr "Grid" "x1min" (by decide +kernel), gr "Grid" "x1max" (by decide +kernel), gr "Grid" "x2min" (by decide +kernel), gr "Grid" "x2max" (by decide +kernel), gb "Parallelization" "mpi_device_aware" (by decide +kernel), gi "Parallelization" "mpi_dims_cart_x0" (by decide +kernel), gi "Parallelization" "mpi_dims_cart_x1" (by decide +kernel), gi "Parallelization" "mpi_dims_cart_x2" (by decide +kernel), gr "Run" "t_ini" (by decide +kernel), gr "Run" "t_end" (by decide +kernel), gr "Run" "cfl" (by decide +kernel), gi "Output" "max_iter" (by decide +kernel), gi "Output" "iter_frequency" (by decide +kernel), gr "Output" "time_frequency" (by decide +kernel), gr "Output" "time_first_output" (by decide +kernel), gi "Output" "time_job" (by decide +kernel), gr "Gravity" "gx0" (by decide +kernel), gr "Gravity" "gx1" (by decide +kernel), gr "Gravity" "gx2" (by decide +kernel), gr "Gravity" "M" (by decide +kernel), gr "Perfect Gas" "gamma" (by decide +kernel), gr "Perfect Gas" "mu" (by decide +kernel), gi "Passive Scalar" "nfx" (by decide +kernel), gr "Pressure fix" "eps_pf" (by decide +kernel), gs "Problem" "type" (by decide +kernel), gs "Problem" "restart_file" (by decide +kernel), gs "Grid" "type" (by decide +kernel), gs "Grid" "shift_grid" (by decide +kernel), gs "Output" "directory" (by decide +kernel), gs "Output" "prefix" (by decide +kernel), gs "Hydro" "reconstruction" (by decide +kernel), gs "Hydro" "riemann_solver" (by decide +kernel), gs "Boundary Condition" "BC" (by decide +kernel), gs "Boundary Condition" "priority" (by decide +kernel), gs "User step" "user_step" (by decide +kernel), gs "Pressure fix" "pressure_fix" (by decide +kernel)]
  have hb : ∀ (a : Fin 3) (f : Fin 2), bcChoice (bcEntry values) a f = bcChoice (bcEntry values') a f := by
    intro a f
    have key : ∀ name : String, ("Boundary Condition", name) ∈ knownKeys → bcEntry values name = bcEntry values' name :=
      fun name hx => congrArg (Option.map String.ofList) (e _ hx)
    unfold bcChoice iniGet
    rw [key "BC" (by decide +kernel), key ("BC" ++ bcDirName a) (by revert a; decide +kernel),
      key ("BC" ++ bcDirName a ++ bcFaceName f) (by revert a f; decide +kernel)]
  unfold configure
  simp only [hp, hb]

/-- C76: the run depends only on the known keys: two files that give them the same values give the same run, or the same error. Other keys, misspelt ones
included, are ignored. -/
theorem C76_other_keys_ignored {items' : List IniItem} {values' : Str → Option Str} (h : Stored items values) (h' : Stored items' values')
    (hk : ∀ x ∈ knownKeys, valuesOf x.1.toList x.2.toList [] none items = valuesOf x.1.toList x.2.toList [] none items') :
    configure d stod gas values = configure d stod gas values' := by
  refine configure_congr fun x hx => ?_
  have hn : '=' ∉ x.2.toList := by revert x; decide +kernel
  rw [values_eq h.file h.read hn, values_eq h'.file h'.read hn, hk x hx]

/-- C76: a key read as an integer whose text does not start with a number is refused. -/
theorem C76_no_integer (h : Stored items values) {x : String × String} (hx : x ∈ integerKeys) {ch : Char} (hc : (written items x.1 x.2).head? = some ch)
    (h1 : iniSpace ch = false) (h2 : ch.isDigit = false) (h3 : ch ≠ '-') (h4 : ch ≠ '+') : ∃ m, configure d stod gas values = .error m := by
  have hn : '=' ∉ x.2.toList := (by decide +kernel : ∀ x ∈ integerKeys, '=' ∉ x.2.toList) x hx
  have hs : ∃ m, ∀ dflt, iniGetInteger values x.1.toList x.2.toList dflt = .error m := by
    refine ⟨"stoi: invalid_argument", fun dflt => ?_⟩
    unfold iniGetInteger
    simp only [h.written hn]
    generalize written items x.1 x.2 = w at hc
    cases w with
    | nil => cases hc
    | cons c w =>
      simp only [List.head?_cons, Option.some.injEq] at hc
      subst hc
      have hl : lskip (c :: w) = c :: w := lskip_trimmed fun c' hc' => by
        simp only [List.head?_cons, Option.some.injEq] at hc'; rw [← hc']; exact h1
      unfold stoi
      rw [hl]
      simp [h3, h4, digitsPrefix, h2]
  obtain ⟨m, hs⟩ := hs
  cases hr : configure d stod gas values with
  | error m => exact ⟨m, rfl⟩
  | ok c =>
    exfalso
    have hp : ∃ p, paramOf stod values = .ok p := by
      unfold configure at hr
      obtain ⟨p, hp, -⟩ := bindOk.1 hr
      exact ⟨p, hp⟩
    obtain ⟨p, hp⟩ := hp
    revert hp
    unfold paramOf
    simp only [integerKeys, List.mem_cons, List.not_mem_nil, or_false] at hx
    rcases hx with rfl | rfl | rfl | rfl | rfl | rfl | rfl | rfl | rfl | rfl | rfl <;> simp only at hs ⊢
    all_goals
      repeat first
        | (rw [hs]; exact fun h => by cases h)
        | refine ok_bind (P := fun _ => False) fun _ => ?_
end

end Heracles
