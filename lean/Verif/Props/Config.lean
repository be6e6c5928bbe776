import Verif.Lemmas.Ini
import Verif.Spec.Param
import Mathlib.Data.Nat.Notation
import Mathlib.Algebra.Order.Group.Nat

/-!
# C57: configuration parsing returns what the file says

`Spec/Config.lean` gives the abstract syntax of configuration files, the text they are written as, and the values that a key is given. The theorems
say that parsing that text and looking keys up returns these values, for every file.
-/

namespace Heracles

theorem fileText_lines (items : List IniItem) : fileText items = (items.map IniItem.text).flatMap (fun s => s ++ ['\n']) := by
  unfold fileText
  rw [List.flatMap_map]

theorem fgets_file {items : List IniItem} {prev : Option Str} (h : LinesWF prev items) (hl : ∀ it ∈ items, it.text.length ≤ 198) (rest : Str) :
    fgetsAll iniMaxLine (fileText items ++ rest) = (items.map fun it => it.text ++ ['\n']) ++ fgetsAll iniMaxLine rest := by
  rw [fileText_lines, fgetsAll_lines, List.map_map]
  · rfl
  · intro s hs
    obtain ⟨it, hit, rfl⟩ := List.mem_map.1 hs
    exact ⟨h.plain it hit, hl it hit⟩

/-- C57: a well-formed file is accepted, and every lookup returns what the file says: the default for a key that is not written, the value, trimmed
and without its comment, for a key that is written once, the values separated by ends of line for a key that is written several times. -/
theorem C57_entries {items : List IniItem} (h : FileOk items) :
    ∃ values, iniReader (fileText items) = .ok values ∧
      ∀ sec name dflt, '=' ∉ name → iniLookup values sec name dflt =
        if valuesOf sec name [] none items = [] then dflt else joined (valuesOf sec name [] none items) := by
  have hparse : iniParse (fileText items) = (items.map fun it => it.text ++ ['\n']).foldl iniLine {} := by
    unfold iniParse
    have := fgets_file h.1 h.2.1 []
    rw [List.append_nil] at this
    rw [this]
    simp [fgetsAll, fgetsLoop]
  obtain ⟨h1, -, h3⟩ := items_fold items none {} h.1 (fun n e => by simp at e) rfl fun _ => h.2.2
  refine ⟨(iniParse (fileText items)).values, ?_, fun sec name dflt hn => ?_⟩
  · unfold iniReader
    simp only
    rw [if_pos]
    rw [hparse, h1]
  · unfold iniLookup
    rw [hparse, h3 sec name hn]
    split
    · rfl
    · rw [joined_eq]; rfl

/-- C57: a key written once is returned verbatim. -/
theorem C57_written_once {items : List IniItem} (h : FileOk items) {values : Str → Option Str} (hv : iniReader (fileText items) = .ok values)
    {sec name v : Str} (hn : '=' ∉ name) (hone : valuesOf sec name [] none items = [v]) (dflt : Str) : iniLookup values sec name dflt = v := by
  obtain ⟨values', hv', hget⟩ := C57_entries h
  rw [hv] at hv'
  cases hv'
  rw [hget sec name dflt hn, hone, if_neg (by simp)]
  cases v <;> simp [joined]

/-- C57: lookups ignore letter case. -/
theorem C57_case_insensitive (values : Str → Option Str) {sec sec' name name' : Str} (hs : lower sec = lower sec') (hn : lower name = lower name')
    (dflt : Str) : iniLookup values sec name dflt = iniLookup values sec' name' dflt := by
  have e : ∀ s n, makeKey s n = lower s ++ '=' :: lower n := fun s n => by
    unfold makeKey lower
    rw [List.map_append, List.map_cons]
    rfl
  unfold iniLookup
  rw [e, e, hs, hn]

theorem iniLine_error {st : IniState} (h : st.error ≠ 0) (buf : Str) : (iniLine st buf).error = st.error := by
  unfold iniLine
  simp only
  split_ifs <;> simp [IniState.fail, valueHandler, h]

theorem foldl_error : ∀ (ls : List Str) {st : IniState}, st.error ≠ 0 → (ls.foldl iniLine st).error = st.error := by
  intro ls
  induction ls with
  | nil => intro st _; rfl
  | cons l ls ih =>
    intro st h
    have h' := iniLine_error h l
    rw [List.foldl_cons, ih (by rw [h']; exact h), h']

theorem nil_or_take {α : Type} [DecidableEq α] {s t : List α} {n : ℕ} {b : List α} (hl : b.length = n) (h : s.take n = b) : (s ++ t).take n = b := by
  have : n ≤ s.length := by
    have := congrArg List.length h
    rw [List.length_take, hl] at this
    omega
  rw [List.take_append_of_le_length this, h]

/-- C57: the first malformed line is the one that is reported, whatever follows it. -/
theorem C57_first_error {items : List IniItem} (h : LinesWF none items) (hfit : ∀ it ∈ items, it.text.length ≤ 198) {bad rest : Str} (hbad : Malformed bad)
    (hlen : bad.length ≤ 198) (hbom : (fileText items ++ (bad ++ '\n' :: rest)).take 3 ≠ [Char.ofNat 0xEF, Char.ofNat 0xBB, Char.ofNat 0xBF]) :
    iniReader (fileText items ++ (bad ++ '\n' :: rest)) = .error s!"Parsing error at line {items.length + 1}" := by
  have hl := fgetsAll_lines (ls := [bad]) (fun s hs => by rw [List.mem_singleton] at hs; rw [hs]; exact ⟨hbad.1, hlen⟩) rest
  simp only [List.flatMap_cons, List.flatMap_nil, List.append_nil, List.append_assoc, List.map_cons, List.map_nil, List.singleton_append] at hl
  have hparse : iniParse (fileText items ++ (bad ++ '\n' :: rest)) =
      (fgetsAll iniMaxLine rest).foldl iniLine (iniLine ((items.map fun it => it.text ++ ['\n']).foldl iniLine {}) (bad ++ ['\n'])) := by
    unfold iniParse
    rw [fgets_file h hfit, hl, List.foldl_append, List.foldl_cons]
  obtain ⟨h1, h2, -⟩ := items_fold items none {} h (fun n e => by simp at e) rfl fun _ e => hbom (nil_or_take (b := bom) rfl e)
  have hline := iniLine_body ((items.map fun it => it.text ++ ['\n']).foldl iniLine {}) hbad.1 (fun h0 e => by
    rw [h2] at h0
    have hnil : items = [] := List.eq_nil_of_length_eq_zero (by simpa using h0)
    subst hnil
    have := nil_or_take (t := rest) (b := bom) rfl e
    refine hbom ?_
    simpa [fileText, bom] using this)
  rw [malformed_line _ hbad] at hline
  have herr : (iniParse (fileText items ++ (bad ++ '\n' :: rest))).error = items.length + 1 := by
    rw [hparse, foldl_error]
    · rw [hline]
      simp only [IniState.fail, h1, h2]
      simp
    · rw [hline]
      simp only [IniState.fail, h1, h2]
      simp
  unfold iniReader
  simp only
  rw [if_neg (by rw [herr]; simp), herr]

/-- C57: the last line need not be ended. -/
theorem C57_last_line {items : List IniItem} {it : IniItem} (h : LinesWF none (items ++ [it])) (hfit : ∀ i ∈ items ++ [it], i.text.length ≤ 198) (hne : it.text ≠ [])
    (hbom : (fileText (items ++ [it])).take 3 ≠ [Char.ofNat 0xEF, Char.ofNat 0xBB, Char.ofNat 0xBF]) :
    iniReader (fileText items ++ it.text) = iniReader (fileText (items ++ [it])) := by
  have hplain := h.plain it (by simp)
  have hlen := hfit it (by simp)
  have hloop : ∀ (s : Str) (left : ℕ) (cur : Str), (∀ c ∈ s, c ≠ '\n') → s.length < left →
      fgetsLoop iniMaxLine left cur s = if (cur ++ s).isEmpty then [] else [cur ++ s] := by
    intro s
    induction s with
    | nil => intro left cur _ _; simp [fgetsLoop]
    | cons c s ih =>
      intro left cur hc hl
      simp only [List.length_cons] at hl
      have hc1 := hc c List.mem_cons_self
      simp only [fgetsLoop]
      rw [if_neg (by simp [hc1]; omega), ih _ _ (fun x hx => hc x (List.mem_cons_of_mem _ hx)) (by omega)]
      simp
  have hget : fgetsAll iniMaxLine it.text = [it.text] := by
    unfold fgetsAll
    rw [hloop _ _ _ (fun c hc => (hplain c hc).1) (by simp [iniMaxLine]; omega)]
    simp [hne]
  have hfull := fgets_file h hfit []
  rw [List.append_nil] at hfull
  have hpre : ∀ i ∈ items, i.text.length ≤ 198 := fun i hi => hfit i (by simp [hi])
  have heq : ∀ st : IniState, (st.lineno = 0 → items = []) → iniLine st it.text = iniLine st (it.text ++ ['\n']) := by
    intro st hst
    have hp := hplain
    have e1 : it.text.takeWhile (· ≠ Char.ofNat 0) = it.text := List.takeWhile_eq_self_iff.2 fun c hc => by simpa using (hp c hc).2
    have hb' : st.lineno = 0 → (it.text ++ ['\n']).take 3 ≠ bom := fun h0 e => by
      have := hst h0
      subst this
      exact hbom (by simpa [fileText, bom] using e)
    have hb : st.lineno = 0 → it.text.take 3 ≠ bom := fun h0 e => hb' h0 (nil_or_take (b := bom) rfl e)
    rw [iniLine_body st hp hb']
    have hskip : ¬ (st.lineno + 1 = 1 ∧ it.text.take 3 = bom) := fun e => hb (by omega) e.2
    unfold iniLine lineBody
    simp only [e1, if_neg hskip, List.drop_zero]
  have hstate : iniParse (fileText items ++ it.text) = iniParse (fileText (items ++ [it])) := by
    unfold iniParse
    rw [fgets_file h.left hpre, hget, hfull]
    simp only [List.map_append, List.map_cons, List.map_nil, List.foldl_append, List.foldl_cons, List.foldl_nil, fgetsAll, fgetsLoop,
      List.isEmpty_nil, if_true]
    refine heq _ fun h0 => ?_
    obtain ⟨-, h2, -⟩ := items_fold items none {} h.left (fun n e => by simp at e) rfl fun _ e => hbom (by
      unfold fileText
      rw [List.flatMap_append]
      exact nil_or_take (b := bom) rfl e)
    rw [h2] at h0
    exact List.eq_nil_of_length_eq_zero (by simpa using h0)
  unfold iniReader
  rw [hstate]

/-! ### Numbers and booleans -/

/-- C57: for numbers and booleans, a key that is absent or has no value gives the default. -/
theorem C57_defaults {items : List IniItem} (h : FileOk items) {values : Str → Option Str} (hv : iniReader (fileText items) = .ok values)
    {sec name : Str} (hn : '=' ∉ name) (hempty : ∀ v ∈ valuesOf sec name [] none items, v = []) :
    (∀ d, iniGetInteger values sec name d = .ok d) ∧ (∀ d, iniGetBoolean values sec name d = .ok d) ∧
    ∀ {K : Type} (stod : Str → Except String K) (d : K), iniGetReal stod values sec name d = .ok d := by
  obtain ⟨values', hv', hget⟩ := C57_entries h
  rw [hv] at hv'
  cases hv'
  have hj : ∀ vs : List Str, (∀ v ∈ vs, v = []) → joined vs = [] := by
    intro vs
    induction vs with
    | nil => intro _; rfl
    | cons v vs ih =>
      intro h
      rw [h v List.mem_cons_self]
      exact ih fun x hx => h x (List.mem_cons_of_mem _ hx)
  have e : iniLookup values sec name [] = [] := by
    rw [hget sec name [] hn, hj _ hempty]; simp
  refine ⟨fun d => ?_, fun d => ?_, fun stod d => ?_⟩
  · simp [iniGetInteger, e]
  · simp [iniGetBoolean, e]
  · simp [iniGetReal, e]

theorem digitText_spec {d : ℕ} (h : d < 10) : (digitText d).isDigit = true ∧ (digitText d).toNat - '0'.toNat = d ∧ iniSpace (digitText d) = false ∧
    digitText d ≠ '-' ∧ digitText d ≠ '+' := by
  have : ∀ d : Fin 10, (digitText d).isDigit = true ∧ (digitText d).toNat - '0'.toNat = d ∧ iniSpace (digitText d) = false ∧
    digitText d ≠ '-' ∧ digitText d ≠ '+' := by decide
  exact this ⟨d, h⟩

theorem digitsPrefix_spec {junk : Str} (hj : ∀ c, junk.head? = some c → c.isDigit = false) : ∀ (ds : List ℕ) (acc : ℕ), (∀ d ∈ ds, d < 10) →
    digitsPrefix (ds.map digitText ++ junk) acc = (acc * 10 ^ ds.length + decimalValue ds, ds.length) := by
  intro ds
  induction ds with
  | nil =>
    intro acc _
    cases junk with
    | nil => simp [digitsPrefix, decimalValue]
    | cons c junk => simp [digitsPrefix, decimalValue, hj c rfl]
  | cons d ds ih =>
    intro acc h
    obtain ⟨h1, h2, -⟩ := digitText_spec (h d List.mem_cons_self)
    simp only [List.map_cons, List.cons_append, digitsPrefix, h1, if_true, h2]
    rw [ih _ fun x hx => h x (List.mem_cons_of_mem _ hx)]
    simp only [decimalValue, List.length_cons, Prod.mk.injEq, and_true]
    ring

/-- C57: a decimal numeral is read as the integer it denotes when that is representable, and refused otherwise. What follows the digits is
silently ignored. -/
theorem C57_integer {sg : Sign} {ds : List ℕ} (hds : ds ≠ []) (hd : ∀ d ∈ ds, d < 10) {junk : Str}
    (hj : ∀ c, junk.head? = some c → c.isDigit = false) :
    stoi (sg.text ++ ds.map digitText ++ junk) =
      if -2 ^ 31 ≤ sg.apply (decimalValue ds) ∧ sg.apply (decimalValue ds) < 2 ^ 31 then .ok (sg.apply (decimalValue ds))
      else .error "stoi: out_of_range" := by
  obtain ⟨d, ds', rfl⟩ : ∃ d ds', ds = d :: ds' := List.exists_cons_of_ne_nil hds
  obtain ⟨-, -, h3, h4, h5⟩ := digitText_spec (hd d List.mem_cons_self)
  have hp := digitsPrefix_spec hj (d :: ds') 0 hd
  have hsk : lskip (sg.text ++ (d :: ds').map digitText ++ junk) = sg.text ++ (d :: ds').map digitText ++ junk := by
    apply lskip_trimmed
    intro c hc
    cases sg <;> simp only [Sign.text, List.nil_append, List.map_cons, List.cons_append, List.head?_cons, Option.some.injEq] at hc <;> rw [← hc]
    · exact h3
    · decide
    · decide
  unfold stoi
  rw [hsk]
  have fin : ∀ v : ℤ, (if v < -2147483648 ∨ 2147483647 < v then (.error "stoi: out_of_range" : Except String ℤ) else .ok v) =
      if -2 ^ 31 ≤ v ∧ v < 2 ^ 31 then .ok v else .error "stoi: out_of_range" := by
    intro v
    by_cases h : -2 ^ 31 ≤ v ∧ v < 2 ^ 31
    · rw [if_pos h, if_neg (by omega)]
    · rw [if_neg h, if_pos (by omega)]
  rw [zero_mul, zero_add] at hp
  cases sg with
  | none =>
    have hh : (List.map digitText (d :: ds') ++ junk).head? = some (digitText d) := rfl
    simp only [Sign.text, List.nil_append, Sign.apply, hh, Option.some.injEq, h4, h5, or_self, if_false, hp, decide_false, Bool.false_eq_true]
    rw [if_neg (by simp)]
    exact fin _
  | plus =>
    simp only [Sign.text, Sign.apply, List.cons_append, List.nil_append, List.head?_cons, List.tail_cons, or_true, if_true, hp,
      show ¬ (some '+' = some '-') by decide, decide_false, if_false, Bool.false_eq_true]
    rw [if_neg (by simp)]
    exact fin _
  | minus =>
    simp only [Sign.text, Sign.apply, List.cons_append, List.nil_append, List.head?_cons, List.tail_cons, true_or, if_true, hp, decide_true]
    rw [if_neg (by simp)]
    exact fin _

/-- C57: the accepted spellings of booleans; everything else is an error. -/
theorem C57_boolean (s : Str) :
    (stob s = .ok true ↔ lower s ∈ ["true".toList, "yes".toList, "on".toList, "1".toList]) ∧
    (stob s = .ok false ↔ lower s ∈ ["false".toList, "no".toList, "off".toList, "0".toList]) := by
  have h : ∀ l : Str, (l ∈ ["true".toList, "yes".toList, "on".toList, "1".toList] → l ∉ ["false".toList, "no".toList, "off".toList, "0".toList]) := by
    intro l hl
    simp only [List.mem_cons, List.not_mem_nil, or_false] at hl
    rcases hl with rfl | rfl | rfl | rfl <;> decide
  have h' := h (lower s)
  simp only [List.mem_cons, List.not_mem_nil, or_false] at h' ⊢
  have key : ∀ (P Q : Prop) [Decidable P] [Decidable Q], (P → ¬ Q) →
      ((if P then (.ok true : Except String Bool) else if Q then .ok false else .error "stob") = .ok true ↔ P) ∧
      ((if P then (.ok true : Except String Bool) else if Q then .ok false else .error "stob") = .ok false ↔ Q) := by
    intro P Q _ _ hPQ
    by_cases hP : P
    · simp [hP, hPQ hP]
    · by_cases hQ : Q <;> simp [hP, hQ]
  exact key _ _ h'

/-! ### What the parser does that a reader of the file may not expect -/

/-- What `iniReader` returns for a key, as a string. -/
def lookupText (file sec name : String) : Option String :=
  match iniReader file.toList with
  | .ok values => some (String.ofList (iniLookup values sec.toList name.toList "<absent>".toList))
  | .error _ => none

/-- C57: an integer written in scientific notation is read as its leading digits, a hexadecimal one as zero, although the comments of the source
announce that "0x4D2" is accepted. -/
theorem C57_integer_spellings : stoi "1e3".toList = .ok 1 ∧ stoi "0x4D2".toList = .ok 0 ∧ stoi "12.7".toList = .ok 12 := by decide +kernel

/-- C57: `#` does not start a comment after a value, while `;` does when it follows white space. -/
theorem C57_hash_kept : lookupText "[Grid]\nNx = 10 # cells\nNy = 20 ; cells\n" "Grid" "Nx" = some "10 # cells" ∧
    lookupText "[Grid]\nNx = 10 # cells\nNy = 20 ; cells\n" "Grid" "Ny" = some "20" := by decide +kernel

/-- C57: a key written twice has both values, one per line; read as an integer, it is the first. -/
theorem C57_duplicates : lookupText "[Grid]\nNx = 10\nNx = 20\n" "Grid" "Nx" = some "10\n20" ∧ stoi "10\n20".toList = .ok 10 := by decide +kernel

/-- C57: an indented line after an entry is added to its value, comment included, even when it looks like another entry or a header. -/
theorem C57_indented : lookupText "[A]\nx = 1\n  y = 2 ; two\n" "A" "x" = some "1\ny = 2 ; two" ∧
    lookupText "[A]\nx = 1\n  y = 2 ; two\n" "A" "y" = some "<absent>" ∧
    lookupText "[A]\nx = 1\n [B]\ny = 2\n" "B" "y" = some "<absent>" ∧
    lookupText "[A]\nx = 1\n [B]\ny = 2\n" "A" "y" = some "2" := by decide +kernel

/-- C57: a line of more than 199 characters is cut; the remainder is parsed as a line of its own. -/
theorem C57_long_line :
    (iniParse ("x = ".toList ++ List.replicate 300 'a' ++ ['\n'])).error = 2 ∧
    lookupText ("x = " ++ String.ofList (List.replicate 195 'a') ++ "y = 3\n") "" "y" = some "3" := by decide +kernel

/-- C57: an indented line after a name of more than 49 characters goes to another key, the first 49 characters of the name. -/
theorem C57_long_name (s : Str) (hs : s = List.replicate 60 'a') :
    (iniParse (s ++ " = 1\n  2\n".toList)).values (makeKey [] s) = some ['1'] ∧
    (iniParse (s ++ " = 1\n  2\n".toList)).values (makeKey [] (List.replicate 49 'a')) = some ['2'] := by
  subst hs
  decide +kernel

/-! ### Examples -/

theorem noInline_of {s : Str} (h : ';' ∉ s) : NoInline s := fun pre c post e => absurd (by rw [e]; simp) h

theorem trimmed_of {s : Str} (h : (s.head?.all fun c => !iniSpace c) = true) (h' : (s.getLast?.all fun c => !iniSpace c) = true) : Trimmed s :=
  ⟨fun c hc => by rw [hc] at h; simpa using h, fun c hc => by rw [hc] at h'; simpa using h'⟩

/-- ```
# demo
[Grid]
  Nx0_glob = 100 ; cells
type: Regular
  grid ; not a comment

[Output]
``` -/
def demoItems : List IniItem :=
  [.comment [] '#' " demo".toList, .header [] "Grid".toList [],
   .entry "  ".toList "Nx0_glob".toList [' '] '=' [' '] "100".toList [' '] "; cells".toList,
   .entry [] "type".toList [] ':' [' '] "Regular".toList [] [], .cont "  ".toList "grid ; not a comment".toList [], .blank [],
   .header [] "Output".toList []]

theorem demoItems_ok : FileOk demoItems := by
  have hb0 : Blank [] := fun c hc => absurd hc (by simp)
  have hi0 : InLine [] := fun c hc => absurd hc (by simp)
  refine ⟨⟨⟨hb0, Or.inr rfl, by unfold InLine; decide +kernel⟩,
    ⟨hb0, Or.inl rfl, by unfold InLine; decide +kernel, hi0, by decide +kernel, noInline_of (by decide +kernel), by decide +kernel⟩,
    ⟨by unfold Blank; decide +kernel, Or.inr rfl, by unfold InLine; decide +kernel, trimmed_of (by decide +kernel) (by decide +kernel),
      by decide +kernel, ?_, by decide +kernel, by decide +kernel, noInline_of (by decide +kernel), by unfold Blank; decide +kernel, Or.inl rfl,
      by unfold Blank; decide +kernel, by unfold InLine; decide +kernel, trimmed_of (by decide +kernel) (by decide +kernel),
      noInline_of (by decide +kernel), by unfold Blank; decide +kernel, Or.inr ⟨by simp, by decide +kernel, by unfold InLine; decide +kernel⟩⟩,
    ⟨hb0, Or.inl rfl, by unfold InLine; decide +kernel, trimmed_of (by decide +kernel) (by decide +kernel), by decide +kernel, ?_,
      by decide +kernel, by decide +kernel, noInline_of (by decide +kernel), hb0, Or.inr rfl, by unfold Blank; decide +kernel,
      by unfold InLine; decide +kernel, trimmed_of (by decide +kernel) (by decide +kernel), noInline_of (by decide +kernel), hb0, Or.inl rfl⟩,
    ⟨by unfold Blank; decide +kernel, by decide +kernel, by unfold InLine; decide +kernel, trimmed_of (by decide +kernel) (by decide +kernel),
      by decide +kernel, ?_, hb0, _, rfl, by decide +kernel⟩,
    hb0, ⟨hb0, Or.inl rfl, by unfold InLine; decide +kernel, hi0, by decide +kernel, noInline_of (by decide +kernel), by decide +kernel⟩, trivial⟩,
    by decide +kernel, by decide +kernel⟩
  · intro c hc
    have : c = 'N' := by simpa using hc.symm
    subst this; decide
  · intro c hc
    have : c = 't' := by simpa using hc.symm
    subst this; decide
  · intro c hc
    have : c = 'g' := by simpa using hc.symm
    subst this; decide

example : fileText demoItems = "# demo\n[Grid]\n  Nx0_glob = 100 ; cells\ntype: Regular\n  grid ; not a comment\n\n[Output]\n".toList := by
  decide +kernel

/-- The number of cells is found whatever the letter case of the lookup, the comment is dropped; the type has two lines; an absent key has no
value. -/
example : valuesOf "grid".toList "NX0_GLOB".toList [] none demoItems = ["100".toList] ∧
    valuesOf "Grid".toList "type".toList [] none demoItems = ["Regular".toList, "grid ; not a comment".toList] ∧
    valuesOf "Output".toList "type".toList [] none demoItems = [] := by
  decide +kernel

example (values : Str → Option Str) (hv : iniReader (fileText demoItems) = .ok values) (d : ℤ) :
    iniLookup values "grid".toList "NX0_GLOB".toList [] = "100".toList ∧ iniGetInteger values "Output".toList "dt".toList d = .ok d :=
  ⟨C57_written_once demoItems_ok hv (by decide) (by decide +kernel) _, (C57_defaults demoItems_ok hv (by decide) (by
    have : valuesOf "Output".toList "dt".toList [] none demoItems = [] := by decide +kernel
    rw [this]; simp)).1 d⟩

example : ∃ values, iniReader (fileText demoItems) = .ok values := (C57_entries demoItems_ok).imp fun _ h => h.1

/-- A line without separator, and an unclosed bracket. -/
theorem malformed_demo : Malformed "Nx0_glob 100 ; = cells".toList ∧ Malformed "[Grid".toList := by
  refine ⟨⟨by unfold InLine; decide +kernel, trimmed_of (by decide +kernel) (by decide +kernel), by decide +kernel, ?_,
      "Nx0_glob 100 ".toList, "; = cells".toList, by decide +kernel, Or.inr ⟨"Nx0_glob 100".toList, ' ', by decide +kernel⟩,
      Or.inr (by decide +kernel)⟩,
    by unfold InLine; decide +kernel, trimmed_of (by decide +kernel) (by decide +kernel), by decide +kernel, ?_,
      "[Grid".toList, [], by decide +kernel, Or.inl rfl, Or.inl (by decide +kernel)⟩
  · intro c hc
    have : c = 'N' := by simpa using hc.symm
    subst this; decide
  · intro c hc
    have : c = '[' := by simpa using hc.symm
    subst this; decide

example (rest : Str) : iniReader (fileText demoItems ++ ("Nx0_glob 100 ; = cells".toList ++ '\n' :: rest)) = .error "Parsing error at line 8" := by
  have := C57_first_error (rest := rest) demoItems_ok.1 demoItems_ok.2.1 malformed_demo.1 (by decide +kernel) (fun e => demoItems_ok.2.2 (by
    rw [List.take_append_of_le_length (by decide +kernel)] at e
    exact e))
  exact this

example : stoi "-42 cells".toList = .ok (-42) := by
  have := C57_integer (sg := .minus) (ds := [4, 2]) (by simp) (by decide) (junk := " cells".toList) (by
    intro c hc
    have : c = ' ' := by simpa using hc.symm
    subst this; decide)
  have e : Sign.minus.text ++ [4, 2].map digitText ++ " cells".toList = "-42 cells".toList := by decide +kernel
  rw [e] at this
  rw [this]
  decide +kernel

example : stoi "3000000000".toList = .error "stoi: out_of_range" ∧ stob "Yes".toList = .ok true := by decide +kernel

end Heracles
