import Verif.Spec.Config
import Mathlib.Data.List.Basic
import Mathlib.Data.List.TakeWhile
import Mathlib.Tactic.Ring

/-! Lemmas on the parser of configuration files. -/

namespace Heracles

theorem rstrip_spaces (s : Str) {t : Str} (h : ∀ c ∈ t, iniSpace c = true) : rstrip (s ++ t) = rstrip s := by
  unfold rstrip
  rw [List.reverse_append, List.dropWhile_append_of_pos fun c hc => h c (List.mem_reverse.1 hc)]

theorem rstrip_cons {c : Char} (s t : Str) (h : iniSpace c = false) : rstrip (s ++ c :: t) = s ++ c :: rstrip t := by
  unfold rstrip
  rw [List.reverse_append, List.reverse_cons, List.append_assoc]
  by_cases ht : ∀ x ∈ t.reverse, iniSpace x = true
  · rw [List.dropWhile_append_of_pos ht, List.dropWhile_eq_nil_iff.2 ht]
    simp [h]
  · have : t.reverse.dropWhile iniSpace ≠ [] := fun e => ht (List.dropWhile_eq_nil_iff.1 e)
    rw [List.dropWhile_append, if_neg (by rw [List.isEmpty_iff]; exact this)]
    simp

theorem rstrip_trimmed {s : Str} (h : ∀ c, s.getLast? = some c → iniSpace c = false) : rstrip s = s := by
  rcases List.eq_nil_or_concat s with rfl | ⟨t, c, rfl⟩
  · rfl
  · have := h c (by simp)
    unfold rstrip
    simp [this]

theorem lskip_spaces {s : Str} (t : Str) (h : ∀ c ∈ s, iniSpace c = true) : lskip (s ++ t) = lskip t :=
  List.dropWhile_append_of_pos h

theorem lskip_trimmed {s : Str} (h : ∀ c, s.head? = some c → iniSpace c = false) : lskip s = s := by
  cases s with
  | nil => rfl
  | cons c s =>
    have := h c rfl
    simp [lskip, this]

/-- No inline comment when scanning with the flag `was`. -/
def NI : Bool → Str → Prop
  | _, [] => True
  | was, c :: s => ¬ (was = true ∧ c = ';') ∧ NI (iniSpace c) s

/-- The flag after the string. -/
def lastSpace : Bool → Str → Bool
  | was, [] => was
  | _, c :: s => lastSpace (iniSpace c) s

theorem NI_of {s : Str} : ∀ {was : Bool}, NoInline s → (was = true → s.head? ≠ some ';') → NI was s := by
  induction s with
  | nil => intro _ _ _; trivial
  | cons c s ih =>
    intro was h hw
    refine ⟨fun e => hw e.1 (by rw [e.2]; rfl), ih (fun pre x post e => h (c :: pre) x post (by rw [e]; rfl)) fun hc e => ?_⟩
    cases s with
    | nil => simp at e
    | cons x s =>
      simp only [List.head?_cons, Option.some.injEq] at e
      subst e
      rw [h [] c s rfl] at hc
      exact absurd hc (by decide)

theorem NI_append {s t : Str} : ∀ {was : Bool}, NI was s → NI (lastSpace was s) t → NI was (s ++ t) := by
  induction s with
  | nil => intro _ _ h; exact h
  | cons c s ih => intro was h h'; exact ⟨h.1, ih h.2 h'⟩

theorem semicolon_not_space : iniSpace ';' = false := by decide

theorem NI_blank {t : Str} (h : Blank t) : ∀ was, NI was t := by
  induction t with
  | nil => intro _; trivial
  | cons c t ih =>
    intro was
    refine ⟨fun e => ?_, ih (fun x hx => h x (List.mem_cons_of_mem _ hx)) _⟩
    have := (h c List.mem_cons_self).1
    rw [e.2, semicolon_not_space] at this
    exact absurd this (by decide)

theorem lastSpace_append (s t : Str) : ∀ was, lastSpace was (s ++ t) = lastSpace (lastSpace was s) t := by
  induction s with
  | nil => intro _; rfl
  | cons c s ih => intro was; exact ih _

theorem lastSpace_blank {t : Str} (h : Blank t) (hne : t ≠ []) : ∀ was, lastSpace was t = true := by
  induction t with
  | nil => exact absurd rfl hne
  | cons c t ih =>
    intro was
    cases t with
    | nil => exact (h c List.mem_cons_self).1
    | cons x t => exact ih (fun y hy => h y (List.mem_cons_of_mem _ hy)) (by simp) true

/-- Where the scan stops. -/
theorem find_stop {chars : Str} (rest : Str) {pre : Str} : ∀ {was : Bool}, NI was pre → (∀ c ∈ pre, c ∉ chars) →
    (rest = [] ∨ ∃ x post, rest = x :: post ∧ (x ∈ chars ∨ (lastSpace was pre = true ∧ x = ';'))) →
    findCharsOrComment chars was (pre ++ rest) = (pre, rest) := by
  induction pre with
  | nil =>
    intro was _ _ h
    rcases h with rfl | ⟨x, post, rfl, hx⟩
    · rfl
    · simp only [List.nil_append, findCharsOrComment]
      rw [if_pos]
      rcases hx with hx | ⟨h1, h2⟩
      · simp [hx]
      · simp only [lastSpace] at h1
        simp [h1, h2]
  | cons c pre ih =>
    intro was hn hc h
    simp only [List.cons_append, findCharsOrComment]
    rw [if_neg, ih hn.2 (fun x hx => hc x (List.mem_cons_of_mem _ hx)) h]
    have h1 := hc c List.mem_cons_self
    have h2 := hn.1
    simp only [Bool.or_eq_true, Bool.and_eq_true, decide_eq_true_eq, List.contains_iff_mem]
    rintro (e | e)
    · exact h1 e
    · exact h2 e

/-- A scan that cannot find any of the characters. -/
theorem find_none {chars tail : Str} {body : Str} : ∀ {was : Bool}, (∀ c ∈ body, c ∉ chars) →
    (tail = [] ∨ (lastSpace was body = true ∧ tail.head? = some ';')) →
    (findCharsOrComment chars was (body ++ tail)).2.head? = none ∨ (findCharsOrComment chars was (body ++ tail)).2.head? = some ';' := by
  induction body with
  | nil =>
    intro was _ h
    rcases h with rfl | ⟨h1, h2⟩
    · exact Or.inl rfl
    · cases tail with
      | nil => exact Or.inl rfl
      | cons x post =>
        simp only [List.head?_cons, Option.some.injEq] at h2
        simp only [lastSpace] at h1
        subst h1 h2
        right
        simp [findCharsOrComment]
  | cons c body ih =>
    intro was hc h
    simp only [List.cons_append, findCharsOrComment]
    have h1 := hc c List.mem_cons_self
    by_cases hw : (was && decide (c = ';')) = true
    · right
      rw [if_pos (by simp only [hw, Bool.or_true])]
      simp only [Bool.and_eq_true, decide_eq_true_eq] at hw
      simp [hw.2]
    · rw [if_neg (by simp only [Bool.or_eq_true, List.contains_iff_mem]; exact fun e => e.elim h1 hw)]
      exact ih (fun x hx => hc x (List.mem_cons_of_mem _ hx)) h

/-! ### Lines -/

theorem fgetsLoop_line (num : ℕ) {body : Str} (hn : ∀ c ∈ body, c ≠ '\n') : ∀ (left : ℕ) (cur rest : Str), body.length < left →
    fgetsLoop num left cur (body ++ '\n' :: rest) = (cur ++ body ++ ['\n']) :: fgetsLoop num (num - 1) [] rest := by
  induction body with
  | nil =>
    intro left cur rest _
    simp [fgetsLoop]
  | cons c body ih =>
    intro left cur rest h
    simp only [List.length_cons] at h
    have hc := hn c List.mem_cons_self
    simp only [List.cons_append, fgetsLoop]
    rw [if_neg (by simp [hc]; omega), ih (fun x hx => hn x (List.mem_cons_of_mem _ hx)) _ _ _ (by omega)]
    simp

/-- Text of a line without end of line or null character. -/
def LineOk (s : Str) : Prop := InLine s ∧ s.length ≤ 198

theorem fgetsAll_lines {ls : List Str} (h : ∀ s ∈ ls, LineOk s) (rest : Str) :
    fgetsAll iniMaxLine (ls.flatMap (fun s => s ++ ['\n']) ++ rest) = ls.map (fun s => s ++ ['\n']) ++ fgetsAll iniMaxLine rest := by
  induction ls with
  | nil => rfl
  | cons s ls ih =>
    have hs := h s List.mem_cons_self
    have := ih fun t ht => h t (List.mem_cons_of_mem _ ht)
    rw [List.flatMap_cons, List.map_cons, List.cons_append, ← this]
    unfold fgetsAll
    rw [List.append_assoc, List.append_assoc, List.singleton_append, fgetsLoop_line iniMaxLine (fun c hc => (hs.1 c hc).1) _ _ _ (by have := hs.2; simp [iniMaxLine]; omega)]
    simp

theorem takeWhile_line {s : Str} (h : InLine s) : (s ++ ['\n']).takeWhile (· ≠ Char.ofNat 0) = s ++ ['\n'] := by
  rw [List.takeWhile_eq_self_iff]
  intro c hc
  rcases List.mem_append.1 hc with hc | hc
  · simpa using (h c hc).2
  · simp only [List.mem_singleton] at hc
    subst hc
    decide

theorem newline_space : ∀ c ∈ ['\n'], iniSpace c = true := by decide

theorem Blank.space {s : Str} (h : Blank s) : ∀ c ∈ s, iniSpace c = true := fun c hc => (h c hc).1

theorem nul_not_space : iniSpace (Char.ofNat 0) = false := by decide

theorem Blank.plain {s : Str} (h : Blank s) : InLine s := fun c hc => ⟨(h c hc).2, fun e => by
  have := (h c hc).1
  rw [e, nul_not_space] at this
  exact absurd this (by decide)⟩

theorem InLine.append {s t : Str} (h : InLine s) (h' : InLine t) : InLine (s ++ t) := fun c hc => (List.mem_append.1 hc).elim (h c) (h' c)

theorem InLine.cons {t : Str} {c : Char} (h : c ≠ '\n' ∧ c ≠ Char.ofNat 0) (h' : InLine t) : InLine (c :: t) := fun x hx => by
  rcases List.mem_cons.1 hx with rfl | hx
  · exact h
  · exact h' x hx

theorem IniItem.WF.plain {prev : Option Str} {it : IniItem} (h : it.WF prev) : InLine it.text := by
  cases it with
  | blank ws => exact Blank.plain h
  | comment ws mark text =>
    obtain ⟨h1, h2, h3⟩ := h
    refine h1.plain.append (InLine.cons ?_ h3)
    rcases h2 with rfl | rfl <;> decide
  | header ws name junk =>
    obtain ⟨h0, -, h1, h2, -⟩ := h
    exact h0.plain.append (InLine.append (InLine.cons (by decide) h1) (InLine.cons (by decide) h2))
  | entry ws name p1 sep p2 value p3 tail =>
    obtain ⟨h0, -, h1, -, -, -, -, -, -, h8, h9, h10, h11, -, -, h14, h15⟩ := h
    have ht : InLine tail := by
      rcases h15 with rfl | h
      · intro c hc; exact absurd hc (by simp)
      · exact h.2.2
    refine h0.plain.append (InLine.append (h1.append h8.plain) (InLine.cons ?_ ((((h10.plain).append h11).append h14.plain).append ht)))
    rcases h9 with rfl | rfl <;> decide
  | cont ws text ws' =>
    obtain ⟨h0, -, h1, -, -, -, h2, -⟩ := h
    exact h0.plain.append (h1.append h2.plain)

/-- The part of an iteration that follows the removal of the blanks. -/
def lineBody (st : IniState) (body : Str) : IniState :=
  let start := lskip body
  if start.head? = some ';' ∨ start.head? = some '#' then st
  else if st.prevName ≠ [] ∧ start ≠ [] ∧ (decide (0 > 0) || decide (start.length < body.length)) = true then valueHandler st st.sec st.prevName start
  else if start.head? = some '[' then
    let r := findCharsOrComment [']'] false start.tail
    if r.2.head? = some ']' then { st with sec := strncpy0 r.1 maxSection, prevName := [] } else st.fail
  else if start ≠ [] then
    let r := findCharsOrComment ['=', ':'] false start
    if r.2.head? = some '=' ∨ r.2.head? = some ':' then
      let name := rstrip r.1
      let value := rstrip (lskip (findCharsOrComment [] false r.2.tail).1)
      valueHandler { st with prevName := strncpy0 name maxName } st.sec name value
    else st.fail
  else st

theorem iniLine_body (st : IniState) {s : Str} (hs : InLine s) (hb : st.lineno = 0 → (s ++ ['\n']).take 3 ≠ bom) :
    iniLine st (s ++ ['\n']) = lineBody { st with lineno := st.lineno + 1 } (rstrip s) := by
  have hskip : ¬ (st.lineno + 1 = 1 ∧ (s ++ ['\n']).take 3 = bom) := fun e => hb (by omega) e.2
  unfold iniLine lineBody
  simp only [takeWhile_line hs, if_neg hskip, List.drop_zero, rstrip_spaces s newline_space]

theorem blank_line (st : IniState) {ws : Str} (h : Blank ws) : lineBody st (rstrip ws) = st := by
  have : rstrip ws = [] := by
    have := rstrip_spaces [] h.space
    simpa [rstrip] using this
  simp [lineBody, this, lskip]

theorem comment_line (st : IniState) {ws text : Str} {mark : Char} (h : Blank ws) (hm : mark = ';' ∨ mark = '#') :
    lineBody st (rstrip (ws ++ mark :: text)) = st := by
  have hsp : iniSpace mark = false := by rcases hm with rfl | rfl <;> decide
  have : lskip (rstrip (ws ++ mark :: text)) = mark :: rstrip text := by
    rw [rstrip_cons _ _ hsp, lskip_spaces _ h.space, lskip_trimmed]
    intro c hc
    simp only [List.head?_cons, Option.some.injEq] at hc
    rw [← hc]; exact hsp
  unfold lineBody
  simp only [this, List.head?_cons, Option.some.injEq]
  rw [if_pos hm]

theorem rstrip_append {s t : Str} (h : rstrip t ≠ []) : rstrip (s ++ t) = s ++ rstrip t := by
  unfold rstrip at h ⊢
  have h' : t.reverse.dropWhile iniSpace ≠ [] := fun e => h (by rw [e]; rfl)
  rw [List.reverse_append, List.dropWhile_append, if_neg (by rw [List.isEmpty_iff]; exact h')]
  simp

theorem indent_free {st : IniState} {ws : Str} {P : Prop} (hw : ws = [] ∨ st.prevName = []) (s : Str) :
    ¬ (st.prevName ≠ [] ∧ P ∧ (decide (0 > 0) || decide (s.length < (ws ++ s).length)) = true) := by
  rcases hw with rfl | hw
  · simp
  · simp [hw]

theorem header_line (st : IniState) {ws name junk : Str} (hws : Blank ws) (hw : ws = [] ∨ st.prevName = []) (h1 : ']' ∉ name) (h2 : NoInline name)
    (h3 : name.length ≤ 49) :
    lineBody st (rstrip (ws ++ ('[' :: name ++ ']' :: junk))) = { st with sec := name, prevName := [] } := by
  have hb : rstrip ('[' :: name ++ ']' :: junk) = '[' :: (name ++ ']' :: rstrip junk) := by
    rw [rstrip_cons _ _ (by decide)]; rfl
  have hk : lskip (ws ++ '[' :: (name ++ ']' :: rstrip junk)) = '[' :: (name ++ ']' :: rstrip junk) := by
    rw [lskip_spaces _ hws.space]
    exact lskip_trimmed fun c hc => by
      simp only [List.head?_cons, Option.some.injEq] at hc
      rw [← hc]; decide
  have hf : findCharsOrComment [']'] false (name ++ ']' :: rstrip junk) = (name, ']' :: rstrip junk) :=
    find_stop _ (NI_of h2 (by simp)) (fun c hc e => h1 (by rw [List.mem_singleton] at e; exact e ▸ hc))
      (Or.inr ⟨_, _, rfl, Or.inl (by simp)⟩)
  rw [rstrip_append (by rw [hb]; simp), hb]
  unfold lineBody
  simp only [hk]
  rw [if_neg (indent_free hw _)]
  simp only [List.tail_cons, hf]
  have : strncpy0 name maxSection = name := List.take_of_length_le (by simpa [maxSection] using h3)
  simp [this]

theorem cont_line (st : IniState) {ws text ws' : Str} (hws : Blank ws) (hne : ws ≠ []) (ht : Trimmed text) (htne : text ≠ [])
    (hc : ∀ c, text.head? = some c → c ≠ ';' ∧ c ≠ '#') (hws' : Blank ws') (hp : st.prevName ≠ []) :
    lineBody st (rstrip (ws ++ (text ++ ws'))) = valueHandler st st.sec st.prevName text := by
  have hr : rstrip text = text := rstrip_trimmed ht.2
  have hk : lskip (ws ++ text) = text := by rw [lskip_spaces _ hws.space, lskip_trimmed ht.1]
  rw [← List.append_assoc, rstrip_spaces _ hws'.space, rstrip_append (by rw [hr]; exact htne), hr]
  unfold lineBody
  simp only [hk]
  cases text with
  | nil => exact absurd rfl htne
  | cons c text =>
    have hc' := hc c rfl
    rw [if_neg (by simp [hc'.1, hc'.2]), if_pos]
    refine ⟨hp, by simp, ?_⟩
    have : 0 < ws.length := List.length_pos_iff.2 hne
    simp only [List.length_append, List.length_cons, gt_iff_lt, Bool.or_eq_true, decide_eq_true_eq]
    omega

theorem trimmed_head {s t : Str} (h : Trimmed s) (hne : s ≠ []) : ∀ c, (s ++ t).head? = some c → iniSpace c = false := by
  intro c hc
  refine h.1 c ?_
  cases s with
  | nil => exact absurd rfl hne
  | cons x s => simpa using hc

theorem NoInline.nil : NoInline [] := fun pre c post e => by simp at e

/-- The value part of an entry. -/
theorem entry_value {p2 value p3 tail : Str} (hp2 : Blank p2) (hv : Trimmed value) (hn : NoInline (p2 ++ value)) (hp3 : Blank p3)
    (ht : tail = [] ∨ (p3 ≠ [] ∧ tail.head? = some ';')) :
    rstrip (lskip (findCharsOrComment [] false (rstrip (p2 ++ value ++ p3 ++ tail))).1) = value := by
  rcases ht with rfl | ⟨hne, ht⟩
  · rw [List.append_nil, rstrip_spaces _ hp3.space]
    by_cases hval : value = []
    · subst hval
      have : rstrip (p2 ++ []) = [] := by
        rw [List.append_nil]
        simpa [rstrip] using rstrip_spaces [] hp2.space
      rw [this]
      rfl
    · have hr : rstrip (p2 ++ value) = p2 ++ value := rstrip_trimmed fun c hc => hv.2 c (by
        rw [List.getLast?_append] at hc
        rcases List.eq_nil_or_concat value with rfl | ⟨t, x, rfl⟩
        · exact absurd rfl hval
        · simpa using hc)
      have hf : findCharsOrComment [] false (p2 ++ value) = (p2 ++ value, []) := by
        have := find_stop (chars := []) [] (NI_of hn (was := false) (by simp)) (by simp) (Or.inl rfl)
        rwa [List.append_nil] at this
      rw [hr, hf, lskip_spaces _ hp2.space, lskip_trimmed hv.1, rstrip_trimmed hv.2]
  · cases tail with
    | nil => simp at ht
    | cons x tail =>
      simp only [List.head?_cons, Option.some.injEq] at ht
      subst ht
      rw [rstrip_cons _ _ semicolon_not_space]
      have hl : lastSpace false (p2 ++ value ++ p3) = true := by rw [lastSpace_append]; exact lastSpace_blank hp3 hne _
      rw [find_stop (chars := []) (';' :: rstrip tail) (NI_append (NI_of hn (was := false) (by simp)) (NI_blank hp3 _)) (by simp)
        (Or.inr ⟨_, _, rfl, Or.inr ⟨hl, rfl⟩⟩)]
      simp only
      rw [List.append_assoc, lskip_spaces _ hp2.space]
      by_cases hval : value = []
      · subst hval
        rw [List.nil_append, ← List.append_nil p3, lskip_spaces _ hp3.space]
        rfl
      · rw [lskip_trimmed (trimmed_head hv hval), rstrip_spaces _ hp3.space, rstrip_trimmed hv.2]

theorem entry_line (st : IniState) {prev : Option Str} {ws name p1 p2 value p3 tail : Str} {sep : Char}
    (h : (IniItem.entry ws name p1 sep p2 value p3 tail).WF prev) (hw : ws = [] ∨ st.prevName = []) :
    lineBody st (rstrip (ws ++ (name ++ p1 ++ sep :: (p2 ++ value ++ p3 ++ tail)))) =
      valueHandler { st with prevName := strncpy0 name maxName } st.sec name value := by
  obtain ⟨h0, -, h1, h2, h3, h4, h5, h6, h7, h8, h9, h10, h11, h12, h13, h14, h15⟩ := h
  have hsp : iniSpace sep = false := by rcases h9 with rfl | rfl <;> decide
  rw [rstrip_append (by rw [rstrip_cons _ _ hsp]; simp), rstrip_cons _ _ hsp]
  obtain ⟨X, hX⟩ : ∃ X, X = rstrip (p2 ++ value ++ p3 ++ tail) := ⟨_, rfl⟩
  rw [← hX]
  have hk : lskip (ws ++ (name ++ p1 ++ sep :: X)) = name ++ p1 ++ sep :: X := by
    rw [lskip_spaces _ h0.space, List.append_assoc]; exact lskip_trimmed (trimmed_head h2 h3)
  have hsepm : sep ∈ ['=', ':'] := by rcases h9 with rfl | rfl <;> simp
  have hp1 : ∀ c ∈ p1, c ∉ ['=', ':'] := fun c hc e => by
    have := h8.space c hc
    simp only [List.mem_cons, List.not_mem_nil, or_false] at e
    rcases e with rfl | rfl <;> exact absurd this (by decide)
  have hf : findCharsOrComment ['=', ':'] false (name ++ p1 ++ sep :: X) = (name ++ p1, sep :: X) :=
    find_stop _ (NI_append (NI_of h7 (by simp)) (NI_blank h8 _)) (fun c hc e => by
      rcases List.mem_append.1 hc with hc | hc
      · simp only [List.mem_cons, List.not_mem_nil, or_false] at e
        rcases e with rfl | rfl
        · exact h5 hc
        · exact h6 hc
      · exact hp1 c hc e) (Or.inr ⟨_, _, rfl, Or.inl hsepm⟩)
  have hval : rstrip (lskip (findCharsOrComment [] false X).1) = value := by
    rw [hX]; exact entry_value h10 h12 h13 h14 (h15.imp id fun h => ⟨h.1, h.2.1⟩)
  have hname : rstrip (name ++ p1) = name := by rw [rstrip_spaces _ h8.space, rstrip_trimmed h2.2]
  unfold lineBody
  simp only [hk]
  rw [if_neg (indent_free hw _ : ¬ (st.prevName ≠ [] ∧ name ++ p1 ++ sep :: X ≠ [] ∧ _))]
  simp only [hf, List.head?_cons, List.tail_cons, hval, hname]
  cases name with
  | nil => exact absurd rfl h3
  | cons c name =>
    have h4' := h4 c rfl
    simp only [List.cons_append, List.head?_cons, Option.some.injEq]
    rw [if_neg (by simp [h4'.1, h4'.2.1]), if_neg (by simp [h4'.2.2]), if_pos (by simp), if_pos (by simpa using h9)]

theorem trimmed_self {s : Str} (h : Trimmed s) : rstrip s = s ∧ lskip s = s := ⟨rstrip_trimmed h.2, lskip_trimmed h.1⟩

theorem malformed_line (st : IniState) {s : Str} (h : Malformed s) : lineBody st (rstrip s) = st.fail := by
  obtain ⟨-, ht, hne, hc, body, tail, rfl, htail, hh⟩ := h
  obtain ⟨hr, hk⟩ := trimmed_self ht
  have hlast : ∀ pre : Str, ∀ c, ∀ was, lastSpace was (pre ++ [c]) = iniSpace c := fun pre c was => by
    rw [lastSpace_append]; rfl
  rw [hr]
  unfold lineBody
  simp only [hk]
  obtain ⟨x, y, hxy⟩ : ∃ x y, body ++ tail = x :: y := by
    cases h : body ++ tail with
    | nil => exact absurd h hne
    | cons x y => exact ⟨x, y, rfl⟩
  have hx := hc x (by rw [hxy]; rfl)
  rw [if_neg (by rw [hxy]; simp [hx.1, hx.2]), if_neg (by simp)]
  rcases hh with ⟨hb, hbody⟩ | ⟨hb, hb1, hb2⟩
  · rw [if_pos hb]
    have hres : ∀ r : Str × Str, (r.2.head? = none ∨ r.2.head? = some ';') → ¬ (r.2.head? = some ']') := by
      rintro r (e | e) <;> rw [e] <;> decide
    rw [if_neg]
    apply hres
    have hx' : x = '[' := by rw [hxy] at hb; simpa using hb
    cases body with
    | nil =>
      rcases htail with rfl | ⟨pre, c, e, _⟩
      · simp at hxy
      · simp at e
    | cons b body =>
      simp only [List.cons_append, List.tail_cons]
      refine find_none (fun c hc e => hbody ?_) ?_
      · rw [List.mem_singleton] at e
        exact e ▸ List.mem_cons_of_mem _ hc
      · rcases htail with rfl | ⟨pre, c, e, hsp, hd⟩
        · exact Or.inl rfl
        · refine Or.inr ⟨?_, hd⟩
          cases pre with
          | nil =>
            simp only [List.nil_append, List.cons.injEq] at e
            simp only [List.cons_append, List.cons.injEq] at hxy
            rw [← e.1, hxy.1, hx'] at hsp
            exact absurd hsp (by decide)
          | cons p pre =>
            simp only [List.cons_append, List.cons.injEq] at e
            rw [e.2, hlast]; exact hsp
  · rw [if_neg hb, if_pos (by rw [hxy]; simp)]
    have hres : ∀ r : Str × Str, (r.2.head? = none ∨ r.2.head? = some ';') → ¬ (r.2.head? = some '=' ∨ r.2.head? = some ':') := by
      rintro r (e | e) <;> rw [e] <;> decide
    rw [if_neg]
    apply hres
    refine find_none (fun c hc e => ?_) ?_
    · simp only [List.mem_cons, List.not_mem_nil, or_false] at e
      rcases e with rfl | rfl
      · exact hb1 hc
      · exact hb2 hc
    · rcases htail with rfl | ⟨pre, c, e, hsp, hd⟩
      · exact Or.inl rfl
      · exact Or.inr ⟨by rw [e, hlast]; exact hsp, hd⟩

/-! ### Keys and accumulated values -/

theorem toLower_eq (c : Char) : Char.toLower c = '=' ↔ c = '=' := by
  constructor
  · intro h
    unfold Char.toLower at h
    split at h
    · rename_i hc
      have := congrArg Char.val h
      simp only at this
      have h1 : 'A'.val ≤ c.val := by simpa using hc.1
      have h2 : c.val ≤ 'Z'.val := by simpa using hc.2
      have h1' : 65 ≤ c.val.toNat := by simpa using UInt32.le_iff_toNat_le.1 h1
      have h2' : c.val.toNat ≤ 90 := by simpa using UInt32.le_iff_toNat_le.1 h2
      have h3 := congrArg UInt32.toNat this
      simp at h3
      have h4 : c.toNat = c.val.toNat := rfl
      omega
    · exact h
  · rintro rfl; decide

theorem mem_lower {s : Str} : '=' ∈ lower s ↔ '=' ∈ s := by
  unfold lower
  rw [List.mem_map]
  constructor
  · rintro ⟨c, hc, e⟩; rw [toLower_eq] at e; exact e ▸ hc
  · intro h; exact ⟨_, h, by decide⟩

theorem split_last {x y z w : Str} {a : Char} (hy : a ∉ y) (hw : a ∉ w) (h : x ++ a :: y = z ++ a :: w) : x = z ∧ y = w := by
  have hlen : ∀ {x y z w : Str}, a ∉ y → x ++ a :: y = z ++ a :: w → ¬ x.length < z.length := by
    intro x y z w hy h hl
    have h' := congrArg (fun l : Str => l[z.length]?) h
    simp only [List.getElem?_append_right (le_refl _), Nat.sub_self, List.getElem?_cons_zero] at h'
    rw [List.getElem?_append_right hl.le] at h'
    obtain ⟨k, hk⟩ : ∃ k, z.length - x.length = k + 1 := ⟨z.length - x.length - 1, by omega⟩
    rw [hk, List.getElem?_cons_succ] at h'
    exact hy (List.mem_of_getElem? h')
  have e : x.length = z.length := le_antisymm (not_lt.1 (hlen hw h.symm)) (not_lt.1 (hlen hy h))
  obtain ⟨h1, h2⟩ := List.append_inj h e
  exact ⟨h1, (List.cons.inj h2).2⟩

theorem makeKey_eq_iff {sec name sec' name' : Str} (h : '=' ∉ name) (h' : '=' ∉ name') :
    makeKey sec name = makeKey sec' name' ↔ lower sec = lower sec' ∧ lower name = lower name' := by
  have e : ∀ s n, makeKey s n = lower s ++ '=' :: lower n := fun s n => by
    unfold makeKey lower
    rw [List.map_append, List.map_cons]
    rfl
  rw [e, e]
  constructor
  · exact split_last (fun hm => h (mem_lower.1 hm)) (fun hm => h' (mem_lower.1 hm))
  · rintro ⟨h1, h2⟩; rw [h1, h2]

/-- One more value for the same key. -/
def addValue (old v : Str) : Str := if old.length > 0 then old ++ '\n' :: v else v

theorem addValue_foldl : ∀ (vs : List Str) {old : Str}, old ≠ [] → vs.foldl addValue old = old ++ vs.flatMap ('\n' :: ·) := by
  intro vs
  induction vs with
  | nil => intro old _; simp
  | cons v vs ih =>
    intro old h
    have : addValue old v = old ++ '\n' :: v := if_pos (List.length_pos_iff.2 h)
    rw [List.foldl_cons, this, ih (by simp), List.flatMap_cons]
    simp

theorem joined_eq : ∀ vs : List Str, joined vs = vs.foldl addValue [] := by
  intro vs
  induction vs with
  | nil => rfl
  | cons v vs ih =>
    have : addValue [] v = v := rfl
    rw [List.foldl_cons, this]
    cases v with
    | nil => exact ih
    | cons c v => rw [addValue_foldl _ (by simp)]; rfl

theorem valueHandler_values (st : IniState) {sec name sec' name' value : Str} (h : '=' ∉ name) (h' : '=' ∉ name') :
    (valueHandler st sec name value).values (makeKey sec' name') =
      if lower sec = lower sec' ∧ lower name = lower name' then some (addValue ((st.values (makeKey sec' name')).getD []) value)
      else st.values (makeKey sec' name') := by
  unfold valueHandler
  simp only
  by_cases e : lower sec = lower sec' ∧ lower name = lower name'
  · rw [if_pos e, if_pos ((makeKey_eq_iff h h').2 e).symm, (makeKey_eq_iff h h').2 e]
    rfl
  · rw [if_neg e, if_neg fun e' => e ((makeKey_eq_iff h h').1 e'.symm)]

/-- What the parser remembers of the last entry. -/
def prevText : Option Str → Str
  | none => []
  | some n => strncpy0 n maxName

/-- Names of entries are not empty. -/
def PrevOk (prev : Option Str) : Prop := ∀ n, prev = some n → n ≠ [] ∧ '=' ∉ n

/-- The lines of a file, one after the other. -/
theorem items_fold : ∀ (items : List IniItem) (prev : Option Str) (st : IniState), LinesWF prev items → PrevOk prev → st.prevName = prevText prev →
    (st.lineno = 0 → (fileText items).take 3 ≠ bom) →
    let st' := (items.map fun it => it.text ++ ['\n']).foldl iniLine st
    st'.error = st.error ∧ st'.lineno = st.lineno + items.length ∧
    (∀ sec name, '=' ∉ name → st'.values (makeKey sec name) =
      if valuesOf sec name st.sec prev items = [] then st.values (makeKey sec name)
      else some ((valuesOf sec name st.sec prev items).foldl addValue ((st.values (makeKey sec name)).getD []))) := by
  intro items
  induction items with
  | nil => intro prev st _ _ _ _; exact ⟨rfl, rfl, fun _ _ _ => by simp [valuesOf]⟩
  | cons it items ih =>
    intro prev st hwf hpok hprev hbom
    have hit := hwf.1
    have hline := iniLine_body st hit.plain (fun h e => hbom h (by
      unfold fileText
      rw [List.flatMap_cons, List.take_append]
      have : 3 ≤ (it.text ++ ['\n']).length := by
        have := congrArg List.length e
        simp only [List.length_take, bom, List.length_cons, List.length_nil] at this
        omega
      rw [e, Nat.sub_eq_zero_of_le this]; simp))
    rw [List.map_cons, List.foldl_cons, hline]
    have hrec : ∀ st1 : IniState, st1.lineno = st.lineno + 1 → PrevOk (it.next prev) → st1.prevName = prevText (it.next prev) → _ :=
      fun st1 h1 h2 h3 => ih (it.next prev) st1 hwf.2 h2 h3 (fun h => by omega)
    have hfree : ∀ ws : Str, (ws = [] ∨ prev = none) → (ws = [] ∨ ({ st with lineno := st.lineno + 1 } : IniState).prevName = []) := by
      rintro ws (h | h)
      · exact Or.inl h
      · exact Or.inr (by rw [show ({ st with lineno := st.lineno + 1 } : IniState).prevName = st.prevName from rfl, hprev, h]; rfl)
    have hadd : ∀ (st1 : IniState) (n v : Str), '=' ∉ n → st1.values = st.values → st1.sec = st.sec → ∀ s m, '=' ∉ m → ∀ vs : List Str,
        (if vs = [] then (valueHandler st1 st.sec n v).values (makeKey s m)
          else some (vs.foldl addValue (((valueHandler st1 st.sec n v).values (makeKey s m)).getD []))) =
        if (if lower st.sec = lower s ∧ lower n = lower m then v :: vs else vs) = [] then st.values (makeKey s m)
        else some ((if lower st.sec = lower s ∧ lower n = lower m then v :: vs else vs).foldl addValue ((st.values (makeKey s m)).getD [])) := by
      intro st1 n v hn hv hs s m hm vs
      rw [valueHandler_values _ hn hm, hv]
      by_cases e : lower st.sec = lower s ∧ lower n = lower m
      · simp only [if_pos e, List.cons_ne_nil, if_false, List.foldl_cons]
        by_cases e' : vs = []
        · rw [if_pos e', e']; rfl
        · rw [if_neg e']; rfl
      · simp only [if_neg e]
    cases it with
    | blank ws =>
      change Blank ws at hit
      rw [show (IniItem.blank ws).text = ws from rfl, blank_line _ hit]
      obtain ⟨a, b, c⟩ := hrec { st with lineno := st.lineno + 1 } rfl hpok hprev
      refine ⟨a, by rw [b, List.length_cons]; ring, fun s n hn => ?_⟩
      rw [c s n hn]; cases prev <;> simp only [valuesOf, IniItem.next] <;> rfl
    | comment ws mark text =>
      rw [show (IniItem.comment ws mark text).text = ws ++ mark :: text from rfl, comment_line _ hit.1 hit.2.1]
      obtain ⟨a, b, c⟩ := hrec { st with lineno := st.lineno + 1 } rfl hpok hprev
      refine ⟨a, by rw [b, List.length_cons]; ring, fun s n hn => ?_⟩
      rw [c s n hn]; cases prev <;> simp only [valuesOf, IniItem.next] <;> rfl
    | header ws name junk =>
      obtain ⟨h0, hw, -, -, h1, h2, h3⟩ := hit
      rw [show (IniItem.header ws name junk).text = ws ++ ('[' :: name ++ ']' :: junk) from rfl, header_line _ h0 (hfree _ hw) h1 h2 h3]
      obtain ⟨a, b, c⟩ := hrec { st with lineno := st.lineno + 1, sec := name, prevName := [] } rfl (fun n e => by simp [IniItem.next] at e) rfl
      refine ⟨a, by rw [b, List.length_cons]; ring, fun s n hn => ?_⟩
      rw [c s n hn]; cases prev <;> simp only [valuesOf, IniItem.next] <;> rfl
    | entry ws name p1 sep p2 value p3 tail =>
      rw [show (IniItem.entry ws name p1 sep p2 value p3 tail).text = ws ++ (name ++ p1 ++ sep :: (p2 ++ value ++ p3 ++ tail)) from rfl,
        entry_line _ hit (hfree _ hit.2.1)]
      have hname : '=' ∉ name := hit.2.2.2.2.2.2.1
      have hne : name ≠ [] := hit.2.2.2.2.1
      obtain ⟨a, b, c⟩ := hrec (valueHandler { st with lineno := st.lineno + 1, prevName := strncpy0 name maxName } st.sec name value) rfl
        (fun n e => by simp only [IniItem.next, Option.some.injEq] at e; rw [← e]; exact ⟨hne, hname⟩) rfl
      refine ⟨a, b.trans (by rw [List.length_cons]; change st.lineno + 1 + _ = _; ring), fun s n hn => ?_⟩
      rw [c s n hn]
      simp only [valuesOf, IniItem.next]
      exact hadd { st with lineno := st.lineno + 1, prevName := strncpy0 name maxName } name value hname rfl rfl s n hn _
    | cont ws text ws' =>
      obtain ⟨h0, hne, -, ht, htne, hc, hws', p, rfl, hp⟩ := hit
      have hpo := hpok p rfl
      have hpn : strncpy0 p maxName = p := List.take_of_length_le (by simpa [maxName] using hp)
      have hprev' : ({ st with lineno := st.lineno + 1 } : IniState).prevName = p := by
        rw [show ({ st with lineno := st.lineno + 1 } : IniState).prevName = st.prevName from rfl, hprev]
        exact hpn
      rw [show (IniItem.cont ws text ws').text = ws ++ (text ++ ws') from rfl, cont_line _ h0 hne ht htne hc hws' (by rw [hprev']; exact hpo.1), hprev']
      obtain ⟨a, b, c⟩ := hrec (valueHandler { st with lineno := st.lineno + 1, prevName := p } st.sec p text) rfl hpok hpn.symm
      refine ⟨a, b.trans (by rw [List.length_cons]; change st.lineno + 1 + _ = _; ring), fun s n hn => ?_⟩
      rw [c s n hn]
      simp only [valuesOf, IniItem.next]
      exact hadd { st with lineno := st.lineno + 1, prevName := p } p text hpo.2 rfl rfl s n hn _

theorem LinesWF.plain : ∀ {items : List IniItem} {prev : Option Str}, LinesWF prev items → ∀ it ∈ items, InLine it.text := by
  intro items
  induction items with
  | nil => intro _ _ it hit; exact absurd hit (by simp)
  | cons x items ih =>
    intro prev h it hit
    rcases List.mem_cons.1 hit with rfl | hit
    · exact h.1.plain
    · exact ih h.2 it hit

theorem LinesWF.left : ∀ {items more : List IniItem} {prev : Option Str}, LinesWF prev (items ++ more) → LinesWF prev items := by
  intro items
  induction items with
  | nil => intro _ _ _; trivial
  | cons x items ih => intro more prev h; exact ⟨h.1, ih h.2⟩

end Heracles
