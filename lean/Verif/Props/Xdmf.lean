import Verif.Props.FileNames
import Verif.Props.Loop
import Verif.Spec.Xml
import Mathlib.Data.Fin.VecNotation

/-!
# C45: the XDMF index is well formed and lists the written files
-/

namespace Heracles.Xml

theorem Content.append {ns ms s t} (h : Content ns s) (h' : Content ms t) : Content (ns ++ ms) (s ++ t) := by
  induction h with
  | nil => exact h'
  | space hc _ ih => exact .space hc ih
  | text h1 h2 _ ih => rw [List.append_assoc]; exact .text h1 h2 ih
  | elem h1 h2 h3 _ _ ih =>
    have := Content.elem h1 h2 h3 ih
    simpa only [List.append_assoc, List.cons_append] using this
  | empty h1 h2 _ ih =>
    have := Content.empty h1 h2 ih
    simpa only [List.append_assoc, List.cons_append] using this

theorem Content.spaces {ns s} (n : ℕ) (h : Content ns s) : Content ns (List.replicate n ' ' ++ s) := by
  induction n with
  | zero => exact h
  | succ n ih => exact .space (.inl rfl) ih

theorem Content.newline {ns s} (h : Content ns s) : Content ns ('\n' :: s) := .space (.inr rfl) h

theorem Content.flatten {α : Type} (l : List α) (f : α → Node) (t : α → List Char) (h : ∀ x ∈ l, Content [f x] (t x)) :
    Content (l.map f) (l.map t).flatten := by
  induction l with
  | nil => exact .nil
  | cons x l ih =>
    rw [List.map_cons, List.map_cons, List.flatten_cons]
    exact (h x (by simp)).append (ih fun y hy => h y (by simp [hy]))

/-- An element alone on its line. -/
theorem Content.elem1 {nm as a cs b} (h1 : IsName nm) (h2 : Attrs as a) (h3 : Content cs b) :
    Content [.elem nm as cs] (['<'] ++ nm ++ a ++ ['>'] ++ b ++ ['<', '/'] ++ nm ++ ['>', '\n']) := by
  have := Content.elem h1 h2 h3 (Content.newline .nil)
  simpa only [List.append_assoc, List.cons_append, List.nil_append] using this

theorem Content.empty1 {nm as a} (h1 : IsName nm) (h2 : Attrs as a) :
    Content [.elem nm as []] (['<'] ++ nm ++ a ++ ['/', '>', '\n']) := by
  have := Content.empty h1 h2 (Content.newline .nil)
  simpa only [List.append_assoc, List.cons_append, List.nil_append] using this

/-- The text of attributes. -/
def attrText (as : List (List Char × List Char)) : List Char :=
  as.foldr (fun p s => [' '] ++ p.1 ++ ['=', '"'] ++ p.2 ++ ['"'] ++ s) []

theorem attrs_text {as : List (List Char × List Char)} (h : ∀ p ∈ as, IsName p.1 ∧ Plain p.2) : Attrs as (attrText as) := by
  induction as with
  | nil => exact .nil
  | cons p as ih =>
    obtain ⟨k, v⟩ := p
    have hp := h (k, v) (by simp)
    exact .cons hp.1 hp.2 (ih fun q hq => h q (by simp [hq]))

theorem Plain.append {s t : List Char} (h : Plain s) (h' : Plain t) : Plain (s ++ t) := by
  intro c hc
  rcases List.mem_append.1 hc with hc | hc
  · exact h c hc
  · exact h' c hc

instance (s : List Char) : Decidable (Plain s) := by unfold Plain; infer_instance

/-- Decidable form of `IsName`. -/
def isNameB : List Char → Bool
  | [] => false
  | c :: r => c.isAlpha && r.all Char.isAlphanum

theorem isName_of {s : List Char} (h : isNameB s = true) : IsName s := by
  cases s with
  | nil => cases h
  | cons c r =>
    rw [isNameB, Bool.and_eq_true, List.all_eq_true] at h
    exact ⟨c, r, rfl, h.1, h.2⟩

end Heracles.Xml

namespace Heracles.Output
open Xml

/-! ### The expected document -/

/-- A number as an attribute value. -/
abbrev num (z : ℤ) : List Char := decimalInt z

/-- A reference to a dataset of a file. -/
def dataItem (dims file dataset : List Char) : Node :=
  .elem "DataItem".toList
    [("NumberType".toList, "Float".toList), ("Precision".toList, "8".toList), ("Dimensions".toList, dims), ("Format".toList, "HDF".toList)]
    [.text (file ++ ":/".toList ++ dataset)]

/-- Sizes in the order of HDF5: the last direction first. -/
def sizes (n : Fin 3 → ℤ) : List Char := num (n 2) ++ [' '] ++ num (n 1) ++ [' '] ++ num (n 0)

/-- Entry of one output: its time, the topology of the global mesh, its axes, and the cell variables, all in the file `file`. -/
def entry (g : XmlGrid) (nfx ndim : ℕ) (file time : List Char) : Node :=
  .elem "Grid".toList [("Name".toList, "output".toList), ("GridType".toList, "Uniform".toList)]
    ([.elem "Time".toList [("Value".toList, time)] [],
      .elem "Topology".toList [("TopologyType".toList, "3DRectMesh".toList), ("Dimensions".toList, sizes fun a => g.ncells a + 1)] [],
      .elem "Geometry".toList [("GeometryType".toList, "VXVYVZ".toList)]
        [dataItem (num (g.extent 0 - 2 * g.nghost 0)) file "x0_ng".toList, dataItem (num (g.extent 1 - 2 * g.nghost 1)) file "x1_ng".toList,
          dataItem (num (g.extent 2 - 2 * g.nghost 2)) file "x2_ng".toList]]
      ++ (varNames nfx ndim).map fun v =>
        .elem "Attribute".toList [("Center".toList, "Cell".toList), ("Name".toList, v), ("AttributeType".toList, "Scalar".toList)]
          [dataItem (sizes g.ncells) file v])

/-- The document with the given entries. -/
def index (entries : List Node) : Node :=
  .elem "Xdmf".toList [("Version".toList, "2.0".toList)]
    [.elem "Domain".toList []
      [.elem "Grid".toList
        [("Name".toList, "TimeSeries".toList), ("GridType".toList, "Collection".toList), ("CollectionType".toList, "Temporal".toList)]
        entries]]

/-! ### Characters -/

theorem digits_plain {l : List Char} (h : Digits l) : Plain l := by
  intro c hc
  have := h c hc
  refine ⟨?_, ?_, ?_, ?_, ?_⟩ <;> rintro rfl <;> revert this <;> decide

theorem decimalInt_plain (z : ℤ) : Plain (decimalInt z) := by
  cases z with
  | ofNat n => exact digits_plain (decimal_digits n)
  | negSucc n =>
    intro c hc
    rcases List.mem_cons.1 hc with rfl | hc
    · decide
    · exact digits_plain (decimal_digits _) c hc

theorem sizes_plain (n : Fin 3 → ℤ) : Plain (sizes n) :=
  ((((decimalInt_plain _).append (by decide)).append (decimalInt_plain _)).append (by decide)).append (decimalInt_plain _)

theorem outputFilename_plain {pre : List Char} (h : Plain pre) (n : ℕ) : Plain (outputFilename pre n) :=
  ((h.append (by decide)).append (digits_plain (pad_digits 8 (decimal_digits n)))).append (by decide)

theorem varNames_plain {nfx ndim : ℕ} {v : List Char} (h : v ∈ varNames nfx ndim) : Plain v := by
  simp only [varNames, List.mem_append, List.mem_map] at h
  rcases h with (h | ⟨i, _, rfl⟩) | h
  · revert v; decide
  · exact Plain.append (by decide) (digits_plain (decimal_digits i))
  · have h' := List.mem_of_mem_take h
    clear h
    revert v; decide

theorem decimal8 : decimal 8 = "8".toList := by simp [decimal, digit]

/-! ### What the writer appends -/

/-- The indentation at a level. -/
def ind (l : ℕ) : List Char := List.replicate (2 * l) ' '

theorem indent_eq {s : Doc} (h : s.level ≤ s.maxLevel) (hw : s.width = 2) : s.indent = s.put (ind s.level) := by
  unfold Doc.indent ind
  rw [List.take_replicate, hw, min_eq_left (by omega)]

/-- The text of a `DataItem` at level `l`. -/
def itemText (l : ℕ) (dims file dataset : List Char) : List Char :=
  ind l ++ (['<'] ++ "DataItem".toList
    ++ attrText [("NumberType".toList, "Float".toList), ("Precision".toList, "8".toList), ("Dimensions".toList, dims), ("Format".toList, "HDF".toList)]
    ++ ['>'] ++ (['\n'] ++ ind (l + 1) ++ ((file ++ ":/".toList ++ dataset) ++ ['\n'] ++ ind l)) ++ ['<', '/'] ++ "DataItem".toList ++ ['>', '\n'])

theorem itemText_content (l : ℕ) {dims file dataset : List Char} (hd : Plain dims) (hf : Plain file) (hs : Plain dataset) :
    Content [dataItem dims file dataset] (itemText l dims file dataset) := by
  refine Content.spaces _ (Content.elem1 (isName_of rfl) (attrs_text ?_) ?_)
  · intro p hp
    simp only [List.mem_cons, List.not_mem_nil, or_false] at hp
    rcases hp with rfl | rfl | rfl | rfl
    · exact ⟨isName_of rfl, by decide⟩
    · exact ⟨isName_of rfl, by decide⟩
    · exact ⟨isName_of rfl, hd⟩
    · exact ⟨isName_of rfl, by decide⟩
  · rw [List.append_assoc ['\n'] (ind (l + 1))]
    refine Content.newline (Content.spaces _ ?_)
    rw [List.append_assoc (file ++ ":/".toList ++ dataset)]
    refine Content.text (by simp) ((hf.append (t := ":/".toList) (by decide)).append hs) (Content.newline ?_)
    have := Content.spaces (2 * l) .nil
    rwa [List.append_nil] at this

set_option maxRecDepth 8000 in
theorem writeAxis_eq (g : XmlGrid) (file : List Char) {s : Doc} (h : s.level + 2 ≤ s.maxLevel) (hw : s.width = 2) (a : Fin 3) :
    writeAxis g file s a = .ok (s.put (itemText (s.level + 1) (num (g.extent a - 2 * g.nghost a)) file (axisLabel a))) := by
  obtain ⟨l, m, w, t⟩ := s
  simp only at h hw
  subst hw
  have h0 : ¬ l = m := by omega
  have h1 : ¬ l + 1 = m := by omega
  have e1 : min (2 * (l + 1)) (2 * m) = 2 * (l + 1) := by omega
  have e2 : min (2 * (l + 1 + 1)) (2 * m) = 2 * (l + 1 + 1) := by omega
  simp [writeAxis, Doc.push, Doc.pop, Doc.put, Doc.indent, h0, h1, bind, Except.bind, List.take_replicate, e1, e2, itemText, ind, attrText,
    decimal8]

/-- The text of a variable at level `l`. -/
def varText (l : ℕ) (g : XmlGrid) (file v : List Char) : List Char :=
  ind l ++ (['<'] ++ "Attribute".toList
    ++ attrText [("Center".toList, "Cell".toList), ("Name".toList, v), ("AttributeType".toList, "Scalar".toList)]
    ++ ['>'] ++ (['\n'] ++ (itemText (l + 1) (sizes g.ncells) file v ++ ind l)) ++ ['<', '/'] ++ "Attribute".toList ++ ['>', '\n'])

theorem varText_content (l : ℕ) (g : XmlGrid) {file v : List Char} (hf : Plain file) (hv : Plain v) :
    Content [.elem "Attribute".toList [("Center".toList, "Cell".toList), ("Name".toList, v), ("AttributeType".toList, "Scalar".toList)]
          [dataItem (sizes g.ncells) file v]] (varText l g file v) := by
  refine Content.spaces _ (Content.elem1 (isName_of rfl) (attrs_text ?_) ?_)
  · intro p hp
    simp only [List.mem_cons, List.not_mem_nil, or_false] at hp
    rcases hp with rfl | rfl | rfl
    · exact ⟨isName_of rfl, by decide⟩
    · exact ⟨isName_of rfl, hv⟩
    · exact ⟨isName_of rfl, by decide⟩
  · refine Content.newline ?_
    have := (itemText_content (l + 1) (sizes_plain g.ncells) hf hv).append (Content.spaces (2 * l) .nil)
    rw [List.append_nil (List.replicate _ _)] at this
    exact this

set_option maxRecDepth 8000 in
theorem writeVar_eq (g : XmlGrid) (file : List Char) {s : Doc} (h : s.level + 2 ≤ s.maxLevel) (hw : s.width = 2) (v : List Char) :
    writeVar g file s v = .ok (s.put (varText s.level g file v)) := by
  obtain ⟨l, m, w, t⟩ := s
  simp only at h hw
  subst hw
  have h0 : ¬ l = m := by omega
  have h1 : ¬ l + 1 = m := by omega
  have e0 : min (2 * l) (2 * m) = 2 * l := by omega
  have e1 : min (2 * (l + 1)) (2 * m) = 2 * (l + 1) := by omega
  have e2 : min (2 * (l + 1 + 1)) (2 * m) = 2 * (l + 1 + 1) := by omega
  simp [writeVar, Doc.push, Doc.pop, Doc.put, Doc.indent, h0, h1, bind, Except.bind, pure, Except.pure, List.take_replicate, e0, e1, e2, varText,
    itemText, ind, attrText, decimal8, sizes, dimensions]

theorem foldlM_put {α : Type} (f : Doc → α → Except String Doc) (t : α → List Char) (l m w : ℕ)
    (h : ∀ x txt, f { level := l, maxLevel := m, width := w, text := txt } x = .ok { level := l, maxLevel := m, width := w, text := txt ++ t x })
    (xs : List α) (txt : List Char) :
    xs.foldlM f { level := l, maxLevel := m, width := w, text := txt }
      = .ok { level := l, maxLevel := m, width := w, text := txt ++ (xs.map t).flatten } := by
  induction xs generalizing txt with
  | nil => simp [List.foldlM, pure, Except.pure]
  | cons x xs ih =>
    rw [List.foldlM_cons, h]
    simp only [bind, Except.bind]
    rw [ih]
    simp

/-- The text of an output whose `<Grid>` is at level `l`. -/
def entryText (l : ℕ) (g : XmlGrid) (nfx ndim : ℕ) (file time : List Char) : List Char :=
  ind l ++ (['<'] ++ "Grid".toList ++ attrText [("Name".toList, "output".toList), ("GridType".toList, "Uniform".toList)] ++ ['>']
    ++ (['\n'] ++ ((ind (l + 1) ++ (['<'] ++ "Time".toList ++ attrText [("Value".toList, time)] ++ ['/', '>', '\n']))
      ++ ((ind (l + 1) ++ (['<'] ++ "Topology".toList
          ++ attrText [("TopologyType".toList, "3DRectMesh".toList), ("Dimensions".toList, sizes fun a => g.ncells a + 1)] ++ ['/', '>', '\n']))
      ++ ((ind (l + 1) ++ (['<'] ++ "Geometry".toList ++ attrText [("GeometryType".toList, "VXVYVZ".toList)] ++ ['>']
          ++ (['\n'] ++ ((itemText (l + 2) (num (g.extent 0 - 2 * g.nghost 0)) file "x0_ng".toList
            ++ (itemText (l + 2) (num (g.extent 1 - 2 * g.nghost 1)) file "x1_ng".toList
            ++ itemText (l + 2) (num (g.extent 2 - 2 * g.nghost 2)) file "x2_ng".toList)) ++ ind (l + 1)))
          ++ ['<', '/'] ++ "Geometry".toList ++ ['>', '\n']))
      ++ (((varNames nfx ndim).map (varText (l + 1) g file)).flatten ++ ind l)))))
    ++ ['<', '/'] ++ "Grid".toList ++ ['>', '\n'])

theorem _root_.Heracles.Xml.Content.trailing {ns s} (n : ℕ) (h : Content ns s) : Content ns (s ++ ind n) := by
  have := h.append (Content.spaces (2 * n) .nil)
  rwa [List.append_nil, List.append_nil] at this

theorem entryText_content (l : ℕ) (g : XmlGrid) (nfx ndim : ℕ) {file time : List Char} (hf : Plain file) (ht : Plain time) :
    Content [entry g nfx ndim file time] (entryText l g nfx ndim file time) := by
  refine Content.spaces _ (Content.elem1 (isName_of rfl) (attrs_text ?_) (Content.newline ?_))
  · intro p hp
    simp only [List.mem_cons, List.not_mem_nil, or_false] at hp
    rcases hp with rfl | rfl <;> exact ⟨isName_of rfl, by decide⟩
  have c1 : Content [.elem "Time".toList [("Value".toList, time)] []]
      (ind (l + 1) ++ (['<'] ++ "Time".toList ++ attrText [("Value".toList, time)] ++ ['/', '>', '\n'])) := by
    refine Content.spaces _ (Content.empty1 (isName_of rfl) (attrs_text ?_))
    intro p hp
    rw [List.mem_singleton] at hp
    subst hp
    exact ⟨isName_of rfl, ht⟩
  have c2 : Content [.elem "Topology".toList [("TopologyType".toList, "3DRectMesh".toList), ("Dimensions".toList, sizes fun a => g.ncells a + 1)] []]
      (ind (l + 1) ++ (['<'] ++ "Topology".toList
          ++ attrText [("TopologyType".toList, "3DRectMesh".toList), ("Dimensions".toList, sizes fun a => g.ncells a + 1)] ++ ['/', '>', '\n'])) := by
    refine Content.spaces _ (Content.empty1 (isName_of rfl) (attrs_text ?_))
    intro p hp
    simp only [List.mem_cons, List.not_mem_nil, or_false] at hp
    rcases hp with rfl | rfl
    · exact ⟨isName_of rfl, by decide⟩
    · exact ⟨isName_of rfl, sizes_plain fun a => g.ncells a + 1⟩
  have c3 := itemText_content (l + 2) (decimalInt_plain (g.extent 0 - 2 * g.nghost 0)) hf (dataset := "x0_ng".toList) (by decide)
  have c4 := itemText_content (l + 2) (decimalInt_plain (g.extent 1 - 2 * g.nghost 1)) hf (dataset := "x1_ng".toList) (by decide)
  have c5 := itemText_content (l + 2) (decimalInt_plain (g.extent 2 - 2 * g.nghost 2)) hf (dataset := "x2_ng".toList) (by decide)
  have c6 := Content.spaces (2 * (l + 1)) (Content.elem1 (nm := "Geometry".toList) (isName_of rfl)
    (attrs_text (as := [("GeometryType".toList, "VXVYVZ".toList)]) (by
      intro p hp
      rw [List.mem_singleton] at hp
      subst hp
      exact ⟨isName_of rfl, by decide⟩)) (Content.newline (Content.trailing (l + 1) (c3.append (c4.append c5)))))
  have c7 := Content.flatten (varNames nfx ndim) _ (varText (l + 1) g file) fun v hv => varText_content (l + 1) g hf (varNames_plain hv)
  exact c1.append (c2.append (c6.append (c7.trailing l)))

set_option maxRecDepth 8000 in
theorem writeOutput_eq (g : XmlGrid) (pre : List Char) (nfx ndim : ℕ) {s : Doc} (h : s.level + 4 ≤ s.maxLevel) (hw : s.width = 2) (n : ℕ)
    (time : List Char) :
    writeOutput g pre (varNames nfx ndim) s n time = .ok (s.put (entryText (s.level + 1) g nfx ndim (outputFilename pre n) time)) := by
  obtain ⟨l, m, w, t⟩ := s
  simp only at h hw
  subst hw
  have h0 : ¬ l = m := by omega
  have h1 : ¬ l + 1 = m := by omega
  have e1 : min (2 * (l + 1)) (2 * m) = 2 * (l + 1) := by omega
  have e2 : min (2 * (l + 1 + 1)) (2 * m) = 2 * (l + 1 + 1) := by omega
  have f1 := foldlM_put (writeAxis g (outputFilename pre n))
    (fun a => itemText (l + 2 + 1) (num (g.extent a - 2 * g.nghost a)) (outputFilename pre n) (axisLabel a)) (l + 2) m 2
    (fun a txt => writeAxis_eq g _ (by show l + 2 + 2 ≤ m; omega) rfl a)
  have f2 := foldlM_put (writeVar g (outputFilename pre n)) (varText (l + 2) g (outputFilename pre n)) (l + 2) m 2
    (fun v txt => writeVar_eq g _ (by show l + 2 + 2 ≤ m; omega) rfl v)
  have fr : List.finRange 3 = [0, 1, 2] := by decide
  unfold writeOutput
  simp only [Doc.push, h0, if_false, bind, Except.bind, Doc.put, Doc.indent, List.take_replicate, h1, e1, e2]
  rw [f1]
  simp only [Doc.push, h0, if_false, bind, Except.bind, Doc.put, Doc.indent, List.take_replicate, h1, e1, e2]
  rw [f2]
  simp [Doc.pop, entryText, attrText, ind, fr, axisLabel, sizes, dimensions, List.take_replicate, e1, e2]

/-- `index` of a list of entries, as the writer lays it out. -/
def indexText (body : List Char) : List Char :=
  ['<'] ++ "Xdmf".toList ++ attrText [("Version".toList, "2.0".toList)] ++ ['>']
    ++ (['\n'] ++ (ind 1 ++ (['<'] ++ "Domain".toList ++ attrText [] ++ ['>']
      ++ (['\n'] ++ ((ind 2 ++ (['<'] ++ "Grid".toList
          ++ attrText [("Name".toList, "TimeSeries".toList), ("GridType".toList, "Collection".toList), ("CollectionType".toList, "Temporal".toList)]
          ++ ['>'] ++ (['\n'] ++ (body ++ ind 2)) ++ ['<', '/'] ++ "Grid".toList ++ ['>', '\n'])) ++ ind 1))
      ++ ['<', '/'] ++ "Domain".toList ++ ['>', '\n'])))
    ++ ['<', '/'] ++ "Xdmf".toList ++ ['>', '\n']

theorem indexText_content {entries : List Node} {body : List Char} (h : Content entries body) : Content [index entries] (indexText body) := by
  refine Content.elem1 (isName_of rfl) (attrs_text ?_) (Content.newline (Content.spaces _ (Content.elem1 (isName_of rfl) (attrs_text ?_)
    (Content.newline (Content.trailing 1 (Content.spaces _ (Content.elem1 (isName_of rfl) (attrs_text ?_) (Content.newline (h.trailing 2)))))))))
  · intro p hp
    rw [List.mem_singleton] at hp
    subst hp
    exact ⟨isName_of rfl, by decide⟩
  · intro p hp
    cases hp
  · intro p hp
    simp only [List.mem_cons, List.not_mem_nil, or_false] at hp
    rcases hp with rfl | rfl | rfl <;> exact ⟨isName_of rfl, by decide⟩

set_option maxRecDepth 8000 in
theorem writeXml_eq {K : Type} (shown : K → List Char) (g : XmlGrid) (pre : List Char) (nfx ndim : ℕ) (outputId : ℤ) (times : List K) :
    writeXml shown g pre nfx ndim outputId times = .ok ("<?xml version=\"1.0\"?>\n".toList ++ "<!DOCTYPE ".toList ++ "Xdmf".toList
      ++ " SYSTEM \"Xdmf.dtd\" []>\n".toList ++ indexText ((List.finRange times.length).map fun i =>
        entryText 3 g nfx ndim (outputFilename pre ((firstOutputId outputId times.length + i.val) % 2 ^ 64)) (shown (times.get i))).flatten) := by
  have f := fun nm : Fin times.length → ℕ => foldlM_put (fun s (i : Fin times.length) =>
      writeOutput g pre (varNames nfx ndim) s (nm i) (shown (times.get i)))
    (fun i => entryText 3 g nfx ndim (outputFilename pre (nm i)) (shown (times.get i))) 2 10 2
    (fun i txt => writeOutput_eq g pre nfx ndim (s := { level := 2, maxLevel := 10, width := 2, text := txt }) (by show 2 + 4 ≤ 10; decide) rfl (nm i)
      (shown (times.get i)))
  unfold writeXml
  simp only [Doc.new, Doc.push, if_false, bind, Except.bind, Doc.put, Doc.indent, Nat.reduceAdd, Nat.reduceEqDiff, zero_ne_one,
    OfNat.zero_ne_ofNat, OfNat.one_ne_ofNat]
  rw [f fun i => (firstOutputId outputId times.length + i.val) % 2 ^ 64]
  simp [Doc.pop, indexText, attrText, ind, List.take_replicate, pure, Except.pure]

end Heracles.Output

namespace Heracles
open Output Xml

/-- **C45.** Whatever the outputs, the scalars and the grid, the writer never leaves its indentation levels (it does not throw) and the
text is a well-formed document; its entries are those of the recorded times, in order, with consecutive file numbers that end at
`output_id`. The prefix and the printed times must not contain XML markup. -/
theorem C45_document {K : Type} (shown : K → List Char) (hs : ∀ t, Plain (shown t)) (g : XmlGrid) {pre : List Char} (hp : Plain pre)
    (nfx ndim : ℕ) (outputId : ℤ) (times : List K) (h0 : (times.length : ℤ) ≤ outputId + 1) (h1 : outputId < 2 ^ 31) :
    ∃ text, writeXml shown g pre nfx ndim outputId times = .ok text ∧
      Document (index ((List.finRange times.length).map fun i =>
        entry g nfx ndim (writeName pre (outputId + 1 - times.length + i.val)) (shown (times.get i)))) text := by
  have hx := writeXml_eq shown g pre nfx ndim outputId times
  refine ⟨_, hx, "Xdmf".toList, _, _, indexText _, rfl, ?_, rfl⟩
  refine indexText_content (Content.flatten _ _ _ fun i _ => ?_)
  have e : outputFilename pre ((firstOutputId outputId times.length + i.val) % 2 ^ 64) = writeName pre (outputId + 1 - times.length + i.val) := by
    have hs : sizeT.min = 0 := rfl
    have hb : (2 : ℤ) ^ sizeT.bits = 2 ^ 64 := rfl
    have := i.isLt
    unfold writeName firstOutputId
    congr 1
    simp only [staticCast, hs, hb, sub_zero, add_zero]
    rw [Int.emod_eq_of_lt (by omega) (by omega), Int.emod_eq_of_lt (by omega) (by omega), Nat.mod_eq_of_lt (by omega)]
    omega
  rw [e]
  exact entryText_content 3 g nfx ndim (outputFilename_plain hp _) (hs _)

section Run
variable {H K : Type} [Field K] [LinearOrder K] {p : LoopParams K} {hy : Hydro H K}

/-- The files written so far are numbered consecutively up to `output_id`. -/
def NumInv (r : RunState H K) : Prop :=
  r.status ≠ .failed → (r.outs.length : ℤ) ≤ r.s.outputId + 1 ∧
    ∀ i : Fin r.outs.length, (r.outs.get i).outputId = r.s.outputId + 1 - r.outs.length + i.val

theorem numInv_append {outs : List (LoopState H K)} {k : ℤ} (h1 : (outs.length : ℤ) ≤ k + 1)
    (h2 : ∀ i : Fin outs.length, (outs.get i).outputId = k + 1 - outs.length + i.val) {s : LoopState H K} (hs : s.outputId = k + 1) :
    ((outs ++ [s]).length : ℤ) ≤ s.outputId + 1 ∧
      ∀ i : Fin (outs ++ [s]).length, ((outs ++ [s]).get i).outputId = s.outputId + 1 - (outs ++ [s]).length + i.val := by
  refine ⟨by rw [List.length_append, List.length_singleton]; push_cast; omega, fun i => ?_⟩
  obtain ⟨i, hi⟩ := i
  rcases Nat.lt_or_ge i outs.length with hlt | hge
  · have := h2 ⟨i, hlt⟩
    simp only [List.get_eq_getElem] at this ⊢
    rw [List.getElem_append_left hlt, this, List.length_append, List.length_singleton, hs]
    push_cast
    omega
  · have : i = outs.length := by
      rw [List.length_append, List.length_singleton] at hi
      omega
    subst this
    simp

theorem NumInv.runStep {r : RunState H K} (c : Bool) (h : NumInv r) : NumInv (runStep p hy c r) := by
  unfold Heracles.runStep
  cases hst : r.status with
  | finished => exact h
  | failed => exact h
  | running =>
    obtain ⟨h1, h2⟩ := h (by rw [hst]; decide)
    simp only
    unfold iteration
    cases decideStep p (hy.timeStep r.s.h) c r.s with
    | error m => exact fun hf => absurd rfl hf
    | ok D =>
      by_cases hb : hy.bad r.s.h = true
      · simp only [hb, if_true]
        exact fun hf => absurd rfl hf
      · simp only [hb, Bool.false_eq_true, if_false]
        intro _
        cases D.makeOutput with
        | false => exact ⟨h1, h2⟩
        | true => exact numInv_append h1 h2 (s := ⟨_, _, _, r.s.outputId + 1, _, _⟩) rfl

theorem NumInv.runN {clock : ℕ → Bool} {r : RunState H K} (h : NumInv r) (n : ℕ) : NumInv (runN p hy clock r n) := by
  induction n with
  | zero => exact h
  | succ n ih => exact ih.runStep _

theorem freshRun_num (tIni : K) (h0 : H) : NumInv (freshRun p tIni h0) := by
  unfold freshRun
  split
  · intro _
    refine ⟨by show (1 : ℤ) ≤ 0 + 1; decide, fun i => ?_⟩
    obtain ⟨i, hi⟩ := i
    have : i = 0 := by simpa using hi
    subst this
    rfl
  · exact fun _ => ⟨by show (0 : ℤ) ≤ -1 + 1; decide, fun i => i.elim0⟩

theorem restartRun_num (resume : H → H) {f : LoopState H K} (hf : -1 ≤ f.outputId) : NumInv (restartRun resume f) :=
  fun _ => ⟨by show (0 : ℤ) ≤ f.outputId + 1; omega, fun i => i.elim0⟩

/-- **C45.** In a run of the time loop, started afresh or from a restart file, the index lists exactly the files written since the start
of the run: entry by entry, the name under which the file was written and its time. (Until the run is aborted: the dump that precedes the
exception of an invalid energy is not recorded, and the index is not written again.) -/
theorem C45_lists_written_files (shown : K → List Char) (hs : ∀ t, Plain (shown t)) (g : XmlGrid) {pre : List Char} (hp : Plain pre)
    (nfx ndim : ℕ) (clock : ℕ → Bool) {r0 : RunState H K}
    (hr : (∃ tIni h0, r0 = freshRun p tIni h0) ∨ ∃ resume f, -1 ≤ f.outputId ∧ r0 = restartRun resume f) (n : ℕ) :
    let r := runN p hy clock r0 n
    r.status ≠ .failed → r.s.outputId < 2 ^ 31 →
    ∃ text, writeXml shown g pre nfx ndim r.s.outputId (r.outs.map (·.t)) = .ok text ∧
      Document (index (r.outs.map fun f => entry g nfx ndim (writeName pre f.outputId) (shown f.t))) text := by
  intro r hf hlt
  have h0 : NumInv r0 := by
    rcases hr with ⟨tIni, h0, rfl⟩ | ⟨resume, f, hid, rfl⟩
    · exact freshRun_num tIni h0
    · exact restartRun_num resume hid
  obtain ⟨h1, h2⟩ := (NumInv.runN (p := p) (hy := hy) (clock := clock) h0 n) hf
  obtain ⟨text, ht, hd⟩ := C45_document shown hs g hp nfx ndim r.s.outputId (r.outs.map (·.t)) (by rw [List.length_map]; exact h1) hlt
  refine ⟨text, ht, ?_⟩
  have e : ((List.finRange (r.outs.map (·.t)).length).map fun i =>
        entry g nfx ndim (writeName pre (r.s.outputId + 1 - ((r.outs.map (·.t)).length : ℕ) + i.val)) (shown ((r.outs.map (·.t)).get i)))
      = r.outs.map fun f => entry g nfx ndim (writeName pre f.outputId) (shown f.t) := by
    apply List.ext_getElem
    · simp
    · intro i hi hi'
      have hi2 : i < r.outs.length := by simpa using hi'
      have := h2 ⟨i, hi2⟩
      simp only [List.get_eq_getElem] at this
      simp only [List.getElem_map, List.getElem_finRange, List.get_eq_getElem, List.length_map, Fin.val_cast]
      rw [this]
  rw [e] at hd
  exact hd

end Run

/-- **C45.** Each entry shows density, pressure, energy and temperature, every passive scalar and every velocity component, and nothing else.
These are the names of the datasets of the file (src/io/config.yaml.cpp 83-89, 154-163). -/
theorem C45_variables (nfx ndim : ℕ) (hd : ndim ≤ 3) (v : List Char) :
    v ∈ varNames nfx ndim ↔ (v = "rho".toList ∨ v = "P".toList ∨ v = "E".toList ∨ v = "T".toList) ∨
      (∃ i < nfx, v = "fx".toList ++ decimal i) ∨ ∃ a < ndim, v = "ux".toList ++ decimal a := by
  have d0 : decimal 0 = ['0'] := by simp [decimal, digit]
  have d1 : decimal 1 = ['1'] := by simp [decimal, digit]
  have d2 : decimal 2 = ['2'] := by simp [decimal, digit]
  have h3 : v ∈ ["ux0".toList, "ux1".toList, "ux2".toList].take ndim ↔ ∃ a < ndim, v = "ux".toList ++ decimal a := by
    have e0 : "ux".toList ++ decimal 0 = "ux0".toList := by rw [d0]; rfl
    have e1 : "ux".toList ++ decimal 1 = "ux1".toList := by rw [d1]; rfl
    have e2 : "ux".toList ++ decimal 2 = "ux2".toList := by rw [d2]; rfl
    rw [← e0, ← e1, ← e2]
    generalize "ux".toList = u
    have : ndim = 0 ∨ ndim = 1 ∨ ndim = 2 ∨ ndim = 3 := by omega
    constructor
    · intro h
      rcases this with rfl | rfl | rfl | rfl <;>
        simp only [List.take_succ_cons, List.take_zero, List.mem_cons, List.not_mem_nil, or_false] at h
      · exact ⟨0, by omega, h⟩
      · rcases h with h | h
        · exact ⟨0, by omega, h⟩
        · exact ⟨1, by omega, h⟩
      · rcases h with h | h | h
        · exact ⟨0, by omega, h⟩
        · exact ⟨1, by omega, h⟩
        · exact ⟨2, by omega, h⟩
    · rintro ⟨a, ha, rfl⟩
      have ha' : a = 0 ∨ a = 1 ∨ a = 2 := by omega
      rcases this with rfl | rfl | rfl | rfl <;> rcases ha' with rfl | rfl | rfl <;> first | omega | simp
  rw [varNames, List.mem_append, List.mem_append, h3, List.mem_map]
  simp only [List.mem_cons, List.not_mem_nil, or_false, List.mem_range, or_assoc, eq_comm]

/-- The hypotheses of `C45_document` hold for a run with the default prefix and three outputs. -/
example : ∃ text, writeXml (fun _ : ℚ => "0.25".toList) { ncells := ![4, 4, 1], nghost := ![2, 2, 0], extent := ![9, 9, 2] } "result".toList 1 2 6
    [0, 1, 2] = .ok text ∧ Document (index ((List.finRange 3).map fun i => entry { ncells := ![4, 4, 1], nghost := ![2, 2, 0], extent := ![9, 9, 2] } 1 2
      (writeName "result".toList (6 + 1 - 3 + i.val)) "0.25".toList)) text :=
  C45_document _ (fun _ => by decide) _ (by decide) 1 2 6 [0, 1, 2] (by decide) (by decide)

/-- A prefix is written without escaping: with a `<` in it, the first lines of the references are already markup. -/
example : ¬ Plain "a<b".toList := by decide

end Heracles
