import Verif.Text.ClusterLemmas

/-!
# C77: a cluster written as text and read again
-/

namespace Verif.Text

open Verif.Py Verif.Parts

open Verif.Pdf (splitLines splitLines_line)

set_option linter.unusedSectionVars false

variable {K V E : Type}

/-- A part that can be read back from what is written with this list of functions: no other function of the list has the
identity of its owner, it is well formed, its numbers evaluate back to themselves. -/
structure PartReadable (P : Python K V) (owners : List (Owner K)) (p : Part K) : Prop where
  own : ∀ o ∈ owners, o.id = p.owner.id → o = p.owner
  pars : p.pars.length = p.owner.npars
  free : p.free.length = p.owner.npars
  readable : ∀ i, ownerIndex owners p.owner.id = some i → Readable P p i

/-- What is assumed of Python and of the cluster.  `g` is what becomes of a number formatted with `%g` and read again. -/
structure McReadable (P : Python K V) (indices : V → Res (List ℤ)) (float : List Char → Option K) (fmt : K → List Char)
    (g : K → K) (c : Mc K) (pf blf : List (Owner K)) (slice : V) : Prop where
  peaks : ∀ p ∈ c.model, PartReadable P pf p
  base : ∀ p, c.baseline = some p → PartReadable P blf p
  noFuncs : c.funcs = none → ∃ v, P.eval "None".toList = some v ∧ P.isNone v = true
  funcs : ∀ fs is, c.funcs = some fs → funcIndices pf fs = .ok is →
    ∃ v, P.eval (listText (is.map reprNat)) = some v ∧ P.isNone v = false ∧ indices v = .ok (is.map (fun i : ℕ => (i : ℤ)))
  method : ∀ m, c.method = some m → ∀ x ∈ m, isSpace x = false
  slice : P.eval c.slice = some slice
  sliceLine : '\n' ∉ c.slice ∧ strip c.slice = c.slice
  number : ∀ x ∈ c.r ++ c.y ++ c.err, fmt x ≠ [] ∧ (∀ a ∈ fmt x, isSpace a = false ∧ a ≠ '#') ∧ float (fmt x) = some (g x)
  lengths : c.y.length = c.r.length ∧ c.err.length = c.r.length

/-! ### The lines of the text -/

/-- The lines of a part, and the empty line that follows. -/
def linesOf (P : Python K V) (owners : List (Owner K)) (p : Part K) : List (List Char) :=
  partLines P p ((ownerIndex owners p.owner.id).getD 0) ++ [[]]

theorem writestr_lines {P : Python K V} {owners : List (Owner K)} {p : Part K} {t : List Char}
    (h : PartReadable P owners p) (hw : writestr P p owners = .ok t) :
    splitLines t = linesOf P owners p ∧ t = join ['\n'] (linesOf P owners p) := by
  unfold writestr at hw
  cases hi : ownerIndex owners p.owner.id with
  | none => rw [hi] at hw; cases hw
  | some i =>
    rw [hi] at hw
    injection hw with hw
    have hr := h.readable i hi
    have hl := partLines_oneLine P p i hr.numLine hr.freeLine
    unfold linesOf
    rw [hi, Option.getD_some, ← hw]
    exact ⟨splitLines_text _ (fun l hl' => oneLine_newline (hl l hl')) (by simp [partLines]),
      (join_snoc_nil _ (by simp [partLines])).symm⟩

theorem linesOf_plain (P : Python K V) (owners : List (Owner K)) (p : Part K) : ∀ l ∈ linesOf P owners p, Plain l := by
  intro l hl
  unfold linesOf partLines at hl
  simp only [List.cons_append, List.nil_append, List.mem_cons, List.not_mem_nil, or_false] at hl
  rcases hl with rfl | rfl | rfl | rfl | rfl | rfl <;> exact fun h => by cases h

theorem skip_linesOf (P : Python K V) (owners : List (Owner K)) (p : Part K) :
    skipComments ([] :: linesOf P owners p) = ([], linesOf P owners p) := by
  rw [skip_blank]
  exact skip_plain 'o' _ _ (by decide) (by decide)

/-- The lines of the peaks. -/
def peakLines (P : Python K V) (pf : List (Owner K)) (ps : List (Part K)) : List (List Char) :=
  ps.flatMap (fun p => "# ModelPeak".toList :: linesOf P pf p)

theorem peaksText_lines {P : Python K V} {pf : List (Owner K)} {ps : List (Part K)} {pt : List (List Char)}
    (h : ∀ p ∈ ps, PartReadable P pf p) (hw : peaksText P pf ps = .ok pt) : pt.flatMap splitLines = peakLines P pf ps := by
  induction ps generalizing pt with
  | nil => cases hw; rfl
  | cons p ps ih =>
    rw [peaksText] at hw
    split at hw
    · cases hw
    · rename_i t ht
      split at hw
      · cases hw
      · rename_i ts hts
        cases hw
        have h1 := (writestr_lines (h p (by simp)) ht).1
        have h2 := ih (fun q hq => h q (by simp [hq])) hts
        have h3 : splitLines "# ModelPeak".toList = ["# ModelPeak".toList] := by decide
        rw [List.flatMap_cons, List.flatMap_cons, h1, h2, h3]
        simp [peakLines]

theorem pieces_plain (name : List Char) (a b : List (List Char)) (ha : ∀ l ∈ a, Plain l) :
    pieces name (a ++ b) = (a ++ (pieces name b).1, (pieces name b).2) := by
  induction a with
  | nil => rfl
  | cons l a ih =>
    rw [List.cons_append, pieces, ih (fun x hx => ha x (by simp [hx])), afterMarker_plain name (ha l (by simp))]
    rfl

theorem pieces_peakLines (P : Python K V) (pf : List (Owner K)) (ps : List (Part K)) :
    pieces "ModelPeak".toList (peakLines P pf ps) = ([], ps.map (fun p => [] :: linesOf P pf p)) := by
  induction ps with
  | nil => rfl
  | cons p ps ih =>
    have e : peakLines P pf (p :: ps) = "# ModelPeak".toList :: (linesOf P pf p ++ peakLines P pf ps) := by
      simp [peakLines]
    have hm : afterMarker "ModelPeak".toList "# ModelPeak".toList = some [] := by decide
    rw [e, pieces, pieces_plain _ _ _ (linesOf_plain P pf p), ih, hm]
    simp

theorem factory_linesOf {P : Python K V} {owners : List (Owner K)} {p : Part K} {t : List Char} (removable : Bool)
    (h : PartReadable P owners p) (hw : writestr P p owners = .ok t) :
    factory P removable (join ['\n'] (linesOf P owners p)) owners = .ok p := by
  rw [← (writestr_lines h hw).2]
  have := c76_roundtrip P p owners t removable h.own h.pars h.free h.readable hw [] [] (fun _ h => nomatch h)
    (fun _ h => nomatch h)
  simpa using this

theorem readPeaks_lines {P : Python K V} {pf : List (Owner K)} {ps : List (Part K)} {pt : List (List Char)}
    (h : ∀ p ∈ ps, PartReadable P pf p) (hw : peaksText P pf ps = .ok pt) :
    readPeaks P pf (ps.map (fun p => [] :: linesOf P pf p)) = .ok ps := by
  induction ps generalizing pt with
  | nil => rfl
  | cons p ps ih =>
    rw [peaksText] at hw
    split at hw
    · cases hw
    · rename_i t ht
      split at hw
      · cases hw
      · rename_i ts hts
        rw [List.map_cons, readPeaks, skip_linesOf]
        simp only
        rw [factory_linesOf true (h p (by simp)) ht]
        simp only
        rw [ih (fun q hq => h q (by simp [hq])) hts]

/-- The lines of the baseline. -/
def baseLines (P : Python K V) (blf : List (Owner K)) : Option (Part K) → List (List Char)
  | none => ["None".toList]
  | some b => linesOf P blf b

theorem readBaseline_skip (P : Python K V) (blf : List (Owner K)) {ls q : List (List Char)} (h : (skipComments ls).2 = q) :
    readBaseline P blf (some ls) = if strip (join ['\n'] q) = "None".toList then .ok none
      else (factory P false (join ['\n'] q) blf).map some := by
  subst h
  rfl

theorem baseline_lines {P : Python K V} {blf : List (Owner K)} {b : Option (Part K)} {bt : List Char}
    (h : ∀ p, b = some p → PartReadable P blf p) (hw : baselineText P blf b = .ok bt) :
    splitLines bt = baseLines P blf b ∧ (∀ l ∈ baseLines P blf b, Plain l) ∧
    readBaseline P blf (some ([] :: baseLines P blf b)) = .ok b := by
  cases b with
  | none =>
    cases hw
    refine ⟨show splitLines "None".toList = ["None".toList] by decide, ?_, ?_⟩
    · intro l hl
      simp only [baseLines, List.mem_cons, List.not_mem_nil, or_false] at hl
      subst hl
      exact fun h => by cases h
    · have hq : (skipComments ([] :: baseLines P blf none)).2 = ["None".toList] :=
        show (skipComments [[], "None".toList]).2 = ["None".toList] by decide
      rw [readBaseline_skip P blf hq, if_pos (by decide)]
  | some p =>
    have hp := h p rfl
    have hw' : writestr P p blf = .ok bt := hw
    refine ⟨(writestr_lines hp hw').1, linesOf_plain P blf p, ?_⟩
    have hq : (skipComments ([] :: baseLines P blf (some p))).2 = linesOf P blf p := by
      show (skipComments ([] :: linesOf P blf p)).2 = linesOf P blf p
      rw [skip_linesOf]
    rw [readBaseline_skip P blf hq, if_neg, factory_linesOf false hp hw']
    · rfl
    · intro heq
      rw [← (writestr_lines hp hw').2] at heq
      unfold writestr at hw'
      cases hi : ownerIndex blf p.owner.id with
      | none => rw [hi] at hw'; cases hw'
      | some i =>
        rw [hi] at hw'
        injection hw' with hw'
        have hr := hp.readable i hi
        have hl := lines_of_text P p i hr.numLine hr.freeLine [] [] (fun _ h => nomatch h) (fun _ h => nomatch h)
        rw [List.nil_append, List.append_nil, hw', heq] at hl
        have : (splitlines "None".toList).length = 1 := by decide
        rw [hl] at this
        cases this

/-! ### The functions -/

theorem funcIndices_spec {pf : List (Owner K)} {fs is : List ℕ} (h : funcIndices pf fs = .ok is) :
    ∃ os, pickFuncs pf (is.map (fun i : ℕ => (i : ℤ))) = .ok os ∧ os.map Owner.id = fs ∧ ∀ o ∈ os, o ∈ pf := by
  induction fs generalizing is with
  | nil => cases h; exact ⟨[], rfl, rfl, fun _ h => nomatch h⟩
  | cons f fs ih =>
    rw [funcIndices] at h
    split at h
    · cases h
    · rename_i i hi
      split at h
      · cases h
      · rename_i js hjs
        cases h
        obtain ⟨os, h1, h2, h3⟩ := ih hjs
        obtain ⟨o, ho, hid⟩ := ownerIndex_some hi
        have hlt : i < pf.length := (List.getElem?_eq_some_iff.1 ho).1
        have hidx : pyIndex pf.length (i : ℤ) = .ok i := by
          unfold pyIndex
          rw [if_pos ⟨by omega, by exact_mod_cast hlt⟩, Int.toNat_natCast]
        refine ⟨o :: os, ?_, (by rw [List.map_cons, hid, h2]), ?_⟩
        · rw [List.map_cons, pickFuncs, hidx]
          simp only
          rw [ho]
          simp only
          rw [h1]
        · intro x hx
          rcases List.mem_cons.1 hx with rfl | hx
          · exact List.mem_of_getElem? ho
          · exact h3 x hx

/-- What `funcs` becomes: the same functions, taken from the list. -/
def SameFuncs (pf : List (Owner K)) (fs : Option (List ℕ)) (os : Option (List (Owner K))) : Prop :=
  os.map (List.map Owner.id) = fs ∧ ∀ l, os = some l → ∀ o ∈ l, o ∈ pf

theorem readFuncs_spec {P : Python K V} {indices : V → Res (List ℤ)} {float : List Char → Option K} {fmt : K → List Char}
    {g : K → K} {c : Mc K} {pf blf : List (Owner K)} {slice : V} (h : McReadable P indices float fmt g c pf blf slice)
    {ft : List Char} (hf : funcsText pf c.funcs = .ok ft) (rest : List (List Char)) :
    '\n' ∉ ft ∧ ∃ os, SameFuncs pf c.funcs os ∧
      readFuncs P indices pf (("peak_funcs=".toList ++ ft) :: rest) = .ok os := by
  have hfield := field_hit "peak_funcs=".toList ft [] rest (fun _ h => nomatch h)
  rw [List.nil_append] at hfield
  unfold readFuncs
  rw [hfield]
  simp only
  cases hc : c.funcs with
  | none =>
    rw [hc] at hf
    cases hf
    obtain ⟨v, h1, h2⟩ := h.noFuncs hc
    refine ⟨by decide, none, ⟨rfl, fun _ h => nomatch h⟩, ?_⟩
    rw [show strip "None".toList = "None".toList from by decide, h1]
    simp only
    rw [if_pos h2]
  | some fs =>
    rw [hc] at hf
    unfold funcsText at hf
    simp only at hf
    cases hi : funcIndices pf fs with
    | error e => rw [hi] at hf; cases hf
    | ok is =>
      rw [hi] at hf
      have hft : listText (is.map reprNat) = ft := by injection hf
      subst hft
      obtain ⟨v, h1, h2, h3⟩ := h.funcs fs is hc hi
      obtain ⟨os, p1, p2, p3⟩ := funcIndices_spec hi
      refine ⟨?_, some os, ⟨(by rw [Option.map_some, p2]), ?_⟩, ?_⟩
      · refine oneLine_newline (oneLine_listText _ ?_)
        intro t ht
        obtain ⟨i, -, rfl⟩ := List.mem_map.1 ht
        exact oneLine_reprNat i
      · intro l hl o ho
        cases hl
        exact p3 o ho
      · rw [strip_listText, h1]
        simp only
        rw [if_neg (by rw [h2]; decide), h3]
        simp only
        rw [p1]
        rfl

/-! ### The data -/

/-- One line of data. -/
def rowText (fmt : K → List Char) : List K → List Char
  | [a, b, c] => fmt a ++ ' ' :: (fmt b ++ ' ' :: fmt c)
  | _ => []

theorem readRows_triples {float : List Char → Option K} {fmt : K → List Char} {g : K → K} (rows : List (List K))
    (h3 : ∀ row ∈ rows, ∃ a b c, row = [a, b, c] ∧ ∀ x ∈ row, fmt x ≠ [] ∧ (∀ a ∈ fmt x, isSpace a = false ∧ a ≠ '#') ∧
      float (fmt x) = some (g x)) :
    readRows float 3 (rows.map (rowText fmt)) = .ok (rows.map (List.map g)) := by
  induction rows with
  | nil => rfl
  | cons row rows ih =>
    obtain ⟨a, b, c, rfl, hx⟩ := h3 row (by simp)
    obtain ⟨a1, a2, a3⟩ := hx a (by simp)
    obtain ⟨b1, b2, b3⟩ := hx b (by simp)
    obtain ⟨c1, c2, c3⟩ := hx c (by simp)
    have hf : fields (rowText fmt [a, b, c]) = [fmt a, fmt b, fmt c] :=
      fields_three _ _ _ a1 b1 c1 (fun x hx => (a2 x hx).1) (fun x hx => (b2 x hx).1) (fun x hx => (c2 x hx).1)
    rw [List.map_cons, readRows, hf, if_neg (by simp)]
    have hm : [fmt a, fmt b, fmt c].mapM float = some [g a, g b, g c] := by
      simp [a3, b3, c3]
    rw [hm]
    simp only
    rw [ih (fun r hr => h3 r (by simp [hr]))]
    rfl

theorem getLast?_join (ls : List (List Char)) (l : List Char) (hl : l ≠ []) :
    (join ['\n'] (ls ++ [l])).getLast? = l.getLast? := by
  induction ls with
  | nil => rfl
  | cons a ls ih =>
    rw [List.cons_append, join_cons _ _ (by simp), List.getLast?_append, ih]
    cases l with
    | nil => exact absurd rfl hl
    | cons x l => simp [List.getLast?_cons]

/-- The rows, as written and followed by an empty line, are read back. -/
theorem data_lines {float : List Char → Option K} {fmt : K → List Char} {g : K → K} (rows : List (List K)) (hne : rows ≠ [])
    (h3 : ∀ row ∈ rows, ∃ a b c, row = [a, b, c] ∧ ∀ x ∈ row, fmt x ≠ [] ∧ (∀ a ∈ fmt x, isSpace a = false ∧ a ≠ '#') ∧
      float (fmt x) = some (g x)) :
    skipComments ([] :: "#L r y dy".toList :: (rows.map (rowText fmt) ++ [[]])) =
      (["#L r y dy".toList], rows.map (rowText fmt) ++ [[]]) ∧
    splitLines (strip (join ['\n'] (rows.map (rowText fmt) ++ [[]]))) = rows.map (rowText fmt) := by
  have hline : ∀ l ∈ rows.map (rowText fmt), (∃ x t, l = x :: t ∧ isSpace x = false ∧ x ≠ '#') ∧
      (∃ z, l.getLast? = some z ∧ isSpace z = false) ∧ '\n' ∉ l := by
    intro l hl
    obtain ⟨row, hrow, rfl⟩ := List.mem_map.1 hl
    obtain ⟨a, b, c, rfl, hx⟩ := h3 row hrow
    obtain ⟨a1, a2, a3⟩ := hx a (by simp)
    obtain ⟨b1, b2, b3⟩ := hx b (by simp)
    obtain ⟨c1, c2, c3⟩ := hx c (by simp)
    have nl : ∀ t : List Char, (∀ x ∈ t, isSpace x = false ∧ x ≠ '#') → '\n' ∉ t :=
      fun t ht hm => absurd (ht _ hm).1 (by decide)
    refine ⟨?_, ?_, ?_⟩
    · obtain ⟨x, t, hxt⟩ := List.exists_cons_of_ne_nil a1
      rw [hxt] at a2
      exact ⟨x, t ++ ' ' :: (fmt b ++ ' ' :: fmt c), by rw [rowText, hxt]; rfl, a2 x (by simp)⟩
    · have hl : (fmt c).getLast? = some ((fmt c).getLast c1) := List.getLast?_eq_some_getLast c1
      refine ⟨(fmt c).getLast c1, ?_, (c2 _ (List.getLast_mem c1)).1⟩
      have e : rowText fmt [a, b, c] = (fmt a ++ ' ' :: (fmt b ++ [' '])) ++ fmt c := by simp [rowText]
      rw [e, List.getLast?_append, hl]
      rfl
    · rw [rowText]
      simp only [List.mem_append, List.mem_cons, not_or]
      exact ⟨nl _ a2, by decide, nl _ b2, by decide, nl _ c2⟩
  constructor
  · rw [skip_blank, skipComments]
    have : "#L r y dy".toList.dropWhile isSpace = '#' :: "L r y dy".toList := by decide
    rw [this]
    simp only
    rw [if_pos trivial]
    obtain ⟨l, ls, hl⟩ := List.exists_cons_of_ne_nil (show rows.map (rowText fmt) ≠ [] by simpa using hne)
    obtain ⟨⟨x, t, rfl, hx1, hx2⟩, -, -⟩ := hline l (by rw [hl]; simp)
    rw [hl, List.cons_append, skip_plain x t _ hx1 hx2]
    rfl
  · have hne' : rows.map (rowText fmt) ≠ [] := by simpa using hne
    rw [join_snoc_nil _ hne']
    have hs : strip (join ['\n'] (rows.map (rowText fmt)) ++ ['\n']) = join ['\n'] (rows.map (rowText fmt)) := by
      have h1 : strip (join ['\n'] (rows.map (rowText fmt))) = join ['\n'] (rows.map (rowText fmt)) := by
        apply strip_eq
        · intro z hz
          obtain ⟨l, ls, hl⟩ := List.exists_cons_of_ne_nil hne'
          obtain ⟨⟨x, t, rfl, hx1, -⟩, -, -⟩ := hline l (by rw [hl]; simp)
          rw [hl] at hz
          have : (join ['\n'] ((x :: t) :: ls)).head? = some x := by
            cases ls <;> rfl
          rw [this] at hz
          cases hz
          exact hx1
        · intro z hz
          have e := List.dropLast_append_getLast hne'
          obtain ⟨⟨x, t, hxt, -, -⟩, ⟨w, hw, hws⟩, -⟩ := hline _ (List.getLast_mem hne')
          rw [← e, getLast?_join _ _ (by rw [hxt]; simp), hw] at hz
          cases hz
          exact hws
      have hcore : ∀ t : List Char, strip (t ++ ['\n']) = strip t := by
        intro t
        unfold strip
        have : (t ++ ['\n']).dropWhile isSpace = if t.dropWhile isSpace = [] then [] else t.dropWhile isSpace ++ ['\n'] := by
          rw [List.dropWhile_append]
          by_cases h : (t.dropWhile isSpace).isEmpty
          · rw [if_pos h, if_pos (by simpa using h)]; decide
          · rw [if_neg h, if_neg (by simpa using h)]
        rw [this]
        by_cases h : t.dropWhile isSpace = []
        · rw [if_pos h, h]
        · rw [if_neg h, List.reverse_append, List.reverse_singleton, List.singleton_append,
            List.dropWhile_cons_of_pos (by decide)]
      rw [hcore, h1]
    rw [hs, splitLines_join _ hne', flatMap_lines _ (fun l hl => (hline l hl).2.2)]

/-! ### The whole text -/

/-- The lines before the peaks. -/
def headLines (P : Python K V) (c : Mc K) (blf : List (Owner K)) (ft : List Char) : List (List Char) :=
  [("peak_funcs=".toList ++ ft), "ModelEvaluator=".toList ++ c.method.getD "None".toList, "slice=".toList ++ c.slice] ++
    "# BaselineObject".toList :: baseLines P blf c.baseline

theorem method_line {P : Python K V} {indices : V → Res (List ℤ)} {float : List Char → Option K} {fmt : K → List Char}
    {g : K → K} {c : Mc K} {pf blf : List (Owner K)} {slice : V} (h : McReadable P indices float fmt g c pf blf slice) :
    ∀ x ∈ c.method.getD "None".toList, isSpace x = false := by
  cases hm : c.method with
  | none => intro x hx; revert x; decide
  | some m => exact h.method m hm

/-- What was written, by lines. -/
theorem mcWritestr_lines {P : Python K V} {indices : V → Res (List ℤ)} {float : List Char → Option K} {fmt : K → List Char}
    {g : K → K} {c : Mc K} {pf blf : List (Owner K)} {slice : V} (h : McReadable P indices float fmt g c pf blf slice)
    {text : List Char} (hw : mcWritestr P fmt c pf blf = .ok text) :
    ∃ ft bt pt, funcsText pf c.funcs = .ok ft ∧ baselineText P blf c.baseline = .ok bt ∧ peaksText P pf c.model = .ok pt ∧
      splitLines text = headLines P c blf ft ++ "## ModelPeaks".toList :: (peakLines P pf c.model ++ "### start data".toList ::
        "#L r y dy".toList :: ((triples c.r c.y c.err).map (rowText fmt) ++ [[]])) := by
  unfold mcWritestr at hw
  split at hw
  · cases hw
  · rename_i ft hft
    split at hw
    · cases hw
    · rename_i bt hbt
      split at hw
      · cases hw
      · rename_i pt hpt
        have hdt : dataText fmt c.r c.y c.err = .ok ((triples c.r c.y c.err).map (rowText fmt)) := by
          rw [dataText_ok fmt _ _ _ h.lengths.1 h.lengths.2]
          congr 1
        rw [hdt] at hw
        simp only at hw
        injection hw with hw
        refine ⟨ft, bt, pt, hft, hbt, hpt, ?_⟩
        rw [← hw]
        generalize hD : (triples c.r c.y c.err).map (rowText fmt) = D
        have hDl : ∀ l ∈ D, '\n' ∉ l := by
          intro l hl
          rw [← hD] at hl
          obtain ⟨row, hrow, rfl⟩ := List.mem_map.1 hl
          obtain ⟨a, b, d, rfl, ha, hb, hd⟩ := triples_mem hrow
          have nl : ∀ x ∈ c.r ++ c.y ++ c.err, '\n' ∉ fmt x := fun x hx hm =>
            absurd ((h.number x hx).2.1 _ hm).1 (by decide)
          rw [rowText]
          simp only [List.mem_append, List.mem_cons, not_or]
          exact ⟨nl a (by simp [ha]), by decide, nl b (by simp [hb]), by decide, nl d (by simp [hd])⟩
        have e : ∀ t : List Char, t ++ ['\n'] = t ++ '\n' :: [] := fun _ => rfl
        have hmarks : splitLines "# BaselineObject".toList = ["# BaselineObject".toList] ∧
          splitLines "## ModelPeaks".toList = ["## ModelPeaks".toList] ∧
          splitLines "### start data".toList = ["### start data".toList] ∧
          splitLines "#L r y dy".toList = ["#L r y dy".toList] := by decide
        have h1 : splitLines ("peak_funcs=".toList ++ ft) = ["peak_funcs=".toList ++ ft] := by
          apply splitLines_single
          rw [List.mem_append, not_or]
          exact ⟨by decide, (readFuncs_spec h hft []).1⟩
        have h2 : splitLines ("ModelEvaluator=".toList ++ c.method.getD "None".toList) =
            ["ModelEvaluator=".toList ++ c.method.getD "None".toList] := by
          apply splitLines_single
          rw [List.mem_append, not_or]
          exact ⟨by decide, fun hm => absurd (method_line h _ hm) (by decide)⟩
        have h3 : splitLines ("slice=".toList ++ c.slice) = ["slice=".toList ++ c.slice] := by
          apply splitLines_single
          rw [List.mem_append, not_or]
          exact ⟨by decide, h.sliceLine.1⟩
        rw [e, splitLines_append, splitLines_join _ (by simp)]
        simp only [List.flatMap_append, List.flatMap_cons, List.flatMap_nil, h1, h2, h3, hmarks.1, hmarks.2.1, hmarks.2.2.1,
          hmarks.2.2.2, (baseline_lines h.base hbt).1, peaksText_lines h.peaks hpt, flatMap_lines D hDl]
        have e0 : splitLines [] = [[]] := rfl
        rw [e0]
        unfold headLines
        simp only [List.append_assoc, List.cons_append, List.nil_append]

/-- The three lines of the header. -/
def headerLines (c : Mc K) (ft : List Char) : List (List Char) :=
  [("peak_funcs=".toList ++ ft), "ModelEvaluator=".toList ++ c.method.getD "None".toList, "slice=".toList ++ c.slice]

theorem headerLines_plain (c : Mc K) (ft : List Char) : ∀ l ∈ headerLines c ft, Plain l := by
  intro l hm
  simp only [headerLines, List.mem_cons, List.not_mem_nil, or_false] at hm
  rcases hm with rfl | rfl | rfl <;> exact fun h => by cases h

/-- What is read once the sections are separated. -/
theorem mcRest_lines {P : Python K V} {indices : V → Res (List ℤ)} {float : List Char → Option K} {fmt : K → List Char}
    {g : K → K} {c : Mc K} {pf blf : List (Owner K)} {slice : V} (h : McReadable P indices float fmt g c pf blf slice)
    (attr : List Char → Option E) {ft bt : List Char} {pt : List (List Char)} (hft : funcsText pf c.funcs = .ok ft)
    (hbt : baselineText P blf c.baseline = .ok bt) (hpt : peaksText P pf c.model = .ok pt) :
    ∃ os, SameFuncs pf c.funcs os ∧
      mcRest P indices float attr ([] :: "#L r y dy".toList :: ((triples c.r c.y c.err).map (rowText fmt) ++ [[]]))
          (headerLines c ft) (some ([] :: baseLines P blf c.baseline)) (some (peakLines P pf c.model)) pf blf =
        match attr (c.method.getD "None".toList) with
        | none => .error .attribute
        | some e => if c.r = [] then .error .dataFormat
          else .ok ⟨c.model, c.baseline, some (c.r.map g), some (c.y.map g), some (c.err.map g), slice, e, os⟩ := by
  obtain ⟨-, os, hos, hrf⟩ := readFuncs_spec h hft ["ModelEvaluator=".toList ++ c.method.getD "None".toList, "slice=".toList ++ c.slice]
  obtain ⟨-, hbp, hrb⟩ := baseline_lines h.base hbt
  refine ⟨os, hos, ?_⟩
  have hpre : ∀ (a : Char) (s t u : List Char) (b : Char), a ≠ b → ¬ (a :: s) <+: (b :: t ++ u) := by
    intro a s t u b hab hp
    rw [List.cons_append, List.cons_prefix_cons] at hp
    exact hab hp.1
  have hf2 : field "ModelEvaluator=".toList [("peak_funcs=".toList ++ ft),
      "ModelEvaluator=".toList ++ c.method.getD "None".toList, "slice=".toList ++ c.slice] = some (c.method.getD "None".toList) := by
    have := field_hit "ModelEvaluator=".toList (c.method.getD "None".toList) [("peak_funcs=".toList ++ ft)] ["slice=".toList ++ c.slice] (by
      intro l hm
      simp only [List.mem_cons, List.not_mem_nil, or_false] at hm
      subst hm
      exact hpre 'M' _ _ _ 'p' (by decide))
    rw [strip_word _ (method_line h)] at this
    exact this
  have hf3 : field "slice=".toList [("peak_funcs=".toList ++ ft),
      "ModelEvaluator=".toList ++ c.method.getD "None".toList, "slice=".toList ++ c.slice] = some c.slice := by
    have := field_hit "slice=".toList c.slice [("peak_funcs=".toList ++ ft), "ModelEvaluator=".toList ++ c.method.getD "None".toList] [] (by
      intro l hm
      simp only [List.mem_cons, List.not_mem_nil, or_false] at hm
      rcases hm with rfl | rfl
      · exact hpre 's' _ _ _ 'p' (by decide)
      · exact hpre 's' _ _ _ 'M' (by decide))
    rw [h.sliceLine.2] at this
    exact this
  unfold mcRest headerLines
  simp only
  rw [hrf]
  simp only
  rw [hf2]
  simp only
  cases hat : attr (c.method.getD "None".toList) with
  | none => rfl
  | some e =>
    simp only
    rw [hf3]
    simp only
    rw [h.slice]
    simp only
    rw [hrb]
    simp only
    rw [pieces_peakLines]
    simp only
    rw [readPeaks_lines h.peaks hpt]
    simp only
    by_cases hr : c.r = []
    · rw [if_pos hr]
      have ht : triples c.r c.y c.err = [] := by rw [hr]; rfl
      rw [ht, List.map_nil, List.nil_append]
      have hs : skipComments [[], "#L r y dy".toList, []] = (["#L r y dy".toList], []) := by decide
      rw [hs]
      simp only
      have hc : ([hasWord ['r'] (columnsInfo "### start data".toList ["#L r y dy".toList]),
        hasWord ['y'] (columnsInfo "### start data".toList ["#L r y dy".toList]),
        hasWord ['d', 'y'] (columnsInfo "### start data".toList ["#L r y dy".toList])]).count true = 3 := by decide
      rw [hc, show splitLines (strip (join ['\n'] [])) = [[]] from rfl, readRows, if_pos (by decide)]
    · rw [if_neg hr]
      have hrows : ∀ row ∈ triples c.r c.y c.err, ∃ a b d, row = [a, b, d] ∧ ∀ x ∈ row, fmt x ≠ [] ∧
          (∀ a ∈ fmt x, isSpace a = false ∧ a ≠ '#') ∧ float (fmt x) = some (g x) := by
        intro row hrow
        obtain ⟨a, b, d, rfl, ha, hb, hd⟩ := triples_mem hrow
        refine ⟨a, b, d, rfl, ?_⟩
        intro x hx
        simp only [List.mem_cons, List.not_mem_nil, or_false] at hx
        rcases hx with rfl | rfl | rfl
        · exact h.number _ (by simp [ha])
        · exact h.number _ (by simp [hb])
        · exact h.number _ (by simp [hd])
      have hne : triples c.r c.y c.err ≠ [] := by
        have hy := h.lengths.1
        have he := h.lengths.2
        cases hcr : c.r with
        | nil => exact absurd hcr hr
        | cons a r =>
          rw [hcr] at hy he
          cases hcy : c.y with
          | nil => rw [hcy] at hy; cases hy
          | cons b y =>
            cases hce : c.err with
            | nil => rw [hce] at he; cases he
            | cons d e => rw [triples]; simp
      obtain ⟨hs, hsl⟩ := data_lines (float := float) (g := g) (triples c.r c.y c.err) hne hrows
      rw [hs]
      simp only
      have hflags : [hasWord ['r'] (columnsInfo "### start data".toList ["#L r y dy".toList]),
        hasWord ['y'] (columnsInfo "### start data".toList ["#L r y dy".toList]),
        hasWord ['d', 'y'] (columnsInfo "### start data".toList ["#L r y dy".toList])] = [true, true, true] := by decide
      rw [hflags, hsl, show [true, true, true].count true = 3 from rfl, readRows_triples _ hrows]
      simp only
      obtain ⟨t1, t2, t3⟩ := triples_columns g c.r c.y c.err h.lengths.1 h.lengths.2
      have k1 : ∀ rows : List (List K), column rows [true, true, true] 0 = some (rows.filterMap (fun row => row[(0 : ℕ)]?)) := fun _ => rfl
      have k2 : ∀ rows : List (List K), column rows [true, true, true] 1 = some (rows.filterMap (fun row => row[(1 : ℕ)]?)) := fun _ => rfl
      have k3 : ∀ rows : List (List K), column rows [true, true, true] 2 = some (rows.filterMap (fun row => row[(2 : ℕ)]?)) := fun _ => rfl
      rw [k1, k2, k3, t1, t2, t3]


/-- Reading what was written, up to the choice of the evaluator and the data. -/
theorem mcFactory_lines {P : Python K V} {indices : V → Res (List ℤ)} {float : List Char → Option K} {fmt : K → List Char}
    {g : K → K} {c : Mc K} {pf blf : List (Owner K)} {slice : V} (h : McReadable P indices float fmt g c pf blf slice)
    (attr : List Char → Option E) {text : List Char} (hw : mcWritestr P fmt c pf blf = .ok text) :
    ∃ os, SameFuncs pf c.funcs os ∧
      mcFactory P indices float attr text pf blf =
        match attr (c.method.getD "None".toList) with
        | none => .error .attribute
        | some e => if c.r = [] then .error .dataFormat
          else .ok ⟨c.model, c.baseline, some (c.r.map g), some (c.y.map g), some (c.err.map g), slice, e, os⟩ := by
  obtain ⟨ft, bt, pt, hft, hbt, hpt, hl⟩ := mcWritestr_lines h hw
  obtain ⟨os, hos, hr⟩ := mcRest_lines h attr hft hbt hpt
  obtain ⟨-, hbp, -⟩ := baseline_lines h.base hbt
  refine ⟨os, hos, ?_⟩
  have hplain3 : ∀ l ∈ [("peak_funcs=".toList ++ ft), "ModelEvaluator=".toList ++ c.method.getD "None".toList,
      "slice=".toList ++ c.slice], Plain l := by
    intro l hm
    simp only [List.mem_cons, List.not_mem_nil, or_false] at hm
    rcases hm with rfl | rfl | rfl <;> exact fun h => by cases h
  -- the data section
  have hc1 : cut "start data".toList (splitLines text) = some (headLines P c blf ft ++ "## ModelPeaks".toList :: peakLines P pf c.model,
      [] :: "#L r y dy".toList :: ((triples c.r c.y c.err).map (rowText fmt) ++ [[]])) := by
    have e : splitLines text = (headLines P c blf ft ++ "## ModelPeaks".toList :: peakLines P pf c.model) ++ "### start data".toList ::
        "#L r y dy".toList :: ((triples c.r c.y c.err).map (rowText fmt) ++ [[]]) := by
      rw [hl]; simp
    rw [e]
    refine cut_append _ _ _ _ _ ?_ (by decide)
    intro l hm
    unfold headLines at hm
    rcases List.mem_append.1 hm with hm | hm
    · rcases List.mem_append.1 hm with hm | hm
      · exact afterMarker_plain _ (hplain3 l hm)
      · rcases List.mem_cons.1 hm with rfl | hm
        · decide
        · exact afterMarker_plain _ (hbp l hm)
    rcases List.mem_cons.1 hm with rfl | hm
    · decide
    · unfold peakLines at hm
      obtain ⟨p, -, hm⟩ := List.mem_flatMap.1 hm
      rcases List.mem_cons.1 hm with rfl | hm
      · decide
      · exact afterMarker_plain _ (linesOf_plain P pf p l hm)
  have hc2 : cut "ModelPeaks".toList (headLines P c blf ft ++ "## ModelPeaks".toList :: peakLines P pf c.model) =
      some (headLines P c blf ft, [] :: peakLines P pf c.model) := by
    refine cut_append _ _ _ _ _ ?_ (by decide)
    intro l hm
    unfold headLines at hm
    rcases List.mem_append.1 hm with hm | hm
    · exact afterMarker_plain _ (hplain3 l hm)
    · rcases List.mem_cons.1 hm with rfl | hm
      · decide
      · exact afterMarker_plain _ (hbp l hm)
  have hc3 : cut "BaselineObject".toList (headLines P c blf ft) = some ([("peak_funcs=".toList ++ ft),
      "ModelEvaluator=".toList ++ c.method.getD "None".toList, "slice=".toList ++ c.slice], [] :: baseLines P blf c.baseline) := by
    refine cut_append _ _ _ _ _ ?_ (by decide)
    exact fun l hm => afterMarker_plain _ (hplain3 l hm)
  rw [← hr]
  unfold mcFactory
  rw [hc1]
  simp only
  have hsec : mcSections (headLines P c blf ft ++ "## ModelPeaks".toList :: peakLines P pf c.model) =
      (headerLines c ft, some ([] :: baseLines P blf c.baseline), some (peakLines P pf c.model)) := by
    unfold mcSections
    rw [hc2]
    simp only
    rw [hc3]
    rfl
  rw [hsec]

end Verif.Text
