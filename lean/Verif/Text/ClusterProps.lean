import Verif.Text.Cluster

/-!
# C77: theorems about the text of a cluster
-/

namespace Verif.Text

open Verif.Py Verif.Parts

open Verif.Pdf (splitLines)

set_option linter.unusedSectionVars false

variable {K V E : Type}

/-- Function number `id` is in the list. -/
def Listed (owners : List (Owner K)) (id : ℕ) : Prop := ∃ o ∈ owners, o.id = id

theorem ownerIndex_listed (owners : List (Owner K)) (id : ℕ) :
    (Listed owners id → ∃ i, ownerIndex owners id = some i) ∧ (¬ Listed owners id → ownerIndex owners id = none) := by
  unfold ownerIndex
  constructor
  · rintro ⟨o, ho, e⟩
    cases h : owners.findIdx? (fun o => decide (o.id = id)) with
    | some i => exact ⟨i, rfl⟩
    | none =>
      rw [List.findIdx?_eq_none_iff] at h
      have := h o ho
      simp [e] at this
  · intro h
    rw [List.findIdx?_eq_none_iff]
    intro o ho
    simp only [decide_eq_false_iff_not]
    exact fun e => h ⟨o, ho, e⟩

theorem funcIndices_ok (pf : List (Owner K)) (fs : List ℕ) :
    (funcIndices pf fs).isOk = true ↔ ∀ f ∈ fs, Listed pf f := by
  induction fs with
  | nil => simp [funcIndices, Except.isOk, Except.toBool]
  | cons f fs ih =>
    rw [funcIndices]
    by_cases hf : Listed pf f
    · obtain ⟨i, hi⟩ := (ownerIndex_listed pf f).1 hf
      rw [hi]
      simp only
      cases h : funcIndices pf fs with
      | error e =>
        rw [h] at ih
        simp only [Except.isOk, Except.toBool, List.mem_cons, forall_eq_or_imp] at ih ⊢
        exact ⟨fun x => (by cases x), fun x => ih.2 x.2⟩
      | ok is =>
        rw [h] at ih
        simp only [Except.isOk, Except.toBool, List.mem_cons, forall_eq_or_imp] at ih ⊢
        exact ⟨fun _ => ⟨hf, ih.1 trivial⟩, fun _ => trivial⟩
    · rw [(ownerIndex_listed pf f).2 hf]
      simp only [Except.isOk, Except.toBool, List.mem_cons, forall_eq_or_imp]
      exact ⟨fun x => (by cases x), fun x => absurd x.1 hf⟩

theorem peaksText_ok (P : Python K V) (pf : List (Owner K)) (ps : List (Part K)) :
    (peaksText P pf ps).isOk = true ↔ ∀ p ∈ ps, Listed pf p.owner.id := by
  induction ps with
  | nil => simp [peaksText, Except.isOk, Except.toBool]
  | cons p ps ih =>
    rw [peaksText, writestr]
    by_cases hf : Listed pf p.owner.id
    · obtain ⟨i, hi⟩ := (ownerIndex_listed pf p.owner.id).1 hf
      rw [hi]
      simp only
      cases h : peaksText P pf ps with
      | error e =>
        rw [h] at ih
        simp only [Except.isOk, Except.toBool, List.mem_cons, forall_eq_or_imp] at ih ⊢
        exact ⟨fun x => (by cases x), fun x => ih.2 x.2⟩
      | ok is =>
        rw [h] at ih
        simp only [Except.isOk, Except.toBool, List.mem_cons, forall_eq_or_imp] at ih ⊢
        exact ⟨fun _ => ⟨hf, ih.1 trivial⟩, fun _ => trivial⟩
    · rw [(ownerIndex_listed pf p.owner.id).2 hf]
      simp only [Except.isOk, Except.toBool, List.mem_cons, forall_eq_or_imp]
      exact ⟨fun x => (by cases x), fun x => absurd x.1 hf⟩

theorem dataText_isOk (fmt : K → List Char) (r y e : List K) :
    (dataText fmt r y e).isOk = true ↔ r.length ≤ y.length ∧ r.length ≤ e.length := by
  induction r generalizing y e with
  | nil => simp [dataText, Except.isOk, Except.toBool]
  | cons a r ih =>
    cases y with
    | nil => simp [dataText, Except.isOk, Except.toBool]
    | cons b y =>
      cases e with
      | nil => simp [dataText, Except.isOk, Except.toBool]
      | cons c e =>
        have := ih y e
        rw [dataText]
        cases h : dataText fmt r y e with
        | error x => rw [h] at this; simpa [Except.isOk, Except.toBool] using this
        | ok ts => rw [h] at this; simpa [Except.isOk, Except.toBool] using this

/-- **C77.** A cluster is written exactly if the owners of its peaks and its peak functions are in the list of peak
functions, the owner of its baseline is in the list of baseline functions, and there is a value and an uncertainty for each
coordinate. -/
theorem c77_writable (P : Python K V) (fmt : K → List Char) (c : Mc K) (pf blf : List (Owner K)) :
    (∃ text, mcWritestr P fmt c pf blf = .ok text) ↔
      (∀ p ∈ c.model, Listed pf p.owner.id) ∧ (∀ fs, c.funcs = some fs → ∀ f ∈ fs, Listed pf f) ∧
      (∀ b, c.baseline = some b → Listed blf b.owner.id) ∧ c.r.length ≤ c.y.length ∧ c.r.length ≤ c.err.length := by
  have h1 : (funcsText pf c.funcs).isOk = true ↔ ∀ fs, c.funcs = some fs → ∀ f ∈ fs, Listed pf f := by
    cases hc : c.funcs with
    | none => simp [funcsText, Except.isOk, Except.toBool]
    | some fs =>
      have := funcIndices_ok pf fs
      unfold funcsText
      simp only [Option.some.injEq, forall_eq']
      rw [← this]
      cases funcIndices pf fs <;> rfl
  have h2 : (baselineText P blf c.baseline).isOk = true ↔ ∀ b, c.baseline = some b → Listed blf b.owner.id := by
    cases hc : c.baseline with
    | none => simp [baselineText, Except.isOk, Except.toBool]
    | some b =>
      simp only [baselineText, writestr, Option.some.injEq, forall_eq']
      by_cases hb : Listed blf b.owner.id
      · obtain ⟨i, hi⟩ := (ownerIndex_listed blf b.owner.id).1 hb
        rw [hi]
        simp [hb, Except.isOk, Except.toBool]
      · rw [(ownerIndex_listed blf b.owner.id).2 hb]
        simp [hb, Except.isOk, Except.toBool]
  rw [← h1, ← h2, ← peaksText_ok P, ← dataText_isOk fmt]
  unfold mcWritestr
  cases funcsText pf c.funcs with
  | error e => simp [Except.isOk, Except.toBool]
  | ok a =>
    cases baselineText P blf c.baseline with
    | error e => simp [Except.isOk, Except.toBool]
    | ok b =>
      cases peaksText P pf c.model with
      | error e => simp [Except.isOk, Except.toBool]
      | ok d =>
        cases dataText fmt c.r c.y c.err with
        | error e => simp [Except.isOk, Except.toBool]
        | ok d' => simp [Except.isOk, Except.toBool]

/-- **C77.** What is written for a cluster with data is read back with the same peaks, baseline, peak functions and slice,
the data as they come back from `%g`, and the evaluator found under the name written. -/
theorem c77_roundtrip (P : Python K V) (indices : V → Res (List ℤ)) (float : List Char → Option K) (fmt : K → List Char)
    (g : K → K) (c : Mc K) (pf blf : List (Owner K)) (slice : V) (attr : List Char → Option E) (e : E)
    (h : McReadable P indices float fmt g c pf blf slice) (hne : c.r ≠ []) (he : attr (c.method.getD "None".toList) = some e)
    (text : List Char) (hw : mcWritestr P fmt c pf blf = .ok text) :
    ∃ os, SameFuncs pf c.funcs os ∧ mcFactory P indices float attr text pf blf =
      .ok ⟨c.model, c.baseline, some (c.r.map g), some (c.y.map g), some (c.err.map g), slice, e, os⟩ := by
  obtain ⟨os, h1, h2⟩ := mcFactory_lines h attr hw
  refine ⟨os, h1, ?_⟩
  rw [h2, he]
  simp only
  rw [if_neg hne]

/-- The names in the package `diffpy.srmise.modelevaluators` whose `__init__.py` is empty: its modules and the names every
module has. -/
def packageNames : List (List Char) :=
  ["base", "aic", "aicc", "__name__", "__doc__", "__package__", "__loader__", "__spec__", "__path__", "__file__", "__cached__",
    "__builtins__"].map String.toList

/-- **C77, finding.** With the package as it is, nothing that is written can be read: the classes `AIC` and `AICc`, the
base class, and `None` for no evaluator, are not names of the package, so reading ends in AttributeError. -/
theorem c77_evaluator_not_found (P : Python K V) (indices : V → Res (List ℤ)) (float : List Char → Option K)
    (fmt : K → List Char) (g : K → K) (c : Mc K) (pf blf : List (Owner K)) (slice : V) (attr : List Char → Option E)
    (h : McReadable P indices float fmt g c pf blf slice) (hattr : ∀ n e, attr n = some e → n ∈ packageNames)
    (hm : c.method ∈ [none, some "AIC".toList, some "AICc".toList, some "ModelEvaluator".toList])
    (text : List Char) (hw : mcWritestr P fmt c pf blf = .ok text) :
    mcFactory P indices float attr text pf blf = .error .attribute := by
  obtain ⟨os, -, h2⟩ := mcFactory_lines h attr hw
  rw [h2]
  cases ha : attr (c.method.getD "None".toList) with
  | none => rfl
  | some e =>
    have hin := hattr _ _ ha
    have key : ∀ m ∈ [none, some "AIC".toList, some "AICc".toList, some "ModelEvaluator".toList],
        m.getD "None".toList ∉ packageNames := by
      unfold packageNames
      decide
    exact absurd hin (key _ hm)

/-- **C77, finding.** A cluster without data is written but not read. -/
theorem c77_no_points (P : Python K V) (indices : V → Res (List ℤ)) (float : List Char → Option K) (fmt : K → List Char)
    (g : K → K) (c : Mc K) (pf blf : List (Owner K)) (slice : V) (attr : List Char → Option E) (e : E)
    (h : McReadable P indices float fmt g c pf blf slice) (hne : c.r = []) (he : attr (c.method.getD "None".toList) = some e)
    (text : List Char) (hw : mcWritestr P fmt c pf blf = .ok text) :
    mcFactory P indices float attr text pf blf = .error .dataFormat := by
  obtain ⟨os, -, h2⟩ := mcFactory_lines h attr hw
  rw [h2, he]
  simp only
  rw [if_pos hne]

/-- **C77, finding.** A text without a data section is not refused with SrMiseDataFormatError: reading uses a name that was
never assigned. -/
theorem c77_no_data_section (P : Python K V) (indices : V → Res (List ℤ)) (float : List Char → Option K)
    (attr : List Char → Option E) (text : List Char) (pf blf : List (Owner K))
    (h : ∀ l ∈ splitLines text, l.head? ≠ some '#') : mcFactory P indices float attr text pf blf = .error .name := by
  unfold mcFactory
  rw [cut_none _ _ (fun l hl => afterMarker_plain _ (h l hl))]

theorem mapM_length {α β : Type} {f : α → Option β} {l : List α} {r : List β} (h : l.mapM f = some r) : r.length = l.length := by
  induction l generalizing r with
  | nil => simp at h; simp [h]
  | cons a l ih =>
    rw [List.mapM_cons] at h
    cases ha : f a with
    | none => rw [ha] at h; cases h
    | some b =>
      rw [ha] at h
      cases hl : l.mapM f with
      | none => rw [hl] at h; cases h
      | some bs =>
        rw [hl] at h
        cases h
        simp [ih hl]

theorem readRows_length {float : List Char → Option K} {n : ℕ} {ls : List (List Char)} {rows : List (List K)}
    (h : readRows float n ls = .ok rows) : rows.length = ls.length ∧ ∀ row ∈ rows, row.length = n := by
  induction ls generalizing rows with
  | nil => cases h; exact ⟨rfl, fun _ h => nomatch h⟩
  | cons l ls ih =>
    rw [readRows] at h
    split at h
    · cases h
    · rename_i hn
      split at h
      · cases h
      · rename_i row hrow
        split at h
        · cases h
        · rename_i rs hrs
          cases h
          obtain ⟨h1, h2⟩ := ih hrs
          refine ⟨by simp [h1], ?_⟩
          intro r hr
          rcases List.mem_cons.1 hr with rfl | hr
          · have := mapM_length hrow
            omega
          · exact h2 r hr

/-- **C77.** When a text is read, the columns present have the same number of points. -/
theorem c77_columns (P : Python K V) (indices : V → Res (List ℤ)) (float : List Char → Option K) (attr : List Char → Option E)
    (text : List Char) (pf blf : List (Owner K)) (m : McRead K V E) (h : mcFactory P indices float attr text pf blf = .ok m) :
    ∃ n, (∀ l, m.r = some l → l.length = n) ∧ (∀ l, m.y = some l → l.length = n) ∧ (∀ l, m.err = some l → l.length = n) := by
  unfold mcFactory at h
  split at h
  · cases h
  rename_i header dat hcut
  unfold mcRest at h
  simp only at h
  generalize hfl : [hasWord ['r'] _, hasWord ['y'] _, hasWord ['d', 'y'] _] = flags at h
  split at h
  · cases h
  split at h
  · cases h
  split at h
  · cases h
  split at h
  · cases h
  split at h
  · cases h
  split at h
  · cases h
  split at h
  · cases h
  split at h
  · cases h
  split at h
  · cases h
  rename_i rows hrows
  cases h
  obtain ⟨-, hrow⟩ := readRows_length hrows
  have hlen : flags.length = 3 := by rw [← hfl]; rfl
  have key : ∀ (j : ℕ) (l : List K), column rows flags j = some l → l.length = rows.length := by
    intro j l hl
    unfold column at hl
    split at hl
    · rename_i hj
      cases hl
      have hlt : ((flags.take j).count true) < flags.count true := by
        have hj' : flags[j]? = some true := by
          cases hx : flags[j]? with
          | none => rw [hx] at hj; cases hj
          | some b => rw [hx] at hj; simp only [Option.getD_some] at hj; rw [hj]
        have e : flags = flags.take j ++ true :: flags.drop (j + 1) := by
          have hjl : j < flags.length := (List.getElem?_eq_some_iff.1 hj').1
          have he : flags[j] = true := (List.getElem?_eq_some_iff.1 hj').2
          rw [← he, List.cons_getElem_drop_succ, List.take_append_drop]
        conv_rhs => rw [e]
        rw [List.count_append, List.count_cons_self]
        omega
      have : ∀ rs : List (List K), (∀ row ∈ rs, row.length = flags.count true) →
          (rs.filterMap (fun row => row[((flags.take j).count true)]?)).length = rs.length := by
        intro rs hrs
        induction rs with
        | nil => rfl
        | cons r rs ih =>
          have hr := hrs r (by simp)
          have : r[((flags.take j).count true)]? = some (r[((flags.take j).count true)]'(by omega)) := List.getElem?_eq_getElem _
          rw [List.filterMap_cons, this]
          simp only [List.length_cons]
          rw [ih (fun x hx => hrs x (by simp [hx]))]
      exact this rows hrow
    · cases hl
  exact ⟨rows.length, fun l hl => key 0 l hl, fun l hl => key 1 l hl, fun l hl => key 2 l hl⟩

/-! ### An example -/

/-- A Python that also knows `[1, 0]` and a slice. -/
def exPyC : Python ℤ ExV :=
  { exPy with eval := fun t => if t = "[1, 0]".toList then some (.nums [1, 0]) else if t = "slice(0, 2, None)".toList then some (.int 9) else exPy.eval t }

/-- `float` for two texts. -/
def exFloat (t : List Char) : Option ℤ := if t = ['3'] then some 3 else if t = ['7'] then some 7 else none

/-- The indices in a list. -/
def exIndices : ExV → Res (List ℤ)
  | .nums l => .ok l
  | _ => .error .type

/-- A cluster of two peaks and a baseline. -/
def exMc : Mc ℤ :=
  ⟨[exTextPart, exTextPart], some exTextPart, some [8, 5], some "AIC".toList, "slice(0, 2, None)".toList, [3, 7], [7, 7], [3, 3]⟩

theorem exReadableC (i : ℕ) (hi : i ≤ 1) : Readable exPyC exTextPart i where
  index := by
    rcases Nat.le_one_iff_eq_zero_or_eq_one.1 hi with rfl | rfl
    · exact ⟨.int 0, by decide, rfl⟩
    · exact ⟨.int 1, by decide, rfl⟩
  pars := ⟨.nums [3, 7], by decide, rfl⟩
  free := ⟨.bools [true, false], by decide, rfl⟩
  bool := fun b => ⟨.bool b, by cases b <;> decide, rfl⟩
  numLine := by
    intro x hx
    simp only [exTextPart, List.mem_cons, List.not_mem_nil, or_false] at hx
    rcases hx with rfl | rfl <;> (intro c hc; revert c; decide)
  freeLine := oneLine_reprBool

theorem exMcReadable : McReadable exPyC exIndices exFloat (exPy.reprNum false) id exMc [exOwner 5, exOwner 8] [exOwner 8] (.int 9) := by
  have own : ∀ os : List (Owner ℤ), (os = [exOwner 5, exOwner 8] ∨ os = [exOwner 8]) → PartReadable exPyC os exTextPart := by
    intro os hos
    refine ⟨?_, rfl, rfl, ?_⟩
    · intro o ho hid
      rcases hos with rfl | rfl
      · simp only [List.mem_cons, List.not_mem_nil, or_false] at ho
        rcases ho with rfl | rfl
        · exact absurd hid (by decide)
        · rfl
      · simp only [List.mem_cons, List.not_mem_nil, or_false] at ho
        subst ho
        rfl
    · intro i hi
      obtain ⟨o, ho, -⟩ := ownerIndex_some hi
      have hlt := (List.getElem?_eq_some_iff.1 ho).1
      refine exReadableC i ?_
      rcases hos with rfl | rfl <;> simp only [List.length_cons, List.length_nil] at hlt <;> omega
  constructor
  · intro p hp
    simp only [exMc, List.mem_cons, List.not_mem_nil, or_false] at hp
    rcases hp with rfl | rfl <;> exact own _ (.inl rfl)
  · intro p hp
    cases hp
    exact own _ (.inr rfl)
  · intro h; cases h
  · intro fs is h1 h2
    cases h1
    have : funcIndices [exOwner 5, exOwner 8] [8, 5] = .ok [1, 0] := by decide
    rw [this] at h2
    cases h2
    exact ⟨.nums [1, 0], by decide, rfl, rfl⟩
  · intro m hm
    cases hm
    decide
  · decide
  · decide
  · intro x hx
    have : x = 3 ∨ x = 7 := by
      simp [exMc] at hx
      tauto
    rcases this with rfl | rfl
    · decide
    · decide
  · decide

/-- Instance of `c77_roundtrip`, `c77_writable` and `c77_evaluator_not_found`: the same text is read if the name `AIC` is
found, and not otherwise. -/
example : ∃ text, mcWritestr exPyC (exPy.reprNum false) exMc [exOwner 5, exOwner 8] [exOwner 8] = .ok text ∧
    (∃ m, mcFactory (E := ℕ) exPyC exIndices exFloat (fun n => if n = "AIC".toList then some 0 else none) text
      [exOwner 5, exOwner 8] [exOwner 8] = .ok m ∧ m.r = some [3, 7] ∧ m.model = exMc.model) ∧
    mcFactory (E := ℕ) exPyC exIndices exFloat (fun n => if n ∈ packageNames then some 0 else none) text
      [exOwner 5, exOwner 8] [exOwner 8] = .error .attribute := by
  obtain ⟨text, ht⟩ := (c77_writable exPyC (exPy.reprNum false) exMc [exOwner 5, exOwner 8] [exOwner 8]).2 (by
    refine ⟨?_, ?_, ?_, by decide, by decide⟩
    · intro p hp
      simp only [exMc, List.mem_cons, List.not_mem_nil, or_false] at hp
      rcases hp with rfl | rfl <;> exact ⟨exOwner 8, by simp, rfl⟩
    · intro fs hfs f hf
      cases hfs
      simp only [List.mem_cons, List.not_mem_nil, or_false] at hf
      rcases hf with rfl | rfl
      · exact ⟨exOwner 8, by simp, rfl⟩
      · exact ⟨exOwner 5, by simp, rfl⟩
    · intro b hb
      cases hb
      exact ⟨exOwner 8, by simp, rfl⟩)
  refine ⟨text, ht, ?_, ?_⟩
  · obtain ⟨os, -, h⟩ := c77_roundtrip exPyC exIndices exFloat (exPy.reprNum false) id exMc _ _ (.int 9)
      (fun n => if n = "AIC".toList then some 0 else none) 0 exMcReadable (by decide) (by decide) text ht
    exact ⟨_, h, rfl, rfl⟩
  · refine c77_evaluator_not_found exPyC exIndices exFloat (exPy.reprNum false) id exMc _ _ (.int 9) _ exMcReadable ?_ (by decide) text ht
    intro n e hn
    split at hn
    · assumption
    · cases hn

end Verif.Text
